/-! Texts the library prints through buffers of fixed size, and names of layers.

Modelled: `/repo/nntl/training_observer.h` 104–121 (`training_observer_stdcout_base`), 126–162 (`training_observer_simple_stdcout`), 248–306
(`training_observer_stdcout`); `/repo/nntl/nnet.h` 624–645, 663–675 (reports of time, the divergence check), 1047–1108 (messages of the numeric check);
`/repo/nntl/train_data/_td_base.h` 61–77 (names of data sets); `/repo/nntl/layer/_layer_base.h` 450–508 (names and types of layers).

Simplified: arithmetic of the numbers to be printed is exact. `printf` rounds to nearest; how it resolves ties is left open. What it prints for
infinities and not-a-numbers is an arbitrary text, so is the result of `%g`. `sprintf_s` calls the invalid parameter handler if the text
with its terminating zero is longer than the buffer; the handler ends the program (`none`). -/
namespace Nntl.Text

/-- Characters before the terminating zero. -/
abbrev Text := List Char

/-- A number to be printed: sign and magnitude `a / d`, or something that is not finite and its text. -/
inductive FVal
  | fin (neg : Bool) (a d : Nat)
  | odd (t : Text)

/-- Conversion `%d`, `%zd`: decimal digits with the sign. -/
def intText : Int → Text
  | .ofNat n => Nat.toDigits 10 n
  | .negSucc n => '-' :: Nat.toDigits 10 (n + 1)

/-- The nearest integer to `a / d`; `up` resolves ties. -/
def nearest (up : Nat → Bool) (a d : Nat) : Nat :=
  if 2 * (a % d) < d then a / d
  else if d < 2 * (a % d) then a / d + 1
  else if up (a / d) then a / d + 1 else a / d

/-- Blanks or zeros in front of the text up to the width. -/
def padL (c : Char) (w : Nat) (t : Text) : Text := List.replicate (w - t.length) c ++ t

/-- Blanks behind the text: the flag `-`. -/
def padR (w : Nat) (t : Text) : Text := t ++ List.replicate (w - t.length) ' '

/-- `n` units of `10 ^ -p`. -/
def fixed (p n : Nat) : Text := Nat.toDigits 10 (n / 10 ^ p) ++ '.' :: padL '0' p (Nat.toDigits 10 (n % 10 ^ p))

/-- Conversion `%w.pf`, with the flag `0` if `zero`. -/
def fltText (up : Nat → Bool) (zero : Bool) (w p : Nat) : FVal → Text
  | .fin neg a d =>
    let t := fixed p (nearest up (a * 10 ^ p) d)
    let s := if neg then ['-'] else []
    if zero then s ++ padL '0' (w - s.length) t else padL ' ' w (s ++ t)
  | .odd t => padL ' ' w t

/-- The flag "space" of `% 3zd`: a blank in the place of the sign. -/
def spaced (t : Text) : Text := if t.head? = some '-' then t else ' ' :: t

/-- `sprintf_s(buffer, cap, ..)`. -/
def print (cap : Nat) (t : Text) : Option Text := if t.length < cap then some t else none

/-! ### Reports of the training -/

/-- What is counted for a data set: `CLASSIFICATION_RESULTS`, `training_observer.h` 174–177. -/
structure Counts where
  total : Nat
  correct : Nat

def Counts.wrong (c : Counts) : Int := (c.total : Int) - c.correct

/-- `real_t(trainW * 100) / trainTE`, `training_observer.h` 262, 293, 296; `nan`: the text of 0/0. -/
def Counts.err (c : Counts) (nan : Text) : FVal :=
  if c.total = 0 then .odd nan else .fin (decide (c.wrong < 0)) (c.wrong * 100).natAbs c.total

/-- `secs`, `training_observer.h` 153, 290, `nnet.h` 635, 669. -/
def secs (ns : Nat) : FVal := .fin false ns 1000000000

/-- `on_training_fragment_end` of `training_observer_stdcout`, `training_observer.h` 282–302. -/
def fragment (up : Nat → Bool) (nan : Text) (epochEnded epochs : Int) (ns : Nat) (trL vL : FVal) (tr te : Counts) : Option Text :=
  print 128 (padL ' ' 3 (spaced (intText (epochEnded + 1))) ++ "/".toList ++ padR 3 (intText epochs) ++ " ".toList ++ fltText up false 3 1 (secs ns) ++
    "s trL=".toList ++ fltText up true 5 3 trL ++ ", trErr=".toList ++ fltText up false 0 2 (tr.err nan) ++ "% (".toList ++ intText tr.wrong ++
    "), vL=".toList ++ fltText up true 5 3 vL ++ ", vErr=".toList ++ fltText up false 0 2 (te.err nan) ++ "% (".toList ++ intText te.wrong ++ ")".toList)

/-- `on_training_fragment_end` of `training_observer_simple_stdcout`, `training_observer.h` 148–157. -/
def fragmentSimple (up : Nat → Bool) (epochEnded epochs : Int) (ns : Nat) (trL vL : FVal) : Option Text :=
  print 128 (padL ' ' 3 (spaced (intText (epochEnded + 1))) ++ "/".toList ++ padR 3 (intText epochs) ++ " ".toList ++ fltText up false 3 1 (secs ns) ++
    "s trL=".toList ++ fltText up false 8 5 trL ++ ", vL=".toList ++ fltText up false 8 5 vL)

/-- `report_results_end` of `training_observer_stdcout` for a further data set, `training_observer.h` 251–268; `name`: what the naming
function has written. -/
def setReport (up : Nat → Bool) (nan name : Text) (loss : FVal) (c : Counts) : Option Text :=
  print 128 (name ++ ": Loss=".toList ++ fltText up true 5 3 loss ++ ", Err=".toList ++ fltText up false 0 2 (c.err nan) ++ "% (".toList ++
    intText c.wrong ++ ")".toList)

/-- The default naming function, `_td_base.h` 61–77, called with a buffer of 32 (`_i_train_data.h` 62). -/
def setName (id : Int) : Option Text :=
  if id = 0 then print 32 "train".toList
  else if id = 1 then print 32 "test".toList
  else print 32 ("!Unknown!".toList ++ intText id)

/-- `on_training_start`, `training_observer.h` 107–120; `batches` is `trainset_samples_count() / batchSize`. -/
def start (xw yw params train test batch batches maxFprop : Int) : Option Text :=
  print 256 ("Model f:".toList ++ intText xw ++ "->".toList ++ intText yw ++ " has ".toList ++ intText params ++ " params. There are ".toList ++
    intText train ++ " training samples and ".toList ++ intText test ++ " for testing. BatchSize=".toList ++ intText batch ++
    ", batchCnt=".toList ++ intText batches ++ ", maxFpropSize=".toList ++ intText maxFprop)

/-- The report of time after an epoch, `nnet.h` 631–638. -/
def timeEpoch (up : Nat → Bool) (epochIdx maxEpoch : Int) (ns : Nat) : Option Text :=
  print 64 (padL ' ' 3 (spaced (intText (epochIdx + 1))) ++ "/".toList ++ padR 3 (intText maxEpoch) ++ " ".toList ++ fltText up false 3 1 (secs ns) ++
    "s (time report only)".toList)

/-- The report of time in the end, `nnet.h` 664–672. -/
def timeAll (up : Nat → Bool) (maxEpoch params : Int) (ns : Nat) : Option Text :=
  print 128 (padR 3 (intText maxEpoch) ++ " training epochs (".toList ++ intText params ++ " params) took ".toList ++ fltText up false 3 1 (secs ns) ++
    "s (time report only)".toList)

/-- What an epoch ends with, `nnet.h` 624–645: the program is ended, the training is ended with `NNDiverged`, or goes on. -/
inductive EpochEnd
  | aborted
  | diverged
  | goesOn
  deriving DecidableEq

/-- The part of `train` that reports an epoch, `nnet.h` 624–645, for an epoch that has to be reported, with the default observer. `atLeast`:
`trainLoss >= divergenceCheckThreshold()`. -/
def epochReport (up : Nat → Bool) (nan : Text) (epochIdx lastCheck epochs : Int) (ns : Nat) (trL vL : FVal) (tr te : Counts) (atLeast : Bool) : EpochEnd :=
  match fragment up nan epochIdx epochs ns trL vL tr te with
  | none => .aborted
  | some _ => if decide (epochIdx < lastCheck) && atLeast then .diverged else .goesOn

/-! ### Messages of the numeric check of derivatives, `nnet.h` 1047–1108 -/

/-- `nnet.h` 1087–1088. -/
def tooMany (zeros maxZeros : Int) (group : Text) : Option Text :=
  print (128 + 32) ("Too many (".toList ++ intText zeros ++ " of max ".toList ++ intText maxZeros ++ ") of ".toList ++ group ++
    " equal to zero. If it is acceptable, adjust corresponding gradcheck_settings::evalSetts.percOfZerodLd*".toList)

/-- `nnet.h` 1098–1099; the arguments are the results of `%g`. -/
def relWarn (err thr : Text) : Option Text := print 128 ("Relative error = ".toList ++ err ++ " (thrsh ".toList ++ thr ++ "). Probably not an error.".toList)

/-- `nnet.h` 1102–1103. -/
def relFail (err thr : Text) : Option Text := print 128 ("Relative error = ".toList ++ err ++ " (thrsh ".toList ++ thr ++ "). Gradient might be wrong!".toList)

/-! ### Names and types of layers, `_layer_base.h` 450–508 -/

/-- `set_custom_name` 477–481 with assertions; `layerNameMaxChars` is 50, `customNameMaxChars` 40 (452, 454). -/
def setCustom (checked : Bool) (t : Text) : Option Text := if checked && decide (40 ≤ t.length) then none else some t

/-- `get_layer_name` 484–486 as called by `get_layer_name_str` 487–492. -/
def layerName (name : Text) (idx : Nat) : Option Text := print 50 (name ++ "_".toList ++ intText idx)

/-- `layer_type_id_t(pStr[pos])`: conversion of a `char`, which is signed, to 64 bits. -/
def charId (c : Char) : Nat := if c.toNat % 256 < 128 then c.toNat % 256 else 2 ^ 64 - 256 + c.toNat % 256

/-- `_get_layer_type_id` 499–502 for the characters of the array from `pos` on, the terminating zero included. -/
def typeIdOf : Text → Nat
  | [] => 0
  | c :: t => charId c ||| (typeIdOf t * 256 % 2 ^ 64)

/-- `get_layer_type_id` 504–507; `none`: does not compile. -/
def typeId (defName : Text) : Option Nat := if defName.length ≤ 8 then some (typeIdOf (defName ++ ['\x00'])) else none

end Nntl.Text
