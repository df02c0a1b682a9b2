import Verif.Ttd.Props
/-! C150: initialisation; C151: normalisation and the other state of the object. -/
namespace Nntl.Ttd
variable {P : Type}

/-! ### C150 -/

theorem mul_clamp {k r n : Nat} (hk : 0 < k) :
    ((clampTo r n * k : Nat) : Int) = if ((r * k : Nat) : Int) = 0 ∨ ((r * k : Nat) : Int) > (k : Int) * (n : Int) then (k : Int) * (n : Int)
      else ((r * k : Nat) : Int) := by
  have hkn : (k : Int) * (n : Int) = ((n * k : Nat) : Int) := by rw [Int.natCast_mul, Int.mul_comm]
  rw [hkn]
  unfold clampTo
  by_cases h : r = 0 ∨ n < r
  · rw [if_pos h, if_pos]
    rcases h with h | h
    · left; simp [h]
    · right; have := (Nat.mul_lt_mul_right hk).2 h; omega
  · have h1 : r * k ≠ 0 := Nat.mul_ne_zero (by omega) (by omega)
    have h2 := Nat.mul_le_mul_right k (show r ≤ n by omega)
    rw [if_neg h, if_neg (by omega)]

theorem ready {c : Src} (hc : c.Fits) (hok : c.ok = true) {t : TT P} {f b : Nat} (hf : t.maxF = ((f * c.sibs : Nat) : Int))
    (hb : t.maxB = ((b * c.sibs : Nat) : Int)) (hb0 : 0 < b) (hbf : b ≤ f) (k j : Nat) (hk : k = 0 ∨ k = f) (hj : j = 0 ∨ j = b) :
    isInit4train c t ((k * c.sibs : Nat) : Int) ((j * c.sibs : Nat) : Int)
      = some (((f * c.sibs : Nat) : Int), ((b * c.sibs : Nat) : Int), decide (b < c.base true)) := by
  have hs := hc.sibs
  have hmp := Nat.mul_pos hb0 hs
  have hml := Nat.mul_le_mul_right c.sibs hbf
  have hin : isInit4inference c t ((k * c.sibs : Nat) : Int) = some ((f * c.sibs : Nat) : Int) := by
    rw [isInit4inference_eq hc _ f k hf hok, if_neg (by omega)]
    rcases hk with rfl | rfl
    · rw [if_pos rfl]
    · rw [if_neg (by omega)]
  unfold isInit4train
  rw [hin, hb]
  dsimp only
  have hjj : (if ((j * c.sibs : Nat) : Int) ≠ 0 then ((j * c.sibs : Nat) : Int) else ((b * c.sibs : Nat) : Int)) = ((b * c.sibs : Nat) : Int) := by
    rcases hj with rfl | rfl
    · rw [if_neg (by simp)]
    · rw [if_pos (by omega)]
  rw [hjj, tmod_mul, tdiv_mul hs, if_neg]
  · simp only [Int.ofNat_lt]
  · rintro (h | h | h | h)
    · omega
    · omega
    · exact h rfl
    · omega

/-- The number of samples of the biggest set. -/
def Src.most (c : Src) : Int := (c.sibs : Int) * (max (c.base true) (c.base false) : Nat)

/-- The size used for a request out of `total` samples: all if zero or too many were requested. -/
def fitted (request total : Int) : Int := if request = 0 ∨ request > total then total else request

/-- **C150.** A successful initialisation for training reports (and uses) the requested sizes, where zero or too much means everything,
in whole base samples; the batch is not above the size for inference; the flag says if a batch is less than the training set. The
transformer is initialised for the bigger size, counted in base samples, and the object is then recognised as initialised: with the
reported sizes, and with zeros for them. -/
theorem train_sizes {c : Src} (hc : c.Fits) (hpos : 0 < c.base true) (t : TT P) {maxF maxB : Int} {memOk fOk : Bool} {res : InitRes P}
    (hres : init4train c t maxF maxB memOk fOk = res) (h : res.err = .success) :
    res.maxF = fitted maxF c.most ∧ res.maxB = fitted maxB ((c.sibs : Int) * (c.base true : Nat)) ∧
    0 < res.maxB ∧ res.maxB ≤ res.maxF ∧ res.maxF ≤ vmax ∧
    ∃ f b : Nat, res.maxF = (c.sibs : Int) * f ∧ res.maxB = (c.sibs : Int) * b ∧ res.mini = some (decide (b < c.base true)) ∧
      res.calls = [.deinit, .init f] ∧
      isInit4train c res.t 0 0 = some (res.maxF, res.maxB, decide (b < c.base true)) ∧
      isInit4train c res.t res.maxF res.maxB = some (res.maxF, res.maxB, decide (b < c.base true)) := by
  subst hres
  cases hk : checks c maxF maxB with
  | false => unfold init4train at h; simp [hk] at h
  | true =>
    obtain ⟨hok, f, b, rfl, -, rfl, -⟩ := checks_true hc hk
    have he := init4train_eq hc hok t f b memOk fOk
    dsimp only at he
    rw [he] at h ⊢
    have hs := hc.sibs
    split at h
    · cases h
    next h1 =>
    split at h
    · cases h
    next h2 =>
    split at h
    · cases h
    next h3 =>
    split at h
    · next h4 =>
      rw [if_neg h1, if_neg h2, if_neg h3, if_pos h4]
      have hbp : 0 < clampTo b (c.base true) := by unfold clampTo; split <;> omega
      have hmp := Nat.mul_pos hbp hs
      have hml := Nat.mul_le_mul_right c.sibs (show clampTo b (c.base true) ≤ clampTo f (max (c.base true) (c.base false)) by omega)
      have htr := fun k j => ready hc hok (t := (⟨List.range (c.base true), ((clampTo f (max (c.base true) (c.base false)) * c.sibs : Nat) : Int),
        ((clampTo b (c.base true) * c.sibs : Nat) : Int), 0, none, t.excl, t.prms⟩ : TT P)) rfl rfl hbp (by omega) k j
      refine ⟨mul_clamp hs, mul_clamp hs, by dsimp only; omega, by dsimp only; omega, by dsimp only; omega,
        _, _, by rw [Int.mul_comm]; exact Int.natCast_mul _ _, by rw [Int.mul_comm]; exact Int.natCast_mul _ _, rfl, rfl, ?_, htr _ _ (.inr rfl) (.inr rfl)⟩
      have := htr 0 0 (.inl rfl) (.inl rfl)
      rw [Nat.zero_mul] at this
      exact this
    · cases h

/-- **C150.** When the initialisation for training succeeds: exactly if the data are usable, both requests are nonnegative whole numbers
of base samples, the batch (after fitting) is not above the size for inference, both fit into a matrix, and memory and transformer are
at hand. -/
theorem train_succeeds_iff {c : Src} (hc : c.Fits) (t : TT P) (maxF maxB : Int) (memOk fOk : Bool) :
    (init4train c t maxF maxB memOk fOk).err = .success ↔
      c.ok = true ∧ 0 ≤ maxF ∧ (c.sibs : Int) ∣ maxF ∧ 0 ≤ maxB ∧ (c.sibs : Int) ∣ maxB ∧
      fitted maxB ((c.sibs : Int) * (c.base true : Nat)) ≤ fitted maxF c.most ∧ fitted maxF c.most ≤ vmax ∧ memOk = true ∧ fOk = true := by
  have hs := hc.sibs
  constructor
  · intro h
    cases hk : checks c maxF maxB with
    | false => unfold init4train at h; simp [hk] at h
    | true =>
      obtain ⟨hok, f, b, rfl, -, rfl, -⟩ := checks_true hc hk
      have he := init4train_eq hc hok t f b memOk fOk
      dsimp only at he
      rw [he] at h
      split at h
      · cases h
      next h1 =>
      split at h
      · cases h
      next h2 =>
      split at h
      · cases h
      next h3 =>
      split at h
      · next h4 =>
        have hml := Nat.mul_le_mul_right c.sibs (show clampTo b (c.base true) ≤ clampTo f (max (c.base true) (c.base false)) by omega)
        refine ⟨hok, by omega, ⟨f, by rw [Int.mul_comm]; exact Int.natCast_mul _ _⟩, by omega,
          ⟨b, by rw [Int.mul_comm]; exact Int.natCast_mul _ _⟩, ?_, ?_, by simpa using h3, h4⟩
        · unfold fitted Src.most
          rw [← mul_clamp hs, ← mul_clamp hs]
          omega
        · unfold fitted Src.most
          rw [← mul_clamp hs]
          omega
      · cases h
  · rintro ⟨hok, h1, ⟨f, rfl⟩, h2, ⟨b, rfl⟩, h3, h4, rfl, rfl⟩
    have hf : 0 ≤ f := by
      rcases Int.lt_or_le f 0 with h | h
      · have := Int.mul_neg_of_pos_of_neg (show (0 : Int) < c.sibs by omega) h
        omega
      · exact h
    have hb : 0 ≤ b := by
      rcases Int.lt_or_le b 0 with h | h
      · have := Int.mul_neg_of_pos_of_neg (show (0 : Int) < c.sibs by omega) h
        omega
      · exact h
    obtain ⟨f, rfl⟩ := Int.eq_ofNat_of_zero_le hf
    obtain ⟨b, rfl⟩ := Int.eq_ofNat_of_zero_le hb
    have e1 : (c.sibs : Int) * (f : Int) = ((f * c.sibs : Nat) : Int) := by rw [Int.natCast_mul, Int.mul_comm]
    have e2 : (c.sibs : Int) * (b : Int) = ((b * c.sibs : Nat) : Int) := by rw [Int.natCast_mul, Int.mul_comm]
    rw [e1] at h3 h4 ⊢
    rw [e2] at h3 ⊢
    unfold fitted Src.most at h3 h4
    rw [← mul_clamp hs] at h3 h4
    rw [← mul_clamp hs] at h3
    have he := init4train_eq hc hok t f b true true
    dsimp only at he
    rw [he]
    have h5 : clampTo b (c.base true) ≤ clampTo f (max (c.base true) (c.base false)) := Nat.le_of_mul_le_mul_right (by omega) hs
    rw [if_neg (by omega), if_neg (by omega)]
    rfl

/-- Nothing may be done with the object before the next initialisation. -/
def Uninit (c : Src) (t : TT P) : Prop :=
  (∀ bs, isInit4inference c t bs = none) ∧ ∀ fb tb, isInit4train c t fb tb = none

theorem uninit_deinit {c : Src} (t : TT P) : Uninit c (deinit t) := by
  have h : ∀ bs, isInit4inference c (deinit t) bs = none := by
    intro bs; unfold isInit4inference; exact if_pos (.inr (.inl rfl))
  exact ⟨h, fun fb tb => by unfold isInit4train; rw [h]⟩

/-- **C150** (partial: the full claim has no condition on the request; it is false, see `bad_request_keeps_old`). If an initialisation for
training reports an error, and the request consisted of nonnegative whole numbers of base samples, the object is not initialised
afterwards. -/
theorem train_error_partial {c : Src} (t : TT P) {maxF maxB : Int} {memOk fOk : Bool} (h : (init4train c t maxF maxB memOk fOk).err ≠ .success)
    (hok : c.ok = true) (h1 : 0 ≤ maxF) (h2 : (c.sibs : Int) ∣ maxF) (h3 : 0 ≤ maxB) (h4 : (c.sibs : Int) ∣ maxB) :
    Uninit c (init4train c t maxF maxB memOk fOk).t := by
  have hk : checks c maxF maxB = true := by
    unfold checks
    rw [if_neg (by simp [hok]), if_neg, if_neg]
    · rintro (h | ⟨-, h⟩)
      · omega
      · exact h (Int.tmod_eq_zero_of_dvd h4)
    · rintro (h | h)
      · omega
      · exact h (Int.tmod_eq_zero_of_dvd h2)
  unfold init4train at h ⊢
  rw [if_neg (by rw [hk]; nofun)] at h ⊢
  dsimp only at h ⊢
  generalize (if maxF.tdiv c.sibs ≤ 0 ∨ maxF.tdiv c.sibs > c.biggest then toVec c.biggest else maxF.tdiv c.sibs) = bF at h ⊢
  generalize (if maxB.tdiv c.sibs ≤ 0 ∨ maxB.tdiv c.sibs > (c.base true : Int) then toVec (c.base true) else maxB.tdiv c.sibs) = bB at h ⊢
  split
  · exact uninit_deinit _
  next h5 =>
  rw [if_neg h5] at h
  split
  · exact uninit_deinit _
  next h6 =>
  rw [if_neg h6] at h
  split
  · exact uninit_deinit _
  next h7 =>
  rw [if_neg h7] at h
  split
  · exact uninit_deinit _
  next h8 =>
  rw [if_neg h8] at h
  split
  next h9 => rw [if_pos h9] at h; exact absurd rfl h
  next h9 => exact uninit_deinit _

/-- **C150, false of the code: an initialisation that reports an error leaves the object uninitialised.** A request that is not a whole
number of base samples is refused before the object is touched: an earlier initialisation, with other sizes, stays in force. -/
theorem bad_request_keeps_old {c : Src} (t : TT P) {maxF maxB : Int} {memOk fOk : Bool} (h : ¬ (c.sibs : Int) ∣ maxF) :
    (init4train c t maxF maxB memOk fOk).err = .otherTdInitError ∧ (init4train c t maxF maxB memOk fOk).t = t ∧
    (init4inference c t maxF fOk).err = .otherTdInitError ∧ (init4inference c t maxF fOk).t = t := by
  have hm : maxF.tmod c.sibs ≠ 0 := fun h0 => h (Int.dvd_of_tmod_eq_zero h0)
  have hk : ∀ b, checks c maxF b = false := by
    intro b
    unfold checks
    by_cases ho : (!c.ok) = true
    · rw [if_pos ho]
    · rw [if_neg ho, if_pos (.inr hm)]
  unfold init4train init4inference
  simp [hk]

/-- **C150.** A successful initialisation for inference reports and uses the requested size, where zero or too much means everything; the
object is then recognised as initialised for inference, and not for training. -/
theorem inference_sizes {c : Src} (hc : c.Fits) (hpos : 0 < max (c.base true) (c.base false)) (t : TT P) {maxF : Int} {fOk : Bool} {res : InitRes P}
    (hres : init4inference c t maxF fOk = res) (h : res.err = .success) :
    res.maxF = fitted maxF c.most ∧ res.maxF ≤ vmax ∧ (∃ f : Nat, 0 < f ∧ res.maxF = (c.sibs : Int) * f ∧ res.calls = [.deinit, .init f]) ∧
    isInit4inference c res.t 0 = some res.maxF ∧ isInit4inference c res.t res.maxF = some res.maxF ∧
    ∀ fb tb, isInit4train c res.t fb tb = none := by
  subst hres
  cases hk : checks c maxF 0 with
  | false => unfold init4inference at h; simp [hk] at h
  | true =>
    obtain ⟨hok, f, -, rfl, -⟩ := checks_true hc hk
    have he := init4inference_eq hc hok t f fOk
    dsimp only at he
    rw [he] at h ⊢
    split at h
    · cases h
    next h1 =>
    rw [if_neg h1]
    have hfp : 0 < clampTo f (max (c.base true) (c.base false)) := by unfold clampTo; split <;> omega
    have hin := isInit4inference_eq hc ({ deinit t with maxF := ((clampTo f (max (c.base true) (c.base false)) * c.sibs : Nat) : Int) } : TT P)
      (clampTo f (max (c.base true) (c.base false)))
    refine ⟨mul_clamp hc.sibs, by dsimp only; omega, ⟨_, hfp, by rw [Int.mul_comm]; exact Int.natCast_mul _ _, rfl⟩, ?_, ?_, ?_⟩
    · have := hin 0 rfl hok
      rw [Nat.zero_mul, if_neg (by omega), if_pos rfl] at this
      exact this
    · have := hin (clampTo f (max (c.base true) (c.base false))) rfl hok
      rw [if_neg (by omega), if_neg (by omega)] at this
      exact this
    · intro fb tb
      unfold isInit4train
      split
      · rfl
      · exact if_pos (.inl rfl)

/-- **C150, false of the code: an initialisation that reports an error leaves the object uninitialised.** If the transformer refuses
its initialisation for inference, the error is reported, and the object nevertheless presents itself as initialised. -/
theorem refused_but_initialised {c : Src} (hc : c.Fits) (hpos : 0 < max (c.base true) (c.base false)) (hok : c.ok = true)
    (hfit : c.most ≤ vmax) (t : TT P) :
    (init4inference c t 0 false).err = .otherTdInitError ∧ isInit4inference c (init4inference c t 0 false).t 0 = some c.most := by
  have he := init4inference_eq hc hok t 0 false
  dsimp only at he
  rw [Nat.zero_mul] at he
  have hm : ((clampTo 0 (max (c.base true) (c.base false)) * c.sibs : Nat) : Int) = c.most := by
    rw [mul_clamp hc.sibs, if_pos (by simp)]; rfl
  have h1 : ¬ ((clampTo 0 (max (c.base true) (c.base false)) * c.sibs : Nat) : Int) > vmax := by omega
  rw [if_neg h1] at he
  have he' : init4inference c t 0 false = _ := he
  rw [he']
  refine ⟨rfl, ?_⟩
  have hfp : 0 < clampTo 0 (max (c.base true) (c.base false)) := by unfold clampTo; split <;> omega
  have := isInit4inference_eq hc ({ deinit t with maxF := ((clampTo 0 (max (c.base true) (c.base false)) * c.sibs : Nat) : Int) } : TT P)
    (clampTo 0 (max (c.base true) (c.base false))) 0 rfl hok
  rw [Nat.zero_mul, if_neg (by omega), if_pos rfl] at this
  rw [← hm]
  exact this

/-- **C150** (partial, see `refused_but_initialised`). Every other error of the initialisation for inference, for whole numbers of base
samples, leaves the object uninitialised. -/
theorem inference_error_partial {c : Src} (t : TT P) {maxF : Int} (h : (init4inference c t maxF true).err ≠ .success)
    (hok : c.ok = true) (h1 : 0 ≤ maxF) (h2 : (c.sibs : Int) ∣ maxF) : Uninit c (init4inference c t maxF true).t := by
  have hk : checks c maxF 0 = true := by
    unfold checks
    rw [if_neg (by simp [hok]), if_neg, if_neg (by simp)]
    rintro (h | h)
    · omega
    · exact h (Int.tmod_eq_zero_of_dvd h2)
  unfold init4inference at h ⊢
  rw [if_neg (by rw [hk]; nofun)] at h ⊢
  dsimp only at h ⊢
  generalize (if maxF.tdiv c.sibs ≤ 0 ∨ maxF.tdiv c.sibs > c.biggest then toVec c.biggest else maxF.tdiv c.sibs) = bF at h ⊢
  split
  · exact uninit_deinit _
  next h5 => rw [if_neg h5] at h; exact absurd rfl h

/-- **C150, false of the code: sets that don't fit into a matrix are refused.** The number of base samples is cut down to 32 bits
before the size is checked: of 4294967299 samples, 3 are taken for all. -/
theorem wrapped_size_accepted (t : TT P) :
    let r := init4inference { sibs := 1, base := fun _ => 4294967299, rows := fun _ => 0, ok := true } t 0 true
    r.err = .success ∧ r.maxF = 3 := by
  exact ⟨rfl, show (Int.bmod (max (max 0 4294967299) 4294967299 : Nat) 4294967296) * ((1 : Nat) : Int) = 3 by decide⟩

/-! ### C151 -/

/-- **C151.** The normalisation stays as it is, through every call but the ones meant to change it. -/
theorem normalisation_kept {c : Src} {t t' : TT P} (h : Step c t t') : t'.prms = t.prms ∨ t' = { t with prms := none } ∨ ∃ p, t' = { t with prms := some p } := by
  cases h with
  | deinit => exact .inl rfl
  | train maxF maxB memOk fOk =>
    left
    unfold init4train
    dsimp only
    repeat' split
    all_goals rfl
  | inference maxF fOk =>
    left
    unfold init4inference
    dsimp only
    repeat' split
    all_goals rfl
  | epoch hsh h =>
    left
    unfold onNextEpoch at h
    dsimp only at h
    simp only [Option.ite_none_right_eq_some, Option.some.injEq, Prod.mk.injEq] at h
    obtain ⟨-, -, rfl, -⟩ := h
    rfl
  | walk h =>
    left
    unfold walkOverSet at h
    dsimp only at h
    rw [Option.ite_none_right_eq_some] at h
    obtain ⟨-, h⟩ := h
    rw [Option.ite_none_right_eq_some] at h
    obtain ⟨-, h⟩ := h
    simp only [Option.some.injEq, Prod.mk.injEq] at h
    obtain ⟨rfl, -⟩ := h
    rfl
  | reset => exact .inr (.inl rfl)
  | fix p => exact .inr (.inr ⟨p, rfl⟩)

theorem normalising_keeps {c : Src} {cd arg : Int} {t t' : TT P} (h : Normalising c cd arg t t') :
    t'.maxF = t.maxF ∧ t'.maxB = t.maxB ∧ t'.idxs = t.idxs := by
  induction h with
  | done => exact ⟨rfl, rfl, rfl⟩
  | walk h _ ih =>
    unfold walkOverSet at h
    dsimp only at h
    rw [Option.ite_none_right_eq_some] at h
    obtain ⟨-, h⟩ := h
    rw [Option.ite_none_right_eq_some] at h
    obtain ⟨-, h⟩ := h
    simp only [Option.some.injEq, Prod.mk.injEq] at h
    obtain ⟨rfl, -⟩ := h
    exact ih
  | fix _ ih => exact ih

theorem isInit_congr {c : Src} {t t' : TT P} (h : t'.maxF = t.maxF) (bs : Int) : isInit4inference c t' bs = isInit4inference c t bs := by
  unfold isInit4inference; rw [h]

/-- **C151** (partial: the full claim has no condition on the batch size; it is false, see `normalising_uninitialises`). Normalising the data
of an object that is initialised for the batch size of the settings leaves the initialisation as it was: same sizes, same order of the
training samples. -/
theorem normalising_keeps_init_partial {c : Src} {t t' : TT P} {should fOk imOk r : Bool} {cd arg : Int}
    (h : NormalizeData c t should cd arg fOk imOk t' r) (hi : (isInit4inference c t (if arg < 0 then 0 else arg)).isSome) :
    t'.maxF = t.maxF ∧ t'.maxB = t.maxB ∧ t'.idxs = t.idxs ∧
    (∀ bs, isInit4inference c t' bs = isInit4inference c t bs) ∧ ∀ fb tb, isInit4train c t' fb tb = isInit4train c t fb tb := by
  suffices hs : t'.maxF = t.maxF ∧ t'.maxB = t.maxB ∧ t'.idxs = t.idxs by
    refine ⟨hs.1, hs.2.1, hs.2.2, isInit_congr hs.1, ?_⟩
    intro fb tb
    unfold isInit4train
    rw [isInit_congr hs.1, hs.2.1]
  obtain ⟨-, h⟩ := h
  dsimp only at h
  split at h
  · rw [h.1]; exact ⟨rfl, rfl, rfl⟩
  · rw [isInit_congr (show (resetNorm t).maxF = t.maxF from rfl)] at h
    split at h
    · have := normalising_keeps h; exact this
    next he => rw [he] at hi; cases hi

/-- **C151, false of the code: normalising the data does not touch the initialisation.** Whatever the object was initialised for, after
a successful normalisation with a batch size above (or otherwise unfit for) that initialisation it is not initialised at all. -/
theorem normalising_uninitialises {c : Src} {t t' : TT P} {fOk imOk : Bool} {cd arg : Int} (h : NormalizeData c t true cd arg fOk imOk t' true)
    (hi : isInit4inference c t (if arg < 0 then 0 else arg) = none) : Uninit c t' := by
  obtain ⟨-, h⟩ := h
  dsimp only at h
  rw [if_neg (by simp)] at h
  rw [isInit_congr (show (resetNorm t).maxF = t.maxF from rfl), hi] at h
  dsimp only at h
  generalize (if arg < 0 then 0 else arg) = mfs at h
  split at h
  · cases h.2
  · obtain ⟨t2, -, rfl⟩ := h
    exact uninit_deinit t2

/-- **C151, false of the code: a batch size above the number of samples means everything.** It does for the initialisations; a
normalisation with such a batch size always fails. -/
theorem normalising_too_big_fails {c : Src} (hc : c.Fits) {t t' : TT P} (hr : Reach c t) {fOk imOk r : Bool} {cd arg : Int}
    (h : NormalizeData c t true cd arg fOk imOk t' r) (hbig : arg > c.most) (hpos : 0 < max (c.base true) (c.base false)) : r = false := by
  obtain ⟨f0, b0, hi⟩ := reach_inv hc hr
  have hmost : c.most = ((max (c.base true) (c.base false) * c.sibs : Nat) : Int) := by unfold Src.most; rw [Int.natCast_mul, Int.mul_comm]
  have hm0 := Nat.mul_pos hpos hc.sibs
  have none_of : ∀ t : TT P, t.maxF ≤ c.most → isInit4inference c t arg = none := by
    intro t ht
    unfold isInit4inference
    dsimp only
    rw [if_pos (show arg ≠ 0 by omega)]
    exact if_pos (.inr (.inr (.inl (by omega))))
  obtain ⟨-, h⟩ := h
  dsimp only at h
  rw [if_neg (by simp), if_neg (show ¬ arg < 0 by omega)] at h
  have hle : (resetNorm t).maxF ≤ c.most := by
    show t.maxF ≤ _
    have h1 := hi.leF
    rw [biggest_nat] at h1
    have := Nat.mul_le_mul_right c.sibs (show f0 ≤ max (c.base true) (c.base false) by omega)
    rw [hi.maxF, hmost]
    omega
  rw [none_of _ hle] at h
  dsimp only at h
  split at h
  · exact h.2
  next hs =>
    obtain ⟨t2, h, -⟩ := h
    have hsz := inference_sizes hc hpos (resetNorm t) (maxF := arg) (fOk := fOk) rfl (by
      cases he : (init4inference c (resetNorm t) arg fOk).err with
      | success => rfl
      | _ => exact absurd (.inl (by rw [he]; nofun)) hs)
    have hmx : (init4inference c (resetNorm t) arg fOk).t.maxF ≤ c.most := by
      have h1 := hsz.1
      have h2 := hsz.2.2.2.1
      unfold isInit4inference at h2
      dsimp only at h2
      rw [Option.ite_none_left_eq_some] at h2
      have h3 := h2.2
      rw [if_neg (by simp)] at h3
      simp only [Option.some.injEq] at h3
      unfold fitted at h1
      rw [if_pos (.inr hbig)] at h1
      omega
    rw [none_of _ hmx, if_neg (by simp)] at h
    exact h.2

end Nntl.Ttd
