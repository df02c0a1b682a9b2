import Verif.Text.Lemmas
/-! Reports and messages: contents, and whether they fit their buffers. -/
namespace Nntl.Text

theorem below_err (c : Counts) (nan : Text) (hn : nan.length ≤ 9) (h : c.correct ≤ c.total) : (c.err nan).Below 3 := by
  unfold Counts.err
  by_cases h0 : c.total = 0
  · rw [if_pos h0]; exact hn
  · rw [if_neg h0]
    refine ⟨by omega, ?_⟩
    have : (c.wrong * 100).natAbs = (c.total - c.correct) * 100 := by unfold Counts.wrong; omega
    rw [this]
    omega

theorem ok_err (c : Counts) (nan : Text) : (c.err nan).Ok := by
  unfold Counts.err
  by_cases h0 : c.total = 0
  · rw [if_pos h0]; exact trivial
  · rw [if_neg h0]; show 0 < _; omega

theorem percent_err (c : Counts) (nan : Text) : IsPercent (c.err nan) c := by
  unfold Counts.err
  by_cases h0 : c.total = 0
  · rw [if_pos h0]; exact h0
  · rw [if_neg h0]
    refine ⟨?_, by omega, by omega⟩
    show (if decide (c.wrong < 0) = true then -((c.wrong * 100).natAbs : Int) else ((c.wrong * 100).natAbs : Int)) * _ = _
    have : (if decide (c.wrong < 0) = true then -((c.wrong * 100).natAbs : Int) else ((c.wrong * 100).natAbs : Int)) = c.wrong * 100 := by
      by_cases h : c.wrong < 0
      · rw [if_pos (decide_eq_true h)]; omega
      · rw [if_neg (by simpa using h)]; omega
    rw [this]
    rfl

theorem ok_secs (ns : Nat) : (secs ns).Ok := by show 0 < 1000000000; omega

theorem secs_length (up : Nat → Bool) (k ns : Nat) (hk : 0 < k) (h : ns + 10 ^ 9 ≤ 10 ^ k * 10 ^ 9) : (fltText up false 3 1 (secs ns)).length ≤ max 3 (k + 2) :=
  fltText_length_pos up false 3 1 k ns 1000000000 (by omega) hk (by omega) h

/-- C177. If the default observer prints the line of an epoch, then it shows: the number of epochs done (the first report of all, before the training, has 0)
and asked for, the time in seconds, the losses, the shares and the numbers of wrong answers of the training and the test set, each rounded to
nearest in its last digit. -/
theorem report_contents (up : Nat → Bool) (nan : Text) (e n : Int) (ns : Nat) (trL vL : FVal) (htr : trL.Ok) (hv : vL.Ok) (tr te : Counts) (t : Text)
    (h : fragment up nan e n ns trL vL tr te = some t) :
    ∃ t1 t2 t3 t4 t5 t6 t7 t8 t9 p q, t = t1 ++ "/".toList ++ t2 ++ " ".toList ++ t3 ++ "s trL=".toList ++ t4 ++ ", trErr=".toList ++ t5 ++ "% (".toList ++ t6 ++
        "), vL=".toList ++ t7 ++ ", vErr=".toList ++ t8 ++ "% (".toList ++ t9 ++ ")".toList ∧
      ShowsInt t1 (e + 1) ∧ ShowsInt t2 n ∧ Shows 1 t3 (.fin false ns (10 ^ 9)) ∧ Shows 3 t4 trL ∧ Shows 3 t7 vL ∧
      IsPercent p tr ∧ Shows 2 t5 p ∧ ShowsInt t6 ((tr.total : Int) - tr.correct) ∧ IsPercent q te ∧ Shows 2 t8 q ∧ ShowsInt t9 ((te.total : Int) - te.correct) := by
  unfold fragment print at h
  split at h
  · refine ⟨_, _, _, _, _, _, _, _, _, tr.err nan, te.err nan, (Option.some.inj h).symm, shows_padL _ _ _ (shows_spaced _ _ (shows_int _)),
      shows_padR _ _ _ (shows_int _), shows_fltText up _ _ _ (by omega) _ (ok_secs ns), shows_fltText up _ _ _ (by omega) _ htr,
      shows_fltText up _ _ _ (by omega) _ hv, percent_err tr nan, shows_fltText up _ _ _ (by omega) _ (ok_err tr nan), shows_int _,
      percent_err te nan, shows_fltText up _ _ _ (by omega) _ (ok_err te nan), shows_int _⟩
  · cases h

/-- C177. The same of the simple observer. -/
theorem simple_report_contents (up : Nat → Bool) (e n : Int) (ns : Nat) (trL vL : FVal) (htr : trL.Ok) (hv : vL.Ok) (t : Text)
    (h : fragmentSimple up e n ns trL vL = some t) :
    ∃ t1 t2 t3 t4 t5, t = t1 ++ "/".toList ++ t2 ++ " ".toList ++ t3 ++ "s trL=".toList ++ t4 ++ ", vL=".toList ++ t5 ∧
      ShowsInt t1 (e + 1) ∧ ShowsInt t2 n ∧ Shows 1 t3 (.fin false ns (10 ^ 9)) ∧ Shows 5 t4 trL ∧ Shows 5 t5 vL := by
  unfold fragmentSimple print at h
  split at h
  · exact ⟨_, _, _, _, _, (Option.some.inj h).symm, shows_padL _ _ _ (shows_spaced _ _ (shows_int _)),
      shows_padR _ _ _ (shows_int _), shows_fltText up _ _ _ (by omega) _ (ok_secs ns), shows_fltText up _ _ _ (by omega) _ htr,
      shows_fltText up _ _ _ (by omega) _ hv⟩
  · cases h

theorem epoch_length (k : Nat) (hk : 2 ≤ k) (e : Int) (h0 : -1 ≤ e) (h : e + 1 < 10 ^ k) : (padL ' ' 3 (spaced (intText (e + 1)))).length ≤ k + 1 := by
  rw [padL_length]
  have h1 := spaced_length (intText (e + 1))
  have h2 := intText_length k (by omega) (e + 1) (by
    have : ((e + 1).natAbs : Int) < (10 ^ k : Int) := by rw [Int.natAbs_of_nonneg (by omega)]; exact h
    exact_mod_cast this)
  rw [if_neg (by omega)] at h2
  omega

theorem epochs_length (k : Nat) (hk : 3 ≤ k) (n : Int) (h0 : 0 ≤ n) (h : n < 10 ^ k) : (padR 3 (intText n)).length ≤ k := by
  rw [padR_length]
  have h2 := intText_length k (by omega) n (by
    have : (n.natAbs : Int) < (10 ^ k : Int) := by rw [Int.natAbs_of_nonneg h0]; exact h
    exact_mod_cast this)
  rw [if_neg (by omega)] at h2
  omega

theorem wrong_length (c : Counts) (h : c.correct ≤ c.total) (h10 : c.total < 10 ^ 10) : (intText c.wrong).length ≤ 10 := by
  have h2 := intText_length 10 (by omega) c.wrong (by unfold Counts.wrong; omega)
  rw [if_neg (by unfold Counts.wrong; omega)] at h2
  omega

/-- C177. The default observer prints its line if the losses are below 10^10 (or not finite), there are fewer than a million epochs, fewer than 10^10 answers,
and the epoch took less than 10^7 seconds. -/
theorem report_printed_partial (up : Nat → Bool) (nan : Text) (hn : nan.length ≤ 9) (e n : Int) (ns : Nat) (trL vL : FVal) (tr te : Counts)
    (he : -1 ≤ e) (he' : e + 1 < 10 ^ 6) (h0 : 0 ≤ n) (hn' : n < 10 ^ 6) (hs : ns + 10 ^ 9 ≤ 10 ^ 7 * 10 ^ 9) (htr : trL.Below 10) (hv : vL.Below 10)
    (hc : tr.correct ≤ tr.total) (hc' : tr.total < 10 ^ 10) (hd : te.correct ≤ te.total) (hd' : te.total < 10 ^ 10) :
    ∃ t, fragment up nan e n ns trL vL tr te = some t := by
  refine ⟨_, print_some ?_⟩
  simp only [List.length_append]
  have l1 : ("/".toList).length = 1 := rfl
  have l2 : (" ".toList).length = 1 := rfl
  have l3 : ("s trL=".toList).length = 6 := rfl
  have l4 : (", trErr=".toList).length = 8 := rfl
  have l5 : ("% (".toList).length = 3 := rfl
  have l6 : ("), vL=".toList).length = 6 := rfl
  have l7 : (", vErr=".toList).length = 7 := rfl
  have l8 : (")".toList).length = 1 := rfl
  have a1 := epoch_length 6 (by omega) e he he'
  have a2 := epochs_length 6 (by omega) n h0 hn'
  have a3 := secs_length up 7 ns (by omega) hs
  have a4 := fltText_length up true 5 3 10 (by omega) (by omega) trL htr
  have a5 := fltText_length up true 5 3 10 (by omega) (by omega) vL hv
  have a6 := fltText_length up false 0 2 3 (by omega) (by omega) _ (below_err tr nan hn hc)
  have a7 := fltText_length up false 0 2 3 (by omega) (by omega) _ (below_err te nan hn hd)
  have a8 := wrong_length tr hc hc'
  have a9 := wrong_length te hd hd'
  omega

/-- C177. The simple observer prints any losses of type `float`: these are below 10^39. -/
theorem simple_report_printed_partial (up : Nat → Bool) (e n : Int) (ns : Nat) (trL vL : FVal)
    (he : -1 ≤ e) (he' : e + 1 < 10 ^ 6) (h0 : 0 ≤ n) (hn' : n < 10 ^ 6) (hs : ns + 10 ^ 9 ≤ 10 ^ 7 * 10 ^ 9) (htr : trL.Below 39) (hv : vL.Below 39) :
    ∃ t, fragmentSimple up e n ns trL vL = some t := by
  refine ⟨_, print_some ?_⟩
  simp only [List.length_append]
  have l1 : ("/".toList).length = 1 := rfl
  have l2 : (" ".toList).length = 1 := rfl
  have l3 : ("s trL=".toList).length = 6 := rfl
  have l6 : (", vL=".toList).length = 5 := rfl
  have a1 := epoch_length 6 (by omega) e he he'
  have a2 := epochs_length 6 (by omega) n h0 hn'
  have a3 := secs_length up 7 ns (by omega) hs
  have a4 := fltText_length up false 8 5 39 (by omega) (by omega) trL htr
  have a5 := fltText_length up false 8 5 39 (by omega) (by omega) vL hv
  omega

/-- C177. Reports of further data sets (names of up to 31 characters, as the buffer for names allows) show any loss of type `float`. -/
theorem set_report_printed (up : Nat → Bool) (nan name : Text) (hn : nan.length ≤ 9) (hl : name.length ≤ 31) (loss : FVal) (h : loss.Below 39) (c : Counts)
    (hc : c.correct ≤ c.total) (hc' : c.total < 10 ^ 10) : ∃ t, setReport up nan name loss c = some t := by
  refine ⟨_, print_some ?_⟩
  simp only [List.length_append]
  have l1 : (": Loss=".toList).length = 7 := rfl
  have l2 : (", Err=".toList).length = 6 := rfl
  have l5 : ("% (".toList).length = 3 := rfl
  have l8 : (")".toList).length = 1 := rfl
  have a4 := fltText_length up true 5 3 39 (by omega) (by omega) loss h
  have a6 := fltText_length up false 0 2 3 (by omega) (by omega) _ (below_err c nan hn hc)
  have a8 := wrong_length c hc hc'
  omega

/-- C177. If the report of a further data set is printed, it shows the name, the loss, and the share and number of wrong answers. -/
theorem set_report_contents (up : Nat → Bool) (nan name : Text) (loss : FVal) (hl : loss.Ok) (c : Counts) (t : Text) (h : setReport up nan name loss c = some t) :
    ∃ t1 t2 t3 p, t = name ++ ": Loss=".toList ++ t1 ++ ", Err=".toList ++ t2 ++ "% (".toList ++ t3 ++ ")".toList ∧ Shows 3 t1 loss ∧
      IsPercent p c ∧ Shows 2 t2 p ∧ ShowsInt t3 ((c.total : Int) - c.correct) := by
  unfold setReport print at h
  split at h
  · exact ⟨_, _, _, c.err nan, (Option.some.inj h).symm, shows_fltText up _ _ _ (by omega) _ hl, percent_err c nan,
      shows_fltText up _ _ _ (by omega) _ (ok_err c nan), shows_int _⟩
  · cases h

theorem flt_ge (up : Nat → Bool) (zero neg : Bool) (w p k a d : Nat) (hp : 0 < p) (hd : 0 < d) (h : 10 ^ k * d ≤ a) :
    k + 2 + p ≤ (fltText up zero w p (.fin neg a d)).length := by
  have h1 : 10 ^ k ≤ nearest up (a * 10 ^ p) d / 10 ^ p := by
    have h2 : 10 ^ k * 10 ^ p ≤ a * 10 ^ p / d := by
      rw [Nat.le_div_iff_mul_le hd, Nat.mul_right_comm]
      exact Nat.mul_le_mul_right _ h
    have h3 : a * 10 ^ p / d ≤ nearest up (a * 10 ^ p) d := by
      unfold nearest; split
      · omega
      · split
        · omega
        · split <;> omega
    rw [Nat.le_div_iff_mul_le (Nat.pow_pos (by decide))]
    omega
  have h2 := digits_ge h1
  unfold fltText
  simp only
  split
  · rw [List.length_append, padL_length, fixed_length p _ hp]; omega
  · rw [padL_length, List.length_append, fixed_length p _ hp]; omega

theorem flt_min (up : Nat → Bool) (zero neg : Bool) (w p a d : Nat) (hp : 0 < p) :
    max w (2 + p) ≤ (fltText up zero w p (.fin neg a d)).length := by
  have := Nat.length_toDigits_pos (b := 10) (n := nearest up (a * 10 ^ p) d / 10 ^ p)
  unfold fltText
  simp only
  split
  · rw [List.length_append, padL_length, fixed_length p _ hp]; omega
  · rw [padL_length, List.length_append, fixed_length p _ hp]; omega

theorem intText_pos (z : Int) : 1 ≤ (intText z).length := by
  cases z with
  | ofNat n => exact Nat.length_toDigits_pos
  | negSucc n => simp [intText]

theorem err_min (up : Nat → Bool) (c : Counts) (nan : Text) (h : 0 < c.total) : 4 ≤ (fltText up false 0 2 (c.err nan)).length := by
  unfold Counts.err
  rw [if_neg (by omega)]
  have := flt_min up false (decide (c.wrong < 0)) 0 2 (c.wrong * 100).natAbs c.total (by omega)
  omega

/-- C177. Losses from 10^32 on (`float` goes up to 3.4 * 10^38) do not fit: with the default observer the program is ended, whatever the other numbers are. The
report comes before the divergence check, so a training that should end with `NNDiverged` ends the program. -/
theorem exploding_loss_aborts (up : Nat → Bool) (nan : Text) (e lastCheck n : Int) (ns : Nat) (s s' b : Bool) (a d a' d' : Nat) (tr te : Counts)
    (hd : 0 < d) (hd' : 0 < d') (h : 10 ^ 32 * d ≤ a) (h' : 10 ^ 32 * d' ≤ a') (ht : 0 < tr.total) (hte : 0 < te.total) :
    epochReport up nan e lastCheck n ns (.fin s a d) (.fin s' a' d') tr te b = .aborted := by
  unfold epochReport
  have : fragment up nan e n ns (.fin s a d) (.fin s' a' d') tr te = none := by
    unfold fragment print
    rw [if_neg]
    simp only [List.length_append]
    have l1 : ("/".toList).length = 1 := rfl
    have l2 : (" ".toList).length = 1 := rfl
    have l3 : ("s trL=".toList).length = 6 := rfl
    have l4 : (", trErr=".toList).length = 8 := rfl
    have l5 : ("% (".toList).length = 3 := rfl
    have l6 : ("), vL=".toList).length = 6 := rfl
    have l7 : (", vErr=".toList).length = 7 := rfl
    have l8 : (")".toList).length = 1 := rfl
    have a1 := padL_length ' ' 3 (spaced (intText (e + 1)))
    have a2 := padR_length 3 (intText n)
    have a3 := flt_min up false false 3 1 ns 1000000000 (by omega)
    have a4 := flt_ge up true s 5 3 32 a d (by omega) hd h
    have a5 := flt_ge up true s' 5 3 32 a' d' (by omega) hd' h'
    have a6 := err_min up tr nan ht
    have a7 := err_min up te nan hte
    have a8 := intText_pos tr.wrong
    have a9 := intText_pos te.wrong
    have a3' : max 3 (2 + 1) ≤ (fltText up false 3 1 (secs ns)).length := a3
    omega
  rw [this]

/-- C177. The simple observer: losses from 10^46 on, that is of type `double`, end the program. -/
theorem exploding_loss_aborts_simple (up : Nat → Bool) (e n : Int) (ns : Nat) (s s' : Bool) (a d a' d' : Nat)
    (hd : 0 < d) (hd' : 0 < d') (h : 10 ^ 46 * d ≤ a) (h' : 10 ^ 46 * d' ≤ a') : fragmentSimple up e n ns (.fin s a d) (.fin s' a' d') = none := by
  unfold fragmentSimple print
  rw [if_neg]
  simp only [List.length_append]
  have l1 : ("/".toList).length = 1 := rfl
  have l2 : (" ".toList).length = 1 := rfl
  have l3 : ("s trL=".toList).length = 6 := rfl
  have l6 : (", vL=".toList).length = 5 := rfl
  have a1 := padL_length ' ' 3 (spaced (intText (e + 1)))
  have a2 := padR_length 3 (intText n)
  have a3 : max 3 (2 + 1) ≤ (fltText up false 3 1 (secs ns)).length := flt_min up false false 3 1 ns 1000000000 (by omega)
  have a4 := flt_ge up false s 8 5 46 a d (by omega) hd h
  have a5 := flt_ge up false s' 8 5 46 a' d' (by omega) hd' h'
  omega

/-- C177. If the line is printed the divergence check works: the training ends with `NNDiverged` exactly if the epoch is one of the first
`divergenceCheckLastEpoch` and the loss is not below the threshold. -/
theorem divergence_after_report (up : Nat → Bool) (nan : Text) (e lastCheck n : Int) (ns : Nat) (trL vL : FVal) (tr te : Counts) (b : Bool) (t : Text)
    (h : fragment up nan e n ns trL vL tr te = some t) :
    epochReport up nan e lastCheck n ns trL vL tr te b = if e < lastCheck ∧ b = true then .diverged else .goesOn := by
  unfold epochReport
  rw [h]
  by_cases h1 : e < lastCheck <;> cases b <;> simp [h1]

/-! ### Messages that always fit -/

/-- C178. The introduction of a training is printed whatever the sizes are (32 bits for widths and batches, 64 bits for the rest). -/
theorem start_printed (xw yw params train test batch batches maxFprop : Int) (h1 : xw.natAbs ≤ 2 ^ 31) (h2 : yw.natAbs ≤ 2 ^ 31) (h3 : params.natAbs ≤ 2 ^ 63)
    (h4 : train.natAbs ≤ 2 ^ 63) (h5 : test.natAbs ≤ 2 ^ 63) (h6 : batch.natAbs ≤ 2 ^ 31) (h7 : batches.natAbs ≤ 2 ^ 63) (h8 : maxFprop.natAbs ≤ 2 ^ 31) :
    ∃ t1 t2 t3 t4 t5 t6 t7 t8, start xw yw params train test batch batches maxFprop = some ("Model f:".toList ++ t1 ++ "->".toList ++ t2 ++ " has ".toList ++ t3 ++
        " params. There are ".toList ++ t4 ++ " training samples and ".toList ++ t5 ++ " for testing. BatchSize=".toList ++ t6 ++ ", batchCnt=".toList ++ t7 ++
        ", maxFpropSize=".toList ++ t8) ∧
      ShowsInt t1 xw ∧ ShowsInt t2 yw ∧ ShowsInt t3 params ∧ ShowsInt t4 train ∧ ShowsInt t5 test ∧ ShowsInt t6 batch ∧ ShowsInt t7 batches ∧
      ShowsInt t8 maxFprop := by
  refine ⟨_, _, _, _, _, _, _, _, print_some ?_, shows_int _, shows_int _, shows_int _, shows_int _, shows_int _, shows_int _, shows_int _, shows_int _⟩
  simp only [List.length_append]
  have l1 : ("Model f:".toList).length = 8 := rfl
  have l2 : ("->".toList).length = 2 := rfl
  have l3 : (" has ".toList).length = 5 := rfl
  have l4 : (" params. There are ".toList).length = 19 := rfl
  have l5 : (" training samples and ".toList).length = 22 := rfl
  have l6 : (" for testing. BatchSize=".toList).length = 24 := rfl
  have l7 : (", batchCnt=".toList).length = 11 := rfl
  have l8 : (", maxFpropSize=".toList).length = 15 := rfl
  have A : ∀ z : Int, z.natAbs ≤ 2 ^ 31 → (intText z).length ≤ 11 := fun z hz => by
    have := intText_length 10 (by omega) z (by omega)
    have : (if z < 0 then 1 else 0) ≤ 1 := by split <;> omega
    omega
  have B : ∀ z : Int, z.natAbs ≤ 2 ^ 63 → (intText z).length ≤ 20 := fun z hz => by
    have := intText_length 19 (by omega) z (by omega)
    have : (if z < 0 then 1 else 0) ≤ 1 := by split <;> omega
    omega
  have := A _ h1; have := A _ h2; have := B _ h3; have := B _ h4; have := B _ h5; have := A _ h6; have := B _ h7; have := A _ h8
  omega

/-- C178. The reports of time are printed for fewer than 10^14 epochs (the list of epochs to be reported takes memory for each), and times of 64 bits. -/
theorem time_printed (up : Nat → Bool) (e n params : Int) (ns : Nat) (he : -1 ≤ e) (he' : e + 1 < 10 ^ 14) (h0 : 0 ≤ n) (hn : n < 10 ^ 14)
    (hp : params.natAbs ≤ 2 ^ 63) (hs : ns < 2 ^ 63) :
    (∃ t1 t2 t3, timeEpoch up e n ns = some (t1 ++ "/".toList ++ t2 ++ " ".toList ++ t3 ++ "s (time report only)".toList) ∧
      ShowsInt t1 (e + 1) ∧ ShowsInt t2 n ∧ Shows 1 t3 (.fin false ns (10 ^ 9))) ∧
    (∃ t1 t2 t3, timeAll up n params ns = some (t1 ++ " training epochs (".toList ++ t2 ++ " params) took ".toList ++ t3 ++ "s (time report only)".toList) ∧
      ShowsInt t1 n ∧ ShowsInt t2 params ∧ Shows 1 t3 (.fin false ns (10 ^ 9))) := by
  have a1 := epoch_length 14 (by omega) e he he'
  have a2 := epochs_length 14 (by omega) n h0 hn
  have a3 := secs_length up 10 ns (by omega) (by omega)
  have l0 : ("s (time report only)".toList).length = 20 := rfl
  refine ⟨⟨_, _, _, print_some ?_, shows_padL _ _ _ (shows_spaced _ _ (shows_int _)), shows_padR _ _ _ (shows_int _),
      shows_fltText up _ _ _ (by omega) _ (ok_secs ns)⟩,
    ⟨_, _, _, print_some ?_, shows_padR _ _ _ (shows_int _), shows_int _, shows_fltText up _ _ _ (by omega) _ (ok_secs ns)⟩⟩
  · simp only [List.length_append]
    have l1 : ("/".toList).length = 1 := rfl
    have l2 : (" ".toList).length = 1 := rfl
    omega
  · simp only [List.length_append]
    have l1 : (" training epochs (".toList).length = 18 := rfl
    have l2 : (" params) took ".toList).length = 14 := rfl
    have := intText_length 19 (by omega) params (by omega)
    have : (if params < 0 then 1 else 0) ≤ 1 := by split <;> omega
    omega

/-- C178. The messages of the numeric check of derivatives are printed: any counters of 32 bits, any numbers (`%g` gives up to 13 characters). -/
theorem gradcheck_messages_printed (z m : Int) (hz : z.natAbs ≤ 2 ^ 31) (hm : m.natAbs ≤ 2 ^ 31) (w : Bool) (err thr : Text) (he : err.length ≤ 13) (ht : thr.length ≤ 13) :
    (∃ t1 t2, tooMany z m (if w then "dL/dW".toList else "dL/dA".toList) = some ("Too many (".toList ++ t1 ++ " of max ".toList ++ t2 ++ ") of ".toList ++
        (if w then "dL/dW".toList else "dL/dA".toList) ++
        " equal to zero. If it is acceptable, adjust corresponding gradcheck_settings::evalSetts.percOfZerodLd*".toList) ∧ ShowsInt t1 z ∧ ShowsInt t2 m) ∧
    relWarn err thr = some ("Relative error = ".toList ++ err ++ " (thrsh ".toList ++ thr ++ "). Probably not an error.".toList) ∧
    relFail err thr = some ("Relative error = ".toList ++ err ++ " (thrsh ".toList ++ thr ++ "). Gradient might be wrong!".toList) := by
  have l1 : ("Too many (".toList).length = 10 := rfl
  have l2 : (" of max ".toList).length = 8 := rfl
  have l3 : (") of ".toList).length = 5 := rfl
  have l4 : (" equal to zero. If it is acceptable, adjust corresponding gradcheck_settings::evalSetts.percOfZerodLd*".toList).length = 102 := rfl
  have l5 : ("Relative error = ".toList).length = 17 := rfl
  have l6 : (" (thrsh ".toList).length = 8 := rfl
  have l7 : ("). Probably not an error.".toList).length = 25 := rfl
  have l8 : ("). Gradient might be wrong!".toList).length = 27 := rfl
  have l9 : (if w then "dL/dW".toList else "dL/dA".toList).length = 5 := by cases w <;> rfl
  have A : ∀ z : Int, z.natAbs ≤ 2 ^ 31 → (intText z).length ≤ 11 := fun z hz => by
    have := intText_length 10 (by omega) z (by omega)
    have : (if z < 0 then 1 else 0) ≤ 1 := by split <;> omega
    omega
  have := A z hz
  have := A m hm
  refine ⟨⟨_, _, print_some ?_, shows_int _, shows_int _⟩, print_some ?_, print_some ?_⟩ <;> simp only [List.length_append] <;> omega

/-- C178. Every data set gets a name: `train`, `test`, and different names for all others. -/
theorem set_names (i : Int) (h : i.natAbs ≤ 2 ^ 31) :
    setName 0 = some "train".toList ∧ setName 1 = some "test".toList ∧ (i ≠ 0 → i ≠ 1 → ∃ t, setName i = some ("!Unknown!".toList ++ t) ∧ ShowsInt t i ∧
      ("!Unknown!".toList ++ t).length ≤ 31) := by
  refine ⟨rfl, rfl, fun h0 h1 => ⟨intText i, ?_, shows_int i, ?_⟩⟩
  · unfold setName
    rw [if_neg h0, if_neg h1]
    refine print_some ?_
    have l1 : ("!Unknown!".toList).length = 9 := rfl
    have := intText_length 10 (by omega) i (by omega)
    have : (if i < 0 then 1 else 0) ≤ 1 := by split <;> omega
    rw [List.length_append]
    omega
  · have l1 : ("!Unknown!".toList).length = 9 := rfl
    have := intText_length 10 (by omega) i (by omega)
    have : (if i < 0 then 1 else 0) ≤ 1 := by split <;> omega
    rw [List.length_append]
    omega

end Nntl.Text
