import Verif.Ttd.Lemmas
/-!
C148: what the transformer is given in an epoch; C149: what it is given in a walk over a set; C150: initialisation; C151:
normalisation and the other state of the object.
-/
namespace Nntl.Ttd
variable {P : Type}

/-! ### C148 -/

theorem flatMap_slices {α : Type} (l : List α) (b : Nat) : ∀ n : Nat,
    (List.range n).flatMap (fun i => (l.drop (i * b)).take b) = l.take (n * b)
  | 0 => by simp
  | n + 1 => by
    rw [List.range_succ, List.flatMap_append, flatMap_slices l b n, Nat.succ_mul, List.take_add]
    simp

/-- **C148.** In every reachable state an epoch that begins with the effective batch size `b * sibs` (argument, the network's size or
the size of the initialisation) consists of `base / b` batches. Each of them can be fetched (in any order and as often as wanted) and
tells the transformer the numbers of exactly `b` base samples, followed by the normalisation if there is one. All these samples are
pairwise distinct samples of the training set, and if `b` divides the number of the base samples, the epoch uses every one of
them. -/
theorem epoch_uses_distinct_samples {c : Src} (hc : c.Fits) {t t1 : TT P} (hr : Reach c t) {cd arg n : Int}
    {shuffle : List Nat → List Nat} (hsh : ∀ l : List Nat, (shuffle l).Perm l) {calls : List (Call P)}
    (he : onNextEpoch c t cd arg shuffle = some (t1, n, calls)) :
    ∃ b : Nat, 0 < b ∧ ((b * c.sibs : Nat) : Int) = (if arg < 0 then t.maxB else if arg = 0 then cd else arg) ∧
      calls = [.nextEpoch b] ∧ n = ((c.base true / b : Nat) : Int) ∧ ∃ batch : Nat → List Nat,
        (∀ i, i < c.base true / b → (batch i).length = b ∧
          onNextBatch t1 i = some (.nextBatch i (batch i) :: (match t.prms with | none => [] | some p => [.norm p]))) ∧
        ((List.range (c.base true / b)).flatMap batch).Nodup ∧
        (∀ k ∈ (List.range (c.base true / b)).flatMap batch, k < c.base true) ∧
        (b ∣ c.base true → ((List.range (c.base true / b)).flatMap batch).Perm (List.range (c.base true))) := by
  obtain ⟨f0, b0, hi⟩ := reach_inv hc hr
  obtain ⟨b, hb, heff, hle, hbl, hn, hcalls, rfl⟩ := epoch_cases hc he
  have hb0 : b0 ≠ 0 := by
    intro h
    have hm := hi.maxB
    have := Nat.mul_pos hb hc.sibs
    rw [h, Nat.zero_mul] at hm
    omega
  have hp : (shuffle t.idxs).Perm (List.range (c.base true)) := (hsh _).trans (hi.idxs hb0)
  have hlen : (shuffle t.idxs).length = c.base true := by simpa using hp.length_eq
  have hnb : c.base true / b * b ≤ c.base true := Nat.div_mul_le_self _ _
  refine ⟨b, hb, by rw [← heff]; rfl, hcalls, hn, fun i => ((shuffle t.idxs).drop (i * b)).take b, ?_, ?_, ?_, ?_⟩
  · intro i hi'
    have h1 : (i + 1) * b ≤ c.base true := Nat.le_trans (Nat.mul_le_mul_right _ hi') hnb
    rw [Nat.succ_mul] at h1
    refine ⟨by rw [List.length_take, List.length_drop]; omega, ?_⟩
    have hv : ((i : Int) * (b : Int)) = ((i * b : Nat) : Int) := (Int.natCast_mul i b).symm
    have hbase := hc.base true
    unfold onNextBatch
    dsimp only
    rw [hv, if_pos ⟨rfl, by omega⟩, toVec_id (by omega) (by omega), if_pos ⟨by omega, by omega, by omega, by omega⟩]
    rfl
  all_goals rw [flatMap_slices]
  · exact (hp.nodup_iff.2 List.nodup_range).sublist (List.take_sublist _ _)
  · intro k hk
    exact List.mem_range.1 (hp.mem_iff.1 (List.mem_of_mem_take hk))
  · intro hd
    rw [Nat.div_mul_cancel hd, ← hlen, List.take_length, hlen]
    exact hp

/-- **C148.** An epoch can begin with every batch size that is a positive multiple of the size of a base sample and not above the one
of the initialisation. -/
theorem epoch_available {c : Src} (hc : c.Fits) {t : TT P} (hr : Reach c t) (hok : c.ok = true) {cd arg : Int} {b : Nat}
    (shuffle : List Nat → List Nat) (hb : 0 < b) (heff : ((b * c.sibs : Nat) : Int) = (if arg < 0 then t.maxB else if arg = 0 then cd else arg))
    (hle : ((b * c.sibs : Nat) : Int) ≤ t.maxB) : ∃ t1 n calls, onNextEpoch c t cd arg shuffle = some (t1, n, calls) := by
  obtain ⟨f0, b0, hi⟩ := reach_inv hc hr
  have hm := hi.maxB
  have hbb : b ≤ b0 := Nat.le_of_mul_le_mul_right (by omega) hc.sibs
  have hbf : b ≤ f0 := Nat.le_trans hbb hi.le
  have hpos := Nat.mul_pos hb hc.sibs
  have h1 : isInit4inference c t ((b * c.sibs : Nat) : Int) = some ((b * c.sibs : Nat) : Int) := by
    rw [isInit4inference_eq hc t f0 b hi.maxF hok, if_neg (by omega), if_neg (by omega)]
  have hcnt : c.count true = (c.base true * c.sibs : Nat) := by unfold Src.count; rw [Int.natCast_mul, Int.mul_comm]
  have hbl : b ≤ c.base true := Nat.le_trans hbb hi.leB
  have hmul := Nat.mul_le_mul_right c.sibs hbl
  have h2 : (isInit4train c t ((b * c.sibs : Nat) : Int) ((b * c.sibs : Nat) : Int)).isSome = true := by
    unfold isInit4train
    rw [h1]
    dsimp only
    rw [if_pos (show ((b * c.sibs : Nat) : Int) ≠ 0 by omega), tmod_mul, if_neg]
    · rfl
    · rintro (h | h | h | h)
      · omega
      · omega
      · exact h rfl
      · omega
  have hdiv : (c.count true).tdiv ((b * c.sibs : Nat) : Int) = ((c.base true / b : Nat) : Int) := by
    rw [hcnt, ← Int.ofNat_tdiv, Nat.mul_div_mul_right _ _ hc.sibs]
  have hq : 0 < c.base true / b := Nat.div_pos hbl hb
  unfold onNextEpoch effBatch
  dsimp only
  rw [← heff, if_pos ⟨hok, by omega, hle, by omega, h2⟩, hdiv, if_pos (by omega)]
  exact ⟨_, _, _, rfl⟩

/-- **C148.** Whatever was called before, a batch that is fetched names existing training samples, pairwise distinct. -/
theorem batch_in_range {c : Src} (hc : c.Fits) {t : TT P} (hr : Reach c t) {i : Nat} {calls : List (Call P)} (h : onNextBatch t i = some calls) :
    ∃ l rest, calls = .nextBatch i l :: rest ∧ l.Nodup ∧ ∀ k ∈ l, k < c.base true := by
  obtain ⟨f0, b0, hi⟩ := reach_inv hc hr
  unfold onNextBatch at h
  dsimp only at h
  rw [Option.ite_none_right_eq_some] at h
  obtain ⟨-, h⟩ := h
  rw [Option.ite_none_right_eq_some] at h
  obtain ⟨-, h⟩ := h
  cases h
  refine ⟨_, _, rfl, ?_, ?_⟩
  · have hn : t.idxs.Nodup := by
      rcases hi.perm with h | h
      · rw [h]; exact List.nodup_nil
      · exact h.nodup_iff.2 List.nodup_range
    exact hn.sublist ((List.take_sublist _ _).trans (List.drop_sublist _ _))
  · intro k hk
    have hk := List.mem_of_mem_drop (List.mem_of_mem_take hk)
    rcases hi.perm with h | h
    · rw [h] at hk; cases hk
    · exact List.mem_range.1 (h.mem_iff.1 hk)

/-! ### C149 -/

/-- What the walk does, for a transformer whose count of base samples is the number of the stored rows. -/
theorem walk_requests {c : Src} (hc : c.Fits) {t t1 : TT P} (hr : Reach c t) {s : Bool} (hrows : c.rows s = c.base s) {cd arg n : Int} {e : Excl}
    {calls : List (Call P)} (hw : walkOverSet c t s cd arg e = some (t1, n, calls)) :
    ∃ k b : Nat, 0 < k ∧ ((k * c.sibs : Nat) : Int) = (if arg < 0 then t.maxF else if arg = 0 then cd else arg) ∧
      b = min k (c.base s) ∧ 0 < b ∧ calls = [.walk s b e] ∧
      n = ((c.base s / b + (if c.base s % b * c.sibs > 1 then 1 else 0) : Nat) : Int) ∧ ∀ i : Nat, (i : Int) < n →
        0 < min b (c.base s - i * b) ∧ i * b < c.base s ∧
        nextSubset c t1 i = some (.walkNext s i (min b (c.base s - i * b) : Nat) (i * b : Nat) e ::
          (if e.x then [] else match t.prms with | none => [] | some p => [.norm p])) := by
  obtain ⟨f0, b0, hi⟩ := reach_inv hc hr
  obtain ⟨k, b, hk, hs, heff, hle, hb, hn, hcalls, rfl⟩ := walk_cases hc hi hw
  refine ⟨k, b, hk, by rw [← heff]; rfl, hb, by omega, hcalls, hn, ?_⟩
  intro i hin
  have hb0 : 0 < b := by omega
  have hib : i * b < c.base s := by
    have hdm := Nat.div_add_mod (c.base s) b
    rw [Nat.mul_comm] at hdm
    split at hn
    next hr =>
      have hrp : 0 < c.base s % b := by
        rcases Nat.eq_zero_or_pos (c.base s % b) with h | h
        · rw [h] at hr; omega
        · exact h
      have := Nat.mul_le_mul_right b (show i ≤ c.base s / b by omega)
      omega
    next hr =>
      have := Nat.mul_le_mul_right b (show i + 1 ≤ c.base s / b by omega)
      rw [Nat.succ_mul] at this
      omega
  have hbase := hc.base s
  refine ⟨by omega, hib, ?_⟩
  unfold nextSubset
  dsimp only
  have hv : ((i : Int) * (b : Int)) = ((i * b : Nat) : Int) := (Int.natCast_mul i b).symm
  rw [hv, if_pos (by omega), toVec_id (by omega) (by omega), hrows, if_pos (by omega)]
  have hmin : (if (c.base s : Int) - ((i * b : Nat) : Int) < (b : Int) then (c.base s : Int) - ((i * b : Nat) : Int) else (b : Int))
      = ((min b (c.base s - i * b) : Nat) : Int) := by
    by_cases h : (c.base s : Int) - ((i * b : Nat) : Int) < (b : Int)
    · rw [if_pos h]; omega
    · rw [if_neg h]; omega
  rw [hmin]
  rfl

/-- The walk covers the first `total` base samples. -/
def Visits (c : Src) (t1 : TT P) (s : Bool) (e : Excl) (p : Option P) (n total : Nat) : Prop :=
  ∃ ofs len : Nat → Nat, CoversInOrder n ofs len total ∧ ∀ i, i < n →
    nextSubset c t1 i = some (.walkNext s i (len i) (ofs i) e :: (if e.x then [] else match p with | none => [] | some p => [.norm p]))

/-- **C149** (partial: the full claim is this theorem without `hrem`; it is false, see `walk_misses_last`). A walk over a set asks the
transformer for all base samples of the set, in order, each exactly once, with the set's whole list of requests available in any order,
and the batch is normalised as long as the features are not excluded. -/
theorem walk_visits_all_partial {c : Src} (hc : c.Fits) {t t1 : TT P} (hr : Reach c t) {s : Bool} (hrows : c.rows s = c.base s) {cd arg n : Int}
    {e : Excl} {calls : List (Call P)} (hw : walkOverSet c t s cd arg e = some (t1, n, calls))
    (hrem : 2 ≤ c.sibs ∨ ∀ b : Nat, calls = [.walk s b e] → c.base s % b ≠ 1) :
    ∃ m : Nat, n = (m : Int) ∧ Visits c t1 s e t.prms m (c.base s) := by
  obtain ⟨k, b, hk, heff, hb, hb0, hcalls, hn, hreq⟩ := walk_requests hc hr hrows hw
  refine ⟨_, hn, fun i => i * b, fun i => min b (c.base s - i * b), ⟨?_, ?_, fun _ => by simp⟩, fun i hi => (hreq i (by omega)).2.2⟩
  · exact fun i hi => (hreq i (by omega)).1
  · intro i hi
    have hdm := Nat.div_add_mod (c.base s) b
    rw [Nat.mul_comm] at hdm
    have hml := Nat.mod_lt (c.base s) hb0
    have hil := (hreq i (by omega)).2.1
    have hsb := hc.sibs
    dsimp only
    have hz : ¬ c.base s % b * c.sibs > 1 → c.base s % b = 0 := by
      intro hr1
      rcases Nat.eq_zero_or_pos (c.base s % b) with h | h
      · exact h
      · rcases hrem with h2 | h2
        · have := Nat.mul_le_mul h h2
          omega
        · have h3 := h2 b hcalls
          have := Nat.mul_le_mul (show 2 ≤ c.base s % b by omega) hsb
          omega
    by_cases hq : i + 1 ≤ c.base s / b
    · have h1 := Nat.mul_le_mul_right b hq
      rw [Nat.succ_mul] at h1
      by_cases hlast : i + 1 < c.base s / b + (if c.base s % b * c.sibs > 1 then 1 else 0)
      · rw [if_pos hlast, Nat.succ_mul]; omega
      · rw [if_neg hlast]
        by_cases hr1 : c.base s % b * c.sibs > 1
        · rw [if_pos hr1] at hlast; omega
        · have hz := hz hr1
          rw [if_neg hr1] at hlast
          have hi' : i + 1 = c.base s / b := by omega
          have : (i + 1) * b = c.base s := by rw [hi']; omega
          rw [Nat.succ_mul] at this
          omega
    · by_cases hr1 : c.base s % b * c.sibs > 1
      · rw [if_pos hr1] at hi ⊢
        have hi' : i = c.base s / b := by omega
        rw [if_neg (by omega)]
        have : i * b + c.base s % b = c.base s := by rw [hi']; exact hdm
        omega
      · rw [if_neg hr1] at hi; omega

/-- **C149, false of the code: a walk asks for every base sample.** With a base sample standing for one sample, a set whose size
leaves the remainder 1 is walked without its last sample. -/
theorem walk_misses_last {c : Src} (hc : c.Fits) {t t1 : TT P} (hr : Reach c t) {s : Bool} (hrows : c.rows s = c.base s) {cd arg n : Int}
    {e : Excl} {calls : List (Call P)} (hw : walkOverSet c t s cd arg e = some (t1, n, calls)) (h1 : c.sibs = 1) (b : Nat)
    (hb : calls = [.walk s b e]) (hrem : c.base s % b = 1) :
    ∃ m : Nat, n = (m : Int) ∧ Visits c t1 s e t.prms m (c.base s - 1) := by
  obtain ⟨k, b', hk, heff, hb', hb0, hcalls, hn, hreq⟩ := walk_requests hc hr hrows hw
  have : b' = b := by
    rw [hcalls] at hb
    simp only [List.cons.injEq, Call.walk.injEq, true_and, and_true] at hb
    omega
  subst this
  rw [h1, hrem, if_neg (by omega)] at hn
  have hdm := Nat.div_add_mod (c.base s) b'
  rw [Nat.mul_comm, hrem] at hdm
  refine ⟨_, hn, fun i => i * b', fun i => min b' (c.base s - i * b'), ⟨?_, ?_, fun _ => by simp⟩, fun i hi => (hreq i (by omega)).2.2⟩
  · exact fun i hi => (hreq i (by omega)).1
  · intro i hi
    have h2 := Nat.mul_le_mul_right b' (show i + 1 ≤ c.base s / b' by omega)
    rw [Nat.succ_mul] at h2
    dsimp only
    split
    next => rw [Nat.succ_mul]; omega
    next hl =>
      have hi' : i + 1 = c.base s / b' := by omega
      have h3 : (i + 1) * b' = c.base s / b' * b' := by rw [hi']
      rw [Nat.succ_mul] at h3
      omega

/-- **C149.** A walk over a set that has samples can begin with every batch size that is a positive multiple of the size of a base
sample and not above the one of the initialisation. -/
theorem walk_available {c : Src} (hc : c.Fits) {t : TT P} (hr : Reach c t) (hok : c.ok = true) {s : Bool} (hs : 0 < c.base s) {cd arg : Int} {k : Nat}
    (e : Excl) (hk : 0 < k) (heff : ((k * c.sibs : Nat) : Int) = (if arg < 0 then t.maxF else if arg = 0 then cd else arg))
    (hle : ((k * c.sibs : Nat) : Int) ≤ t.maxF) : ∃ t1 n calls, walkOverSet c t s cd arg e = some (t1, n, calls) := by
  obtain ⟨f0, b0, hi⟩ := reach_inv hc hr
  have hm := hi.maxF
  have hkf : k ≤ f0 := Nat.le_of_mul_le_mul_right (by omega) hc.sibs
  have hpos := Nat.mul_pos hk hc.sibs
  have hspos := Nat.mul_pos hs hc.sibs
  have h1 : isInit4inference c t ((k * c.sibs : Nat) : Int) = some ((k * c.sibs : Nat) : Int) := by
    rw [isInit4inference_eq hc t f0 k hi.maxF hok, if_neg (by omega), if_neg (by omega)]
  have hcnt : c.count s = (c.base s * c.sibs : Nat) := by unfold Src.count; rw [Int.natCast_mul, Int.mul_comm]
  have hbs : (if ((k * c.sibs : Nat) : Int) > ((c.base s * c.sibs : Nat) : Int) then toVec ((c.base s * c.sibs : Nat) : Int)
      else ((k * c.sibs : Nat) : Int)) = ((min k (c.base s) * c.sibs : Nat) : Int) := by
    by_cases hkb : c.base s < k
    · have := (Nat.mul_lt_mul_right hc.sibs).2 hkb
      have hv := hi.fit
      rw [if_pos (by omega), toVec_id (by omega) (by omega), Nat.min_eq_right (by omega)]
    · have := Nat.mul_le_mul_right c.sibs (show k ≤ c.base s by omega)
      rw [if_neg (by omega), Nat.min_eq_left (by omega)]
  have hdiv : (((c.base s * c.sibs : Nat) : Int)).tdiv ((min k (c.base s) * c.sibs : Nat) : Int) = ((c.base s / min k (c.base s) : Nat) : Int) := by
    rw [← Int.ofNat_tdiv, Nat.mul_div_mul_right _ _ hc.sibs]
  have hq : 0 < c.base s / min k (c.base s) := Nat.div_pos (Nat.min_le_right _ _) (by omega)
  unfold walkOverSet effBatch
  dsimp only
  rw [← heff, hcnt, if_pos ⟨hok, by omega, hle, h1, by omega⟩, hbs, hdiv, if_pos (by split <;> omega)]
  exact ⟨_, _, _, rfl⟩

end Nntl.Ttd
