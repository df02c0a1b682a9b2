import Verif.WInit.LsuvProps
import Mathlib.Algebra.Order.Ring.Abs
import Mathlib.Tactic.FieldSimp
import Mathlib.Tactic.Positivity
/-! LSUV over statistics that follow the weights linearly: at most three tries are needed. -/
namespace Nntl.WInit
open Nntl.Kernel Nntl.Threads Nntl.Norm
variable {K : Type} [Field K] [LinearOrder K]

/-- Statistics of numbers that are all multiplied by `a` and shifted by `b`. -/
structure Linear (a b : K) (m m' : Meas K) : Prop where
  scale : m'.scale = a * m.scale
  central : m'.central = a * m.central + b

/-- Finite statistics with a scale that is special exactly when it is zero. -/
structure Tidy (m : Meas K) : Prop where
  sg : m.scaleGood = true
  cg : m.centralGood = true
  special : m.special = true ↔ m.scale = 0
  nonneg : 0 ≤ m.scale

theorem total_tries {ex : Exec} (rows cols : Nat) (s : Setts K) (act : K) (m : (Nat → K) → Meas K) : ∀ (n : Nat) (w : Nat → K),
    ∃ r, wholeTries ex rows cols s act m n w r := by
  intro n
  induction n with
  | zero => intro w; exact ⟨_, rfl⟩
  | succ n ih =>
    intro w
    rw [show (∃ r, wholeTries ex rows cols s act m (n + 1) w r) = _ from rfl]
    have hn : ∃ w1, (if doScale s (m w) || doCentral s (m w) then
        normWhole ex rows cols s act (m w).scale (m w).central (doScale s (m w)) (doCentral s (m w)) w w1 else w1 = w) := by
      split
      · unfold normWhole
        cases doScale s (m w)
        · exact ⟨_, w, by simp, rfl⟩
        · obtain ⟨d, hd⟩ := runs_exists ex (rows * cols) (eachSteps fun _ v => v * (s.targetScale / (m w).scale)) w
          exact ⟨_, d, by simpa using hd, rfl⟩
      · exact ⟨w, rfl⟩
    obtain ⟨w1, hw1⟩ := hn
    obtain ⟨r, hr⟩ := ih w1
    by_cases h1 : ((!(m w).centralGood || !(m w).scaleGood) && s.badBreak) = true
    · exact ⟨(false, w), by rw [wholeTries]; simp only [h1, if_true]⟩
    · by_cases h2 : ((!doScale s (m w) || scaleOk s (m w)) && (!doCentral s (m w) || centralOk s (m w))) = true
      · exact ⟨(true, w1), by rw [wholeTries]; simp only [h1, if_false]; exact ⟨w1, hw1, by simp only [h2, if_true]⟩⟩
      · exact ⟨r, by rw [wholeTries]; simp only [h1, if_false]; exact ⟨w1, hw1, by simp only [h2, if_false]; exact hr⟩⟩

theorem total_attempts (N : Net K) (hre : ∀ k w, ∃ w', N.reinit k w w') (k : Nat) (act : K) (s : St K) : ∀ (n : Nat) (w : Nat → K),
    ∃ r, attempts N k act s n w r := by
  intro n
  induction n with
  | zero => intro w; exact ⟨_, rfl⟩
  | succ n ih =>
    intro w
    have hp : ∃ p, process N k act s w p := by
      unfold process
      simp only
      by_cases h1 : (!((N.setts k).normScale || (N.setts k).normCentral) || decide ((N.setts k).maxTries = 0)) = true
      · exact ⟨(true, w), by rw [if_pos h1]⟩
      · simp only [h1, Bool.false_eq_true, if_false]
        by_cases h2 : (N.setts k).individual = true
        · exact ⟨_, by rw [if_pos h2]⟩
        · simp only [h2, Bool.false_eq_true, if_false]; exact total_tries _ _ _ _ _ _ _
    obtain ⟨p, hp⟩ := hp
    by_cases h : p.1 = true
    · exact ⟨p, p, hp, by rw [if_pos h]⟩
    · by_cases hn : 0 < n
      · obtain ⟨w1, h1⟩ := hre k p.2
        obtain ⟨r, hr⟩ := ih w1
        exact ⟨r, p, hp, by rw [if_neg h]; exact ⟨w1, by rw [if_pos hn]; exact h1, hr⟩⟩
      · obtain ⟨r, hr⟩ := ih p.2
        exact ⟨r, p, hp, by rw [if_neg h]; exact ⟨p.2, by rw [if_neg hn], hr⟩⟩

/-- `run` always has a result. -/
theorem run_total (N : Net K) (hre : ∀ k w, ∃ w', N.reinit k w w') (layers : List Tree) (samples : Nat) (s : St K) : ∃ r, run N layers samples s r := by
  have hl : ∀ k s, ∃ s', processLayer N k s s' := by
    intro k s
    unfold processLayer
    split
    · simp only
      split
      · exact ⟨_, rfl⟩
      · obtain ⟨r, hr⟩ := total_attempts N hre k (if (N.setts k).overPre then 1 else N.actSc k) { s with ign := put s.ign k (N.setts k).overPre }
          (N.setts k).maxReinit (s.ws k)
        exact ⟨_, r, hr, rfl⟩
    · exact ⟨_, rfl⟩
  have hst : ∀ l s, ∃ s', steps N l s s' := by
    intro l
    induction l with
    | nil => intro s; exact ⟨s, rfl⟩
    | cons k l ih =>
      intro s
      obtain ⟨s1, h1⟩ := hl k s
      obtain ⟨s2, h2⟩ := ih s1
      exact ⟨s2, s1, h1, h2⟩
  unfold run
  simp only
  split
  · exact ⟨_, rfl⟩
  · obtain ⟨s1, h1⟩ := hst (orderAll layers) { s with fail := 0 }
    exact ⟨_, s1, (walkAll_steps N _ _ _).2 h1, rfl⟩

variable [IsStrictOrderedRing K]

/-- Settings under which normalisation has a goal it can hit. -/
structure Aim (s : Setts K) : Prop where
  target : 0 < s.targetScale
  stol : 0 < s.scaleTol
  ctol : 0 < s.centralTol

theorem Linear.one {s : Setts K} (h : Aim s) {m m' : Meas K} (t : Tidy m) (t' : Tidy m')
    (hl : Linear (if doScale s m then s.targetScale / m.scale else 1)
      (if doCentral s m then (s.targetCentral - m.central) * (if doScale s m then s.targetScale / m.scale else 1) else 0) m m') : doScale s m' = false := by
  cases hb : doScale s m with
  | false =>
    have e := hl.scale
    rw [hb] at e
    simp only [Bool.false_eq_true, if_false, one_mul] at e
    have e2 : m'.special = m.special := by
      rw [Bool.eq_iff_iff, t.special, t'.special, e]
    unfold doScale scaleOk at hb ⊢
    rw [e, e2, t'.sg]
    rw [t.sg] at hb
    exact hb
  | true =>
    have e := hl.scale
    rw [hb, if_pos rfl] at e
    have hne : m.scale ≠ 0 := by
      intro h0
      have := t.special.2 h0
      unfold doScale at hb
      simp [this] at hb
    rw [div_mul_cancel₀ _ hne] at e
    unfold doScale scaleOk
    simp [e, h.stol]

theorem Linear.two {s : Setts K} (h : Aim s) {m m' : Meas K} (t : Tidy m) (hS : doScale s m = false)
    (hl : Linear (1 : K) (if doCentral s m then s.targetCentral - m.central else 0) m m') (t' : Tidy m') : doCentral s m' = false := by
  cases hb : doCentral s m with
  | false =>
    have e := hl.central
    rw [hb] at e
    simp only [Bool.false_eq_true, if_false, one_mul, add_zero] at e
    unfold doCentral centralOk at hb ⊢
    rw [e, t'.cg]
    rw [t.cg] at hb
    exact hb
  | true =>
    have e := hl.central
    rw [hb, if_pos rfl] at e
    have e2 : m'.central = s.targetCentral := by rw [e]; ring
    unfold doCentral centralOk
    simp [e2, h.ctol]

/-- A measure of all the numbers that follows a common change of the weights. -/
structure WholeLaw (rows cols : Nat) (m : (Nat → K) → Meas K) : Prop where
  tidy : ∀ w, Tidy (m w)
  linear : ∀ w w' a b, 0 < a → Rescaled rows cols (fun _ => a) (fun _ => b) w w' → Linear a b (m w) (m w')

theorem factor_pos {s : Setts K} (h : Aim s) {m : Meas K} (t : Tidy m) : 0 < if doScale s m then s.targetScale / m.scale else 1 := by
  split
  · next hb =>
    have hne : m.scale ≠ 0 := by
      intro h0
      have := t.special.2 h0
      unfold doScale at hb
      simp [this] at hb
    exact div_pos h.target (lt_of_le_of_ne t.nonneg (Ne.symm hne))
  · exact one_pos

theorem whole_step {ex : Exec} (hex : ex.Ok) {rows cols : Nat} (h0 : 0 < rows) (h1 : 0 < cols) {s : Setts K} (ha : Aim s) {m : (Nat → K) → Meas K}
    (hm : WholeLaw rows cols m) {n : Nat} {w : Nat → K} {r : Bool × (Nat → K)} (h : wholeTries ex rows cols s 1 m (n + 1) w r) :
    r.1 = true ∨ ∃ w1, Linear (if doScale s (m w) then s.targetScale / (m w).scale else 1)
      (if doCentral s (m w) then (s.targetCentral - (m w).central) * (if doScale s (m w) then s.targetScale / (m w).scale else 1) else 0) (m w) (m w1) ∧
      ¬ Acceptable s (m w) ∧ wholeTries ex rows cols s 1 m n w1 r := by
  rw [wholeTries] at h
  rw [if_neg (by simp [(hm.tidy w).sg, (hm.tidy w).cg])] at h
  obtain ⟨w1, e1, e2⟩ := h
  have hl : Rescaled rows cols (fun _ => if doScale s (m w) then s.targetScale / (m w).scale else 1)
      (fun _ => if doCentral s (m w) then (s.targetCentral - (m w).central) * (if doScale s (m w) then s.targetScale / (m w).scale else 1) else 0) w w1 := by
    split at e1
    · simpa using normWhole_rescaled hex h0 h1 e1
    · next hb =>
      simp only [Bool.or_eq_true, not_or, Bool.not_eq_true] at hb
      subst e1
      simp only [hb.1, hb.2, Bool.false_eq_true, if_false]
      exact Rescaled.refl _ _ _
  split at e2
  · left; rw [e2]
  · next hst =>
    refine Or.inr ⟨w1, hm.linear _ _ _ _ (factor_pos ha (hm.tidy w)) hl, fun hacc => hst ((stop_iff _ _).2 hacc), e2⟩

theorem whole_three {ex : Exec} (hex : ex.Ok) {rows cols : Nat} (h0 : 0 < rows) (h1 : 0 < cols) {s : Setts K} (ha : Aim s) {m : (Nat → K) → Meas K}
    (hm : WholeLaw rows cols m) {n : Nat} (hn : 3 ≤ n) {w : Nat → K} {r : Bool × (Nat → K)} (h : wholeTries ex rows cols s 1 m n w r) : r.1 = true := by
  obtain ⟨n, rfl⟩ : ∃ k, n = k + 3 := ⟨n - 3, by omega⟩
  rcases whole_step hex h0 h1 ha hm h with h2 | ⟨w1, l1, _, h2⟩
  · exact h2
  have s1 := l1.one ha (hm.tidy w) (hm.tidy w1)
  rcases whole_step hex h0 h1 ha hm h2 with h3 | ⟨w2, l2, _, h3⟩
  · exact h3
  have s2 := l2.one ha (hm.tidy w1) (hm.tidy w2)
  rw [s1] at l2
  simp only [Bool.false_eq_true, if_false, mul_one] at l2
  have c2 := l2.two ha (hm.tidy w1) s1 (hm.tidy w2)
  rcases whole_step hex h0 h1 ha hm h3 with h4 | ⟨w3, l3, hna, h4⟩
  · exact h4
  exact absurd ((accept_iff _ _).2 ⟨s2, c2⟩) hna

/-- A measure of the neurons, each of which follows the change of its own weights. -/
structure RowLaw (rows cols : Nat) (m : (Nat → K) → Nat → Meas K) : Prop where
  tidy : ∀ w c, Tidy (m w c)
  linear : ∀ w w' c a b, c < rows → 0 < a →
    (∀ j < cols, w' (c + rows * j) = a * w (c + rows * j) + if j + 1 = cols then b else 0) → Linear a b (m w c) (m w' c)

/-- What one pass over the neurons does when all the statistics are finite. -/
structure RowsExact (rows cols : Nat) (s : Setts K) (act : K) (m : Nat → Meas K) (cs : List Nat) (w : Nat → K) (ok0 : Nat → Bool) (all0 : Bool)
    (r : (Nat → K) × (Nat → Bool) × Bool × Bool) : Prop where
  abort : r.2.2.2 = false
  all : (∀ c ∈ cs, ok0 c = true ∨ Acceptable s (m c)) → all0 = true → r.2.2.1 = true
  ok : ∀ c ∈ cs, r.2.1 c = false → ok0 c = false
  row : ∀ c ∈ cs, ok0 c = false → ∀ j < cols, r.1 (c + rows * j) =
    (if doScale s (m c) then s.targetScale / (m c).scale else 1) * w (c + rows * j) +
      if j + 1 = cols then
        (if doCentral s (m c) then (s.targetCentral - (m c).central) * act * (if doScale s (m c) then s.targetScale / (m c).scale else 1) else 0)
      else 0

theorem rowTries_exact {rows cols : Nat} (h1 : 0 < cols) (s : Setts K) (act : K) (m : Nat → Meas K) (ht : ∀ c, Tidy (m c)) :
    ∀ (cs : List Nat) (w : Nat → K) (ok : Nat → Bool) (all : Bool), cs.Nodup → (∀ c ∈ cs, c < rows) →
    RowsExact rows cols s act m cs w ok all (rowTries rows cols s act m cs w ok all) := by
  intro cs
  induction cs with
  | nil => intro w ok all _ _; exact ⟨rfl, fun _ h => h, fun c hc => (by cases hc), fun c hc => (by cases hc)⟩
  | cons c cs ih =>
    intro w ok all hn hb
    rw [List.nodup_cons] at hn
    have hc : c < rows := hb c (by simp)
    have hb' : ∀ c ∈ cs, c < rows := fun x hx => hb x (by simp [hx])
    have hne : ∀ x ∈ cs, x ≠ c := fun x hx h => hn.1 (h ▸ hx)
    rw [rowTries]
    split
    · next hok =>
      have H := ih w ok all hn.2 hb'
      have R := rowTries_right h1 s act m cs w ok all hn.2 hb'
      refine ⟨H.abort, fun h ha => H.all (fun x hx => h x (by simp [hx])) ha, fun x hx h => ?_, fun x hx h => ?_⟩
      · rcases List.mem_cons.1 hx with rfl | hx
        · rw [(R.kept x hok).1] at h; cases h
        · exact H.ok x hx h
      · rcases List.mem_cons.1 hx with rfl | hx
        · rw [hok] at h; cases h
        · exact H.row x hx h
    · next hok =>
      simp only
      rw [if_neg (by simp [(ht c).sg, (ht c).cg])]
      generalize hw1 : (if (doScale s (m c) || doCentral s (m c)) = true then
          normRow rows cols s act c (m c).scale (m c).central (doScale s (m c)) (doCentral s (m c)) w else w) = w1
      generalize htt : ((!doScale s (m c) || scaleOk s (m c)) && (!doCentral s (m c) || centralOk s (m c))) = t
      have H := ih w1 (put ok c t) (all && t) hn.2 hb'
      have R := rowTries_right h1 s act m cs w1 (put ok c t) (all && t) hn.2 hb'
      have hoth : ∀ x, x < rows → x ≠ c → SameRow rows cols x w w1 := by
        intro x hx hne
        rw [← hw1]
        split
        · exact normRow_other hc h1 s act _ _ _ _ w hx hne
        · exact fun _ _ => rfl
      have hrow : ∀ j < cols, w1 (c + rows * j) = (if doScale s (m c) then s.targetScale / (m c).scale else 1) * w (c + rows * j) +
          if j + 1 = cols then
            (if doCentral s (m c) then (s.targetCentral - (m c).central) * act * (if doScale s (m c) then s.targetScale / (m c).scale else 1) else 0)
          else 0 := by
        intro j hj
        rw [← hw1]
        split
        · rw [(normRow_rescaled hc h1 s act _ _ _ _ w).cell c hc j hj]
          simp
        · next hbb =>
          simp only [Bool.or_eq_true, not_or, Bool.not_eq_true] at hbb
          simp [hbb.1, hbb.2]
      refine ⟨H.abort, fun h ha => H.all (fun x hx => ?_) ?_, fun x hx h => ?_, fun x hx h => ?_⟩
      · rw [put_ne _ _ (hne x hx)]; exact h x (by simp [hx])
      · have := h c (by simp)
        rw [ha, Bool.true_and, ← htt]
        rcases this with h2 | h2
        · exact absurd h2 hok
        · exact (stop_iff _ _).2 h2
      · rcases List.mem_cons.1 hx with rfl | hx
        · simpa using hok
        · rw [← put_ne ok t (hne x hx)]; exact H.ok x hx h
      · rcases List.mem_cons.1 hx with rfl | hx
        · intro j hj
          rw [← ((R.other x hn.1).2 hc) j hj]
          exact hrow j hj
        · intro j hj
          rw [H.row x hx (by rw [put_ne _ _ (hne x hx)]; exact h) j hj, ← hoth x (hb' x hx) (hne x hx) j hj]

theorem cw_step {rows cols : Nat} (h1 : 0 < cols) {s : Setts K} (ha : Aim s) {m : (Nat → K) → Nat → Meas K} (hm : RowLaw rows cols m) (n : Nat) (w : Nat → K)
    (ok : Nat → Bool) :
    (((∀ c < rows, ok c = true ∨ Acceptable s (m w c)) → (cwTries rows cols s 1 m (n + 1) w ok).1 = true)) ∧
    ((cwTries rows cols s 1 m (n + 1) w ok).1 = true ∨ ∃ w1 ok1, cwTries rows cols s 1 m (n + 1) w ok = cwTries rows cols s 1 m n w1 ok1 ∧
      ∀ c < rows, ok1 c = true ∨ ok c = false ∧
        Linear (if doScale s (m w c) then s.targetScale / (m w c).scale else 1)
          (if doCentral s (m w c) then (s.targetCentral - (m w c).central) * (if doScale s (m w c) then s.targetScale / (m w c).scale else 1) else 0)
          (m w c) (m w1 c)) := by
  have H := rowTries_exact h1 s 1 (m w) (hm.tidy w) (List.range rows) w ok true List.nodup_range (fun c hc => List.mem_range.1 hc)
  rw [cwTries]
  generalize rowTries rows cols s 1 (m w) (List.range rows) w ok true = p at H
  simp only [H.abort, Bool.false_eq_true, if_false]
  constructor
  · intro hall
    rw [if_pos (H.all (fun c hc => hall c (List.mem_range.1 hc)) rfl)]
  · split
    · left; rfl
    · refine Or.inr ⟨p.1, p.2.1, rfl, fun c hc => ?_⟩
      cases hb : p.2.1 c with
      | true => exact Or.inl rfl
      | false =>
        have hok := H.ok c (List.mem_range.2 hc) hb
        refine Or.inr ⟨hok, hm.linear w p.1 c _ _ hc (factor_pos ha (hm.tidy w c)) ?_⟩
        intro j hj
        rw [H.row c (List.mem_range.2 hc) hok j hj, mul_one]

theorem cw_three {rows cols : Nat} (h1 : 0 < cols) {s : Setts K} (ha : Aim s) {m : (Nat → K) → Nat → Meas K} (hm : RowLaw rows cols m) {n : Nat} (hn : 3 ≤ n)
    (w : Nat → K) (ok : Nat → Bool) : (cwTries rows cols s 1 m n w ok).1 = true := by
  obtain ⟨n, rfl⟩ : ∃ k, n = k + 3 := ⟨n - 3, by omega⟩
  rcases (cw_step h1 ha hm (n + 2) w ok).2 with h2 | ⟨w1, ok1, e1, l1⟩
  · exact h2
  rw [e1]
  have s1 : ∀ c < rows, ok1 c = true ∨ doScale s (m w1 c) = false := fun c hc => (l1 c hc).imp id fun h => h.2.one ha (hm.tidy _ _) (hm.tidy _ _)
  rcases (cw_step h1 ha hm (n + 1) w1 ok1).2 with h3 | ⟨w2, ok2, e2, l2⟩
  · exact h3
  rw [e2]
  apply (cw_step h1 ha hm n w2 ok2).1
  intro c hc
  rcases l2 c hc with h | ⟨hok, h⟩
  · exact Or.inl h
  · right
    have hs1 : doScale s (m w1 c) = false := by
      rcases s1 c hc with h' | h'
      · rw [hok] at h'; cases h'
      · exact h'
    have s2 := h.one ha (hm.tidy _ _) (hm.tidy _ _)
    rw [hs1] at h
    simp only [Bool.false_eq_true, if_false, mul_one] at h
    exact (accept_iff _ _).2 ⟨s2, h.two ha (hm.tidy _ _) hs1 (hm.tidy _ _)⟩

end Nntl.WInit
