import Verif.Norm.Lemmas
import Mathlib.Data.List.Nodup
/-! The loops of the normalisation, for any data source. -/
namespace Nntl.Norm
open Nntl.Kernel Nntl.Matrix Nntl.Threads
variable {K : Type} [Field K] [LinearOrder K]

/-- The calls `l` took the data source from `x` to `x'`. -/
def Chain {S T : Type} (fix : T → S → S → Prop) : List T → S → S → Prop
  | [], x, x' => x' = x
  | a :: l, x, x' => ∃ x1, fix a x x1 ∧ Chain fix l x1 x'

theorem accept_iff (s : Setts K) (m : Meas K) : Acceptable s m ↔ doScale s m = false ∧ doCentral s m = false := by
  unfold Acceptable doScale doCentral scaleOk centralOk
  have h1 := em (|m.scale - s.targetScale| < s.scaleTol)
  have h2 := em (|m.central - s.targetCentral| < s.centralTol)
  cases s.normScale <;> cases s.normCentral <;> cases m.scaleGood <;> cases m.centralGood <;> cases m.special <;>
    rcases h1 with h1 | h1 <;> rcases h2 with h2 | h2 <;> simp [h1, h2, not_lt.1] <;> first | exact not_lt.1 h1 | exact not_lt.1 h2 | skip

/-- The loop stops when nothing had to be done. -/
theorem stop_iff (s : Setts K) (m : Meas K) :
    ((!doScale s m || scaleOk s m) && (!doCentral s m || centralOk s m)) = true ↔ Acceptable s m := by
  rw [accept_iff]
  unfold doScale doCentral
  cases scaleOk s m <;> cases centralOk s m <;> cases m.scaleGood <;> cases m.centralGood <;> cases m.special <;>
    cases s.normScale <;> cases s.normCentral <;> decide

theorem normStep_spec (s : Setts K) {st : Stat K} (h : st.Clean) (sv cv : K) (bS bC : Bool) :
    (normStep s st sv cv bS bC).1.Clean ∧
    ∀ v, stepFn (normStep s st sv cv bS bC).1 v = stepFn (normStep s st sv cv bS bC).2 (stepFn st v) := by
  have e2 := stepFn_eq (normStep s st sv cv bS bC).2
  unfold normStep at e2 ⊢
  cases bS <;> cases bC
  · exact ⟨h, fun v => by rw [e2]; simp⟩
  · obtain ⟨c, e⟩ := Stat.updOfs_spec h ((s.targetCentral - cv) * 1)
    exact ⟨c, fun v => by rw [e2]; simpa using e v⟩
  · obtain ⟨c, e⟩ := Stat.updScale_spec h (s.targetScale / sv)
    exact ⟨c, fun v => by rw [e2]; simpa using e v⟩
  · obtain ⟨c, e⟩ := Stat.updScale_spec h (s.targetScale / sv)
    obtain ⟨c', e'⟩ := Stat.updOfs_spec c ((s.targetCentral - cv) * (s.targetScale / sv))
    exact ⟨c', fun v => by
      rw [e2]
      show stepFn ((st.updScale (s.targetScale / sv)).updOfs ((s.targetCentral - cv) * (s.targetScale / sv))) v = _
      rw [e' v, e v]; simp⟩

/-- What any run of the loop over the whole data has. -/
structure WholeRight {S : Type} (s : Setts K) (td : Td S K) (st : Stat K) (x : S) (r : Res S (Stat K)) : Prop where
  clean : r.stat.Clean
  accum : ∀ v, stepFn r.stat v = replay r.sent (stepFn st v)
  chain : Chain td.fixTrain r.sent x r.state
  accept : r.ok = true → Acceptable s (td.meas r.state)
  flags : (r.stat.bScale || r.stat.bOffset) = ((st.bScale || st.bOffset) || !r.sent.isEmpty)
  first : Acceptable s (td.meas x) → r.sent = []
  sound : ∀ a ∈ r.sent, (a.bScale = false → a.sc = 1) ∧ (s.normCentral = false → a.bOffset = false)

theorem normStep_flags (s : Setts K) (st : Stat K) (sv cv : K) (bS bC : Bool) (h : (bS || bC) = true) :
    ((normStep s st sv cv bS bC).1.bScale || (normStep s st sv cv bS bC).1.bOffset) = true := by
  unfold normStep Stat.updScale Stat.updOfs
  cases bS <;> cases bC <;> simp_all

theorem wholeLoop_right {S : Type} (s : Setts K) (td : Td S K) : ∀ (n : Nat) (st : Stat K) (x : S) (r : Res S (Stat K)), st.Clean →
    wholeLoop s td n st x r → WholeRight s td st x r := by
  intro n
  induction n with
  | zero =>
    intro st x r hc h
    have h : r = ⟨false, st, x, []⟩ := h
    subst h
    exact ⟨hc, fun _ => rfl, rfl, fun h => (by cases h), by simp, fun _ => rfl, fun a ha => (by cases ha)⟩
  | succ n ih =>
    intro st x r hc h
    unfold wholeLoop at h
    dsimp only at h
    by_cases hb : ((!(td.meas x).centralGood || !(td.meas x).scaleGood) && s.badBreak) = true
    · rw [if_pos hb] at h
      subst h
      exact ⟨hc, fun _ => rfl, rfl, fun h => (by cases h), by simp, fun _ => rfl, fun a ha => (by cases ha)⟩
    · rw [if_neg hb] at h
      obtain ⟨x1, hx, h⟩ := h
      by_cases ha : Acceptable s (td.meas x)
      · have ha' := (accept_iff s _).1 ha
        rw [if_pos ((stop_iff s _).2 ha)] at h
        simp only [ha'.1, ha'.2, Bool.or_self, Bool.false_eq_true, if_false] at hx h
        subst hx h
        exact ⟨hc, fun _ => rfl, rfl, fun _ => ha, by simp, fun _ => rfl, fun a ha => (by cases ha)⟩
      · rw [if_neg (fun hh => ha ((stop_iff s _).1 hh))] at h
        have hd : (doScale s (td.meas x) || doCentral s (td.meas x)) = true := by
          by_contra hh
          apply ha
          rw [accept_iff]
          simpa using hh
        simp only [hd, if_true] at hx h
        obtain ⟨r', hr', rfl⟩ := h
        obtain ⟨nc, ne⟩ := normStep_spec s hc (td.meas x).scale (td.meas x).central (doScale s (td.meas x)) (doCentral s (td.meas x))
        have := ih _ _ _ nc hr'
        refine ⟨this.clean, ?_, ⟨x1, hx, this.chain⟩, this.accept, ?_, fun hh => absurd hh ha, ?_⟩
        · intro v
          rw [this.accum v, ne v]; rfl
        · rw [this.flags, normStep_flags s st _ _ _ _ hd]
          simp
        · intro a ha'
          rcases List.mem_append.1 ha' with ha' | ha'
          · rw [List.mem_singleton.1 ha']
            refine ⟨fun hh => ?_, fun hh => ?_⟩
            · have hh : doScale s (td.meas x) = false := hh
              unfold normStep; simp only [hh, Bool.false_eq_true, if_false]
            · show doCentral s (td.meas x) = false
              unfold doCentral; simp [hh]
          · exact this.sound a ha'

theorem normalizeWhole_right {S : Type} {s : Setts K} (hs : s.should = true) {td : Td S K} {x : S} {r : Res S (Stat K)} (h : normalizeWhole s td x r) :
    WholeRight s td .init x r := by
  unfold normalizeWhole at h
  rw [if_neg] at h
  · exact wholeLoop_right s td _ _ _ _ Stat.init_clean h
  · unfold Setts.should at hs
    simp only [Bool.and_eq_true, Bool.or_eq_true, decide_eq_true_eq] at hs
    simp only [Bool.or_eq_true, Bool.not_eq_true', decide_eq_true_eq, Bool.or_eq_false_iff]
    rintro (⟨h1, h2⟩ | h1)
    · rcases hs.1 with h3 | h3
      · rw [h2] at h3; cases h3
      · rw [h1] at h3; cases h3
    · omega

/-! ### Columns -/

/-- What the pass over the columns keeps. -/
structure ColsRight (s : Setts K) (meas : Nat → Meas K) (w w' : Cw K) (cs : List Nat) (ab : Bool) : Prop where
  clean : (∀ c, (w.stats c).Clean ∧ (w.iter c).Clean) → ∀ c, (w'.stats c).Clean ∧ (w'.iter c).Clean
  accum : (∀ c, (w.stats c).Clean ∧ (w.iter c).Clean) → ∀ st0 : Nat → Stat K, (∀ c v, stepFn (w.stats c) v = stepFn (w.iter c) (stepFn (st0 c) v)) →
    ∀ c v, stepFn (w'.stats c) v = stepFn (w'.iter c) (stepFn (st0 c) v)
  other : ∀ c, c ∉ cs → w'.ok c = w.ok c ∧ w'.iter c = w.iter c
  kept : ∀ c, w.ok c = true → w'.ok c = true ∧ w'.iter c = w.iter c
  fresh : ab = false → ∀ c ∈ cs, w.ok c = false → w'.ok c = true → Acceptable s (meas c) ∧ w'.iter c = w.iter c
  all : ab = false → (w'.allScale && w'.allCentr) = true → (w.allScale && w.allCentr) = true ∧ ∀ c ∈ cs, w'.ok c = true

theorem normColStep_spec (s : Setts K) (w : Cw K) (c : Nat) (sv cv : K) (bS bC : Bool)
    (h : ∀ c, (w.stats c).Clean ∧ (w.iter c).Clean) :
    (∀ i, ((normColStep s w c sv cv bS bC).stats i).Clean ∧ ((normColStep s w c sv cv bS bC).iter i).Clean) ∧
    ∀ st0 : Nat → Stat K, (∀ c v, stepFn (w.stats c) v = stepFn (w.iter c) (stepFn (st0 c) v)) →
      ∀ i v, stepFn ((normColStep s w c sv cv bS bC).stats i) v = stepFn ((normColStep s w c sv cv bS bC).iter i) (stepFn (st0 i) v) := by
  have scl : ∀ (w : Cw K) (k : K), (∀ c, (w.stats c).Clean ∧ (w.iter c).Clean) →
      (∀ i, ((at1 w.stats c ((w.stats c).updScale k)) i).Clean ∧ ((at1 w.iter c ((w.iter c).updScale k)) i).Clean) ∧
      ∀ st0 : Nat → Stat K, (∀ c v, stepFn (w.stats c) v = stepFn (w.iter c) (stepFn (st0 c) v)) →
      ∀ i v, stepFn ((at1 w.stats c ((w.stats c).updScale k)) i) v = stepFn ((at1 w.iter c ((w.iter c).updScale k)) i) (stepFn (st0 i) v) := by
    intro w k h
    constructor
    · intro i; unfold at1
      by_cases hi : i = c
      · simp only [if_pos hi]
        exact ⟨(Stat.updScale_spec (h c).1 k).1, (Stat.updScale_spec (h c).2 k).1⟩
      · simp only [if_neg hi]; exact h i
    · intro st0 h0 i v; unfold at1
      by_cases hi : i = c
      · subst hi
        simp only [if_true]
        rw [(Stat.updScale_spec (h i).1 k).2, (Stat.updScale_spec (h i).2 k).2, h0]
      · simp only [if_neg hi]; exact h0 i v
  have ofl : ∀ (w : Cw K) (k : K), (∀ c, (w.stats c).Clean ∧ (w.iter c).Clean) →
      (∀ i, ((at1 w.stats c ((w.stats c).updOfs k)) i).Clean ∧ ((at1 w.iter c ((w.iter c).updOfs k)) i).Clean) ∧
      ∀ st0 : Nat → Stat K, (∀ c v, stepFn (w.stats c) v = stepFn (w.iter c) (stepFn (st0 c) v)) →
      ∀ i v, stepFn ((at1 w.stats c ((w.stats c).updOfs k)) i) v = stepFn ((at1 w.iter c ((w.iter c).updOfs k)) i) (stepFn (st0 i) v) := by
    intro w k h
    constructor
    · intro i; unfold at1
      by_cases hi : i = c
      · simp only [if_pos hi]
        exact ⟨(Stat.updOfs_spec (h c).1 k).1, (Stat.updOfs_spec (h c).2 k).1⟩
      · simp only [if_neg hi]; exact h i
    · intro st0 h0 i v; unfold at1
      by_cases hi : i = c
      · subst hi
        simp only [if_true]
        rw [(Stat.updOfs_spec (h i).1 k).2, (Stat.updOfs_spec (h i).2 k).2, h0]
      · simp only [if_neg hi]; exact h0 i v
  unfold normColStep
  cases bS <;> cases bC
  · exact ⟨h, fun st0 h0 => h0⟩
  · exact ⟨(ofl w _ h).1, (ofl w _ h).2⟩
  · exact ⟨(scl w _ h).1, (scl w _ h).2⟩
  · have h1 := scl w (s.targetScale / sv) h
    let w1 : Cw K := { w with stats := at1 w.stats c ((w.stats c).updScale (s.targetScale / sv)), iter := at1 w.iter c ((w.iter c).updScale (s.targetScale / sv)) }
    have h2 := ofl w1 ((s.targetCentral - cv) * (s.targetScale / sv)) h1.1
    exact ⟨h2.1, fun st0 h0 => h2.2 st0 (h1.2 st0 h0)⟩

theorem normColStep_keep (s : Setts K) (w : Cw K) (c : Nat) (sv cv : K) (bS bC : Bool) :
    (normColStep s w c sv cv bS bC).ok = w.ok ∧ (normColStep s w c sv cv bS bC).allScale = w.allScale ∧
    (normColStep s w c sv cv bS bC).allCentr = w.allCentr ∧ ∀ i, i ≠ c → (normColStep s w c sv cv bS bC).iter i = w.iter i := by
  unfold normColStep at1
  cases bS <;> cases bC
  · simp
  · simp only [Bool.false_eq_true, if_false, if_true, true_and]; intro i hi; rw [if_neg hi]
  · simp only [Bool.false_eq_true, if_false, if_true, true_and]; intro i hi; rw [if_neg hi]
  · simp only [if_true, true_and]; intro i hi; rw [if_neg hi, if_neg hi]

theorem cwCols_right (s : Setts K) (meas : Nat → Meas K) : ∀ (cs : List Nat) (w : Cw K), cs.Nodup →
    ColsRight s meas w (cwCols s meas cs w).1 cs (cwCols s meas cs w).2 := by
  intro cs
  induction cs with
  | nil =>
    intro w _
    exact ⟨fun h => h, fun _ _ h => h, fun _ _ => ⟨rfl, rfl⟩, fun _ h => ⟨h, rfl⟩, fun _ c hc => (by cases hc), fun _ h => ⟨h, fun c hc => (by cases hc)⟩⟩
  | cons c cs ih =>
    intro w hn
    obtain ⟨hnc, hn'⟩ := List.nodup_cons.1 hn
    unfold cwCols
    by_cases hok : w.ok c = true
    · rw [if_pos hok]
      have := ih w hn'
      refine ⟨this.clean, this.accum, fun i hi => this.other i (fun h => hi (List.mem_cons_of_mem _ h)), this.kept, ?_, ?_⟩
      · intro ha i hi hi2
        rcases List.mem_cons.1 hi with rfl | hi
        · rw [hok] at hi2; cases hi2
        · exact this.fresh ha i hi hi2
      · intro ha hall
        refine ⟨(this.all ha hall).1, ?_⟩
        intro i hi
        rcases List.mem_cons.1 hi with rfl | hi
        · exact (this.kept i hok).1
        · exact (this.all ha hall).2 i hi
    · rw [if_neg hok]
      dsimp only
      have hok' : w.ok c = false := by simpa using hok
      by_cases hb : ((!(meas c).centralGood || !(meas c).scaleGood) && s.badBreak) = true
      · rw [if_pos hb]
        exact ⟨fun h => h, fun _ _ h => h, fun _ _ => ⟨rfl, rfl⟩, fun _ h => ⟨h, rfl⟩, fun h => (by cases h), fun h => (by cases h)⟩
      · rw [if_neg hb]
        generalize hw1 : ({ w with allScale := w.allScale && (!doScale s (meas c) || scaleOk s (meas c)),
                                   allCentr := w.allCentr && (!doCentral s (meas c) || centralOk s (meas c)) } : Cw K) = w1
        generalize hw2 : (if (doScale s (meas c) || doCentral s (meas c)) = true then
          normColStep s w1 c (meas c).scale (meas c).central (doScale s (meas c)) (doCentral s (meas c)) else w1) = w2
        have k1 : w1.stats = w.stats ∧ w1.iter = w.iter ∧ w1.ok = w.ok := by subst hw1; exact ⟨rfl, rfl, rfl⟩
        have ka : (w1.allScale && w1.allCentr) = true ↔ (w.allScale && w.allCentr) = true ∧ Acceptable s (meas c) := by
          subst hw1
          rw [← stop_iff]
          simp only [Bool.and_eq_true]
          tauto
        have hclean : (∀ c, (w.stats c).Clean ∧ (w.iter c).Clean) → ∀ c, (w2.stats c).Clean ∧ (w2.iter c).Clean := by
          intro h
          have h' : ∀ c, (w1.stats c).Clean ∧ (w1.iter c).Clean := by rw [k1.1, k1.2.1]; exact h
          subst hw2
          split
          · exact (normColStep_spec s w1 c _ _ _ _ h').1
          · exact h'
        have haccum : (∀ c, (w.stats c).Clean ∧ (w.iter c).Clean) → ∀ st0 : Nat → Stat K, (∀ c v, stepFn (w.stats c) v = stepFn (w.iter c) (stepFn (st0 c) v)) →
            ∀ c v, stepFn (w2.stats c) v = stepFn (w2.iter c) (stepFn (st0 c) v) := by
          intro h st0 h0
          have h' : ∀ c, (w1.stats c).Clean ∧ (w1.iter c).Clean := by rw [k1.1, k1.2.1]; exact h
          have h0' : ∀ c v, stepFn (w1.stats c) v = stepFn (w1.iter c) (stepFn (st0 c) v) := by rw [k1.1, k1.2.1]; exact h0
          subst hw2
          split
          · exact (normColStep_spec s w1 c _ _ _ _ h').2 st0 h0'
          · exact h0'
        have hkeep : w2.ok = w.ok ∧ w2.allScale = w1.allScale ∧ w2.allCentr = w1.allCentr ∧ (∀ i, i ≠ c → w2.iter i = w.iter i) ∧
            (Acceptable s (meas c) → w2.iter c = w.iter c) := by
          subst hw2
          have kk := normColStep_keep s w1 c (meas c).scale (meas c).central (doScale s (meas c)) (doCentral s (meas c))
          split
          · next hd =>
            refine ⟨by rw [kk.1, k1.2.2], kk.2.1, kk.2.2.1, fun i hi => by rw [kk.2.2.2 i hi, k1.2.1], ?_⟩
            intro ha
            rw [accept_iff] at ha
            rw [ha.1, ha.2] at hd
            cases hd
          · exact ⟨k1.2.2, rfl, rfl, fun i _ => by rw [k1.2.1], fun _ => by rw [k1.2.1]⟩
        have htail := ih { w2 with ok := at1 w2.ok c ((!doScale s (meas c) || scaleOk s (meas c)) && (!doCentral s (meas c) || centralOk s (meas c))) } hn'
        refine ⟨fun h => htail.clean (hclean h), fun h st0 h0 => htail.accum (hclean h) st0 (haccum h st0 h0), ?_, ?_, ?_, ?_⟩
        · intro i hi
          have hic : i ≠ c := fun h => hi (h ▸ List.mem_cons_self ..)
          have := htail.other i (fun h => hi (List.mem_cons_of_mem _ h))
          simp only [at1, if_neg hic] at this
          rw [this.1, this.2, hkeep.1, hkeep.2.2.2.1 i hic]
          exact ⟨rfl, rfl⟩
        · intro i hi
          have hic : i ≠ c := fun h => by rw [h, hok'] at hi; cases hi
          have := htail.kept i (by simp only [at1, if_neg hic, hkeep.1]; exact hi)
          exact ⟨this.1, by rw [this.2]; exact hkeep.2.2.2.1 i hic⟩
        · intro hab i hi hi2 hi3
          rcases List.mem_cons.1 hi with rfl | hi
          · have := htail.other i hnc
            simp only [at1, if_true] at this
            rw [this.1, stop_iff] at hi3
            exact ⟨hi3, by rw [this.2]; exact hkeep.2.2.2.2 hi3⟩
          · have hic : i ≠ c := fun h => hnc (h ▸ hi)
            have := htail.fresh hab i hi (by simp only [at1, if_neg hic, hkeep.1]; exact hi2) hi3
            exact ⟨this.1, by rw [this.2]; exact hkeep.2.2.2.1 i hic⟩
        · intro hab hall
          have h1 := htail.all hab hall
          have h2 : (w1.allScale && w1.allCentr) = true := by
            have := h1.1
            simp only [hkeep.2.1, hkeep.2.2.1] at this
            exact this
          rw [ka] at h2
          refine ⟨h2.1, ?_⟩
          intro i hi
          rcases List.mem_cons.1 hi with rfl | hi
          · rw [(htail.other i hnc).1]
            simp only [at1, if_true]
            exact (stop_iff s _).2 h2.2
          · exact h1.2 i hi

/-- What any run of the loop over the columns has. -/
structure CwRight {S : Type} (s : Setts K) (td : TdCw S K) (cols : Nat) (st : Nat → Stat K) (x : S) (r : Res S (Nat → Stat K)) : Prop where
  clean : ∀ c, (r.stat c).Clean
  accum : ∀ c v, stepFn (r.stat c) v = replay (r.sent.map fun a => a c) (stepFn (st c) v)
  chain : Chain td.fixTrain r.sent x r.state
  accept : r.ok = true → ∀ c < cols, Acceptable s (td.meas r.state c)

theorem stepFn_init (v : K) : stepFn .init v = v := by simp [stepFn, Stat.init]

theorem cwLoop_right {S : Type} (s : Setts K) (td : TdCw S K) (cols : Nat) (Good : S → Prop)
    (hfix : ∀ st x x1, Good x → td.fixTrain st x x1 → Good x1 ∧ ∀ c < cols, st c = .init → td.meas x1 c = td.meas x c) :
    ∀ (n : Nat) (st : Nat → Stat K) (ok : Nat → Bool) (x : S) (r : Res S (Nat → Stat K)), (∀ c, (st c).Clean) → Good x →
    (∀ c < cols, ok c = true → Acceptable s (td.meas x c)) → cwLoop s td cols n st ok x r → CwRight s td cols st x r := by
  intro n
  induction n with
  | zero =>
    intro st ok x r hc _ _ h
    have h : r = ⟨false, st, x, []⟩ := h
    subst h
    exact ⟨hc, fun _ _ => rfl, rfl, fun h => by cases h⟩
  | succ n ih =>
    intro st ok x r hc hg hok h
    unfold cwLoop at h
    dsimp only at h
    have hr := cwCols_right s (td.meas x) (List.range cols) ⟨st, fun _ => .init, ok, true, true⟩ List.nodup_range
    generalize cwCols s (td.meas x) (List.range cols) ⟨st, fun _ => .init, ok, true, true⟩ = p at h hr
    obtain ⟨x1, hx, h⟩ := h
    have hcl : ∀ c, (p.1.stats c).Clean ∧ (p.1.iter c).Clean := hr.clean (fun c => ⟨hc c, Stat.init_clean⟩)
    have hacc : ∀ c v, stepFn (p.1.stats c) v = stepFn (p.1.iter c) (stepFn (st c) v) :=
      hr.accum (fun c => ⟨hc c, Stat.init_clean⟩) st (fun c v => by rw [stepFn_init])
    have hf := hfix _ _ _ hg hx
    by_cases hab : p.2 = true
    · rw [if_pos hab] at h
      subst h
      exact ⟨fun c => (hcl c).1, fun c v => hacc c v, ⟨x1, hx, rfl⟩, fun h => by cases h⟩
    · have hab' : p.2 = false := by simpa using hab
      rw [if_neg hab] at h
      have hinv : ∀ c < cols, p.1.ok c = true → Acceptable s (td.meas x1 c) := by
        intro c hcc hpo
        by_cases hoc : ok c = true
        · rw [hf.2 c hcc (hr.kept c hoc).2]
          exact hok c hcc hoc
        · have := hr.fresh hab' c (List.mem_range.2 hcc) (by simpa using hoc) hpo
          rw [hf.2 c hcc this.2]
          exact this.1
      by_cases hall : (p.1.allScale && p.1.allCentr) = true
      · rw [if_pos hall] at h
        subst h
        refine ⟨fun c => (hcl c).1, fun c v => hacc c v, ⟨x1, hx, rfl⟩, fun _ c hcc => hinv c hcc ?_⟩
        exact (hr.all hab' hall).2 c (List.mem_range.2 hcc)
      · rw [if_neg hall] at h
        obtain ⟨r', hr', rfl⟩ := h
        have := ih _ _ _ _ (fun c => (hcl c).1) hf.1 hinv hr'
        exact ⟨this.clean, fun c v => by rw [this.accum c v, hacc c v]; rfl, ⟨x1, hx, this.chain⟩, this.accept⟩

end Nntl.Norm
