import Verif.GradCheck.Loop

/-!
What the gradient check of a network answers (C102), what it leaves behind (C103), for which data it is defined (C105). The meaning of the answer in terms of derivatives is in `Verif/GradCheck/Limit.lean` (C104).
-/
namespace Nntl.GradCheck

open Nntl.Utils

variable {R S G : Type}

/-- The data sizes for which the feeder of batches of the check works: more rows than the larger one of the two batch sizes, or both batch sizes equal to the number of rows. -/
def Fits (rows bs online : Nat) : Prop := 0 < bs ∧ 0 < online ∧ (max bs online < rows ∨ (bs = rows ∧ online = rows))

theorem fits_rows {rows bs online : Nat} (h : Fits rows bs online) : max bs online ≤ rows := by
  obtain ⟨-, -, h | ⟨h1, h2⟩⟩ := h <;> omega

/-- The call with data of fitting sizes is the check itself. -/
theorem gradcheck_run (N : Net R S G) (fresh : Nat → S) (rng0 : G) (ni no : Nat) (o : Obj R S G) (rows bs : Nat) (c : Setts R) (h : Fits rows bs c.online) :
    gradcheck N fresh rng0 ni no o rows ni rows no bs c =
      match N.perform c rows bs ((o.init fresh rng0 (max bs c.online)).start c.step) with
      | none => none
      | some (ok, f) => some (ok, (o.init fresh rng0 (max bs c.online)).finish f) := by
  have hr := fits_rows h
  unfold gradcheck
  rw [if_neg (by have := h.1; omega)]
  simp only
  rw [if_neg (by simp; omega)]
  rfl

theorem init_same (fresh : Nat → S) (rng0 : G) (o : Obj R S G) (big : Nat) : (o.init fresh rng0 big).st.mem.w = o.st.mem.w ∧ (o.init fresh rng0 big).st.insp = o.st.insp ∧ (o.init fresh rng0 big).full = o.full := by
  unfold Obj.init
  split <;> exact ⟨rfl, rfl, rfl⟩

/-- C102. For data of fitting sizes, the check of any network, from any state, with any settings and any random numbers, comes to an end without undefined behaviour. If it answers `true` then of every
layer that is not to be ignored the numbers of activations and weights that the settings require have been tried, different ones, on different rows of the data, none of the trials has failed, and the zeros are within the limit. If it
answers `false` then a layer has failed. The numbers of trials must be in the range of `int`. -/
theorem gradcheck_verdict (N : Net R S G) (hN : N.Ok) (fresh : Nat → S) (rng0 : G) (ni no : Nat) (o : Obj R S G) (rows bs : Nat) (c : Setts R) (hv : c.group.Valid) (hvs : c.sub.Valid)
    (hov : ∀ i ∈ N.root.visits, i.idx ∉ c.ignore → NoOverflow c i) (h : Fits rows bs c.online) (hst : o.st.insp.stack = []) :
    ∃ ok o', gradcheck N fresh rng0 ni no o rows ni rows no bs c = some (ok, o') ∧
      (ok = true → ∀ i ∈ N.root.visits, (c.Checks N .dLdA i → Accepted N c o.st.mem.w rows c.online .dLdA i) ∧ (c.Checks N .dLdW i → Accepted N c o.st.mem.w rows bs .dLdW i)) ∧
      (ok = false → ∃ i ∈ N.root.visits, (c.Checks N .dLdA i ∧ Rejected N c o.st.mem.w rows c.online .dLdA i) ∨ (c.Checks N .dLdW i ∧ Rejected N c o.st.mem.w rows bs .dLdW i)) := by
  rw [gradcheck_run N fresh rng0 ni no o rows bs c h]
  obtain ⟨hw, hi, -⟩ := init_same fresh rng0 o (max bs c.online)
  obtain ⟨ok, f', he, -, -, -, -, hp, hb⟩ := perform_eq N hN c hv hvs (o.init fresh rng0 (max bs c.online)).st.mem rows bs hov h.1 h.2.1 h.2.2 ((o.init fresh rng0 (max bs c.online)).start c.step) (fun _ => rfl) (fun _ => rfl)
    (fun _ => by show (o.init fresh rng0 (max bs c.online)).st.insp.stack = []; rw [hi, hst]) (fun _ => rfl) (fun _ => rfl)
  rw [he]
  rw [hw] at hp hb
  refine ⟨ok, _, rfl, fun hk i him => ⟨(hp hk).1 i him, (hp hk).2 i him⟩, fun hk => ?_⟩
  rcases hb hk with ⟨i, him, hr⟩ | ⟨i, him, hr⟩
  · exact ⟨i, him, Or.inl hr⟩
  · exact ⟨i, him, Or.inr hr⟩

/-- C102. Data of other sizes are refused: the answer is `false`, and nothing is done. -/
theorem gradcheck_refuses (N : Net R S G) (fresh : Nat → S) (rng0 : G) (ni no : Nat) (o : Obj R S G) (rowsX colsX rowsY colsY bs : Nat) (c : Setts R)
    (h : bs = 0 ∨ colsX ≠ ni ∨ colsY ≠ no ∨ rowsX ≠ rowsY ∨ rowsX < bs ∨ rowsX < c.online) : gradcheck N fresh rng0 ni no o rowsX colsX rowsY colsY bs c = some (false, o) := by
  unfold gradcheck
  by_cases h0 : bs = 0
  · rw [if_pos h0]
  · rw [if_neg h0]
    simp only
    rw [if_pos]
    simp only [Bool.or_eq_true, Bool.not_eq_true', Bool.and_eq_false_iff, decide_eq_false_iff_not]
    omega

/-! ### What is left behind -/

/-- An inspector that does not interfere. -/
def Insp.Quiet (i : Insp R) : Prop := i.toCheck = 0 ∨ i.phase = .analytical

theorem quiet_push {i : Insp R} (h : i.Quiet) (l : Nat) : (i.push l).Quiet := by
  unfold Insp.push
  split
  · exact h
  · rcases h with h | h
    · exact Or.inl h
    · exact Or.inr h

theorem quiet_pop {i : Insp R} (h : i.Quiet) : i.pop.Quiet := by
  unfold Insp.pop
  split
  · exact h
  · rcases h with h | h
    · exact Or.inl h
    · exact Or.inr h

theorem quiet_no {i : Insp R} (h : i.Quiet) (g : Group) : (i.here && decide (i.group = g) && decide (i.phase ≠ .analytical)) = false := by
  rcases h with h | h
  · simp [Insp.here, h]
  · simp [h]

theorem quiet_makePre {s : St R S} (h : s.insp.Quiet) (A : Arith R) (l rows : Nat) : s.makePre A l rows = s := by
  unfold St.makePre
  rw [quiet_no h]
  rfl

theorem quiet_preAct {s : St R S} (h : s.insp.Quiet) : s.preAct = s := by
  unfold St.preAct
  rw [quiet_no h]
  rfl

theorem quiet_acts {s : St R S} (h : s.insp.Quiet) (A : Arith R) (a : Acts R) : s.acts A a = (a, s) := by
  unfold St.acts
  rw [quiet_no h]
  rfl

theorem quiet_finaldLdA {s : St R S} (h : s.insp.Quiet) (d : Acts R) : (s.finaldLdA d).insp.Quiet ∧ (s.finaldLdA d).mem = s.mem := by
  unfold St.finaldLdA
  split
  · rcases h with h | h
    · exact ⟨Or.inl h, rfl⟩
    · exact ⟨Or.inr h, rfl⟩
  · exact ⟨h, rfl⟩

theorem quiet_dLdW {s : St R S} (h : s.insp.Quiet) (rows : Nat) (g : Mat R) : (s.dLdW rows g).insp.Quiet ∧ (s.dLdW rows g).mem = s.mem := by
  unfold St.dLdW
  split
  · rcases h with h | h
    · exact ⟨Or.inl h, rfl⟩
    · exact ⟨Or.inr h, rfl⟩
  · exact ⟨h, rfl⟩

theorem doPre_insp (E : Env R S) (l : Nat) (s : St R S) : (E.doPre l s).insp = s.insp := by
  unfold Env.doPre
  split <;> rfl

theorem doApp_insp (E : Env R S) (l : Nat) (g : Mat R) (s : St R S) : (E.doApp l g s).insp = s.insp := by
  unfold Env.doApp
  split <;> rfl

theorem doPre_mem (E : Env R S) (l : Nat) {s s' : St R S} (h : s.mem = s'.mem) : (E.doPre l s).mem = (E.doPre l s').mem := by
  unfold Env.doPre
  split
  · simp only [h]
  · exact h

theorem doApp_mem (E : Env R S) (l : Nat) (g : Mat R) {s s' : St R S} (h : s.mem = s'.mem) : (E.doApp l g s).mem = (E.doApp l g s').mem := by
  unfold Env.doApp
  split
  · simp only [h]
  · exact h

/-- States that differ in what a quiet inspector remembers. -/
def Twin (s s' : St R S) : Prop := s.insp.Quiet ∧ s'.insp.Quiet ∧ s.mem = s'.mem

theorem Twin.begin {s s' : St R S} (h : Twin s s') (l : Nat) : Twin (s.begin l) (s'.begin l) := ⟨quiet_push h.1 l, quiet_push h.2.1 l, h.2.2⟩
theorem Twin.finish {s s' : St R S} (h : Twin s s') : Twin s.finish s'.finish := ⟨quiet_pop h.1, quiet_pop h.2.1, h.2.2⟩
theorem Twin.doPre {s s' : St R S} (h : Twin s s') (E : Env R S) (l : Nat) : Twin (E.doPre l s) (E.doPre l s') :=
  ⟨by rw [doPre_insp]; exact h.1, by rw [doPre_insp]; exact h.2.1, doPre_mem E l h.2.2⟩
theorem Twin.doApp {s s' : St R S} (h : Twin s s') (E : Env R S) (l : Nat) (g : Mat R) : Twin (E.doApp l g s) (E.doApp l g s') :=
  ⟨by rw [doApp_insp]; exact h.1, by rw [doApp_insp]; exact h.2.1, doApp_mem E l g h.2.2⟩
theorem Twin.finaldLdA {s s' : St R S} (h : Twin s s') (d : Acts R) : Twin (s.finaldLdA d) (s'.finaldLdA d) :=
  ⟨(quiet_finaldLdA h.1 d).1, (quiet_finaldLdA h.2.1 d).1, by rw [(quiet_finaldLdA h.1 d).2, (quiet_finaldLdA h.2.1 d).2, h.2.2]⟩
theorem Twin.dLdW {s s' : St R S} (h : Twin s s') (rows : Nat) (g : Mat R) : Twin (s.dLdW rows g) (s'.dLdW rows g) :=
  ⟨(quiet_dLdW h.1 rows g).1, (quiet_dLdW h.2.1 rows g).1, by rw [(quiet_dLdW h.1 rows g).2, (quiet_dLdW h.2.1 rows g).2, h.2.2]⟩

theorem fprop_twin (E : Env R S) (om : Nat → Mat R) : ∀ (n : Node R) (x : Acts R) (s s' : St R S), Twin s s' →
    (n.fprop E om x s).1 = (n.fprop E om x s').1 ∧ (n.fprop E om x s).2.1 = (n.fprop E om x s').2.1 ∧ Twin (n.fprop E om x s).2.2 (n.fprop E om x s').2.2
  | .fc idx _ _ _ _ pre act _ _ _, x, s, s', h => by
    have h1 := (h.begin idx).doPre E idx
    unfold Node.fprop
    simp only
    rw [quiet_makePre h1.1, quiet_makePre h1.2.1, quiet_preAct h1.1, quiet_preAct h1.2.1, quiet_acts h1.1, quiet_acts h1.2.1, h1.2.2]
    exact ⟨rfl, trivial, h1.finish⟩
  | .plain idx _ f _, x, s, s', h => by
    have h1 := h.begin idx
    unfold Node.fprop
    simp only
    rw [quiet_acts h1.1, quiet_acts h1.2.1]
    exact ⟨rfl, trivial, h1.finish⟩
  | .ext idx post pen _ a, x, s, s', h => by
    obtain ⟨h1, h2, h3⟩ := fprop_twin E om a x s s' h
    unfold Node.fprop
    simp only
    rw [h1, h2]
    exact ⟨rfl, rfl, h3⟩
  | .seq l u, x, s, s', h => by
    obtain ⟨h1, h2, h3⟩ := fprop_twin E om l x s s' h
    unfold Node.fprop
    simp only
    rw [h1, h2]
    obtain ⟨k1, k2, k3⟩ := fprop_twin E om u (l.fprop E om x s').1 _ _ h3
    rw [k1, k2]
    exact ⟨rfl, rfl, k3⟩
  | .par f g mix _ _ _ a b, x, s, s', h => by
    obtain ⟨h1, h2, h3⟩ := fprop_twin E om a (f x) s s' h
    unfold Node.fprop
    simp only
    rw [h1, h2]
    obtain ⟨k1, k2, k3⟩ := fprop_twin E om b (g x) _ _ h3
    rw [k1, k2]
    exact ⟨rfl, rfl, k3⟩
  | .map f g _ _ a, x, s, s', h => by
    obtain ⟨h1, h2, h3⟩ := fprop_twin E om a (f x) s s' h
    unfold Node.fprop
    simp only
    rw [h1]
    exact ⟨rfl, h2, h3⟩
  | .gate run dflt _ a, x, s, s', h => by
    unfold Node.fprop
    split
    · exact fprop_twin E om a x s s' h
    · exact ⟨rfl, rfl, h⟩
  | .pack idx _ a, x, s, s', h => by
    obtain ⟨h1, h2, h3⟩ := fprop_twin E om a x _ _ (h.begin idx)
    unfold Node.fprop
    simp only
    rw [quiet_acts h3.1, quiet_acts h3.2.1]
    exact ⟨h1, h2, h3.finish⟩

theorem bprop_twin (E : Env R S) (om : Nat → Mat R) : ∀ (n : Node R) (x d : Acts R) (s s' : St R S), Twin s s' →
    (n.bprop E om x d s).1 = (n.bprop E om x d s').1 ∧ Twin (n.bprop E om x d s).2 (n.bprop E om x d s').2
  | .fc idx _ _ out upd pre act dz prev dw, x, d, s, s', h => by
    have h1 := h.begin idx
    have h2 : Twin (if out then s.begin idx else (s.begin idx).finaldLdA d) (if out then s'.begin idx else (s'.begin idx).finaldLdA d) := by
      split
      · exact h1
      · exact h1.finaldLdA d
    unfold Node.bprop
    simp only
    generalize (if out then s.begin idx else (s.begin idx).finaldLdA d) = a at *
    generalize (if out then s'.begin idx else (s'.begin idx).finaldLdA d) = b at *
    rw [h2.2.2]
    refine ⟨rfl, ?_⟩
    cases upd with
    | true => exact ((h2.dLdW _ _).doApp E idx _).finish
    | false => exact h2.finish
  | .plain idx _ _ b, x, d, s, s', h => ⟨rfl, ((h.begin idx).finaldLdA d).finish⟩
  | .ext idx _ _ back a, x, d, s, s', h => by
    unfold Node.bprop
    simp only
    rw [h.2.2]
    obtain ⟨h1, h2⟩ := bprop_twin E om a x (back (om idx) (a.keep om s'.mem.w x) d) _ _ ((h.begin idx).finaldLdA (back (om idx) (a.keep om s'.mem.w x) d))
    exact ⟨h1, h2.finish⟩
  | .seq l u, x, d, s, s', h => by
    unfold Node.bprop
    simp only
    rw [h.2.2]
    obtain ⟨h1, h2⟩ := bprop_twin E om u (l.keep om s'.mem.w x) d s s' h
    rw [h1]
    exact bprop_twin E om l x _ _ _ h2
  | .par f g _ fb gb sum a b, x, d, s, s', h => by
    unfold Node.bprop
    simp only
    obtain ⟨h1, h2⟩ := bprop_twin E om a (f x) (fb d) s s' h
    obtain ⟨k1, k2⟩ := bprop_twin E om b (g x) (gb d) _ _ h2
    rw [h1, k1]
    exact ⟨rfl, k2⟩
  | .map f _ gb fb a, x, d, s, s', h => by
    unfold Node.bprop
    simp only
    obtain ⟨h1, h2⟩ := bprop_twin E om a (f x) (gb d) s s' h
    rw [h1]
    exact ⟨rfl, h2⟩
  | .gate run _ bdflt a, x, d, s, s', h => by
    unfold Node.bprop
    split
    · exact bprop_twin E om a x d s s' h
    · exact ⟨rfl, h⟩
  | .pack idx _ a, x, d, s, s', h => by
    unfold Node.bprop
    simp only
    obtain ⟨h1, h2⟩ := bprop_twin E om a x d _ _ ((h.begin idx).finaldLdA d)
    exact ⟨h1, h2.finish⟩

/-- A training step or an evaluation: a forward pass and a backward pass of the network in a given environment, from data `x`, `y`: activations, penalties, `dL/dA` of the input, weights and states of optimisers. -/
def pass (E : Env R S) (om : Nat → Mat R) (n : Node R) (x y : Acts R) (s : St R S) : Acts R × List R × Acts R × St R S :=
  let r := n.fprop E om x s
  let q := n.bprop E om x y r.2.2
  (r.1, r.2.1, q.1, q.2)

/-- Any number of passes: what they calculate, and the weights and states of optimisers at the end. -/
def passes (n : Node R) : List (Env R S × (Nat → Mat R) × Acts R × Acts R) → St R S → List (Acts R × List R × Acts R) × Mem R S
  | [], s => ([], s.mem)
  | p :: ps, s =>
    let r := pass p.1 p.2.1 n p.2.2.1 p.2.2.2 s
    let q := passes n ps r.2.2.2
    ((r.1, r.2.1, r.2.2.1) :: q.1, q.2)

theorem passes_twin (n : Node R) : ∀ (ps : List (Env R S × (Nat → Mat R) × Acts R × Acts R)) (s s' : St R S), Twin s s' → passes n ps s = passes n ps s'
  | [], s, s', h => by
    show (([], s.mem) : List (Acts R × List R × Acts R) × Mem R S) = ([], s'.mem)
    rw [h.2.2]
  | p :: ps, s, s', h => by
    obtain ⟨h1, h2, h3⟩ := fprop_twin p.1 p.2.1 n p.2.2.1 s s' h
    obtain ⟨k1, k2⟩ := bprop_twin p.1 p.2.1 n p.2.2.1 p.2.2.2 _ _ h3
    have := passes_twin n ps _ _ k2
    unfold passes pass
    simp only
    rw [h1, h2, k1, this]

/-- The network is initialised for the batches of the check, and is not required to be initialised again. -/
def Obj.Ready (o : Obj R S G) (big : Nat) : Prop := o.reinit = false ∧ 0 < o.maxF ∧ big ≤ o.maxF ∧ big ≤ o.maxB

/-- C103. If the network is initialised for batches of the sizes of the check, the check changes nothing, whatever its answer: weights and the states of optimisers, the mode, the batch sizes and the flags are as before, learning is not blocked,
and any training and evaluation that follows calculates what it would have calculated without the check. -/
theorem gradcheck_changes_nothing_partial (N : Net R S G) (hN : N.Ok) (fresh : Nat → S) (rng0 : G) (ni no : Nat) (o : Obj R S G) (rows bs : Nat) (c : Setts R) (hv : c.group.Valid) (hvs : c.sub.Valid)
    (hov : ∀ i ∈ N.root.visits, i.idx ∉ c.ignore → NoOverflow c i) (h : Fits rows bs c.online) (hst : o.st.insp.stack = []) (hr : o.Ready (max bs c.online)) :
    ∃ ok o', gradcheck N fresh rng0 ni no o rows ni rows no bs c = some (ok, o') ∧ o'.st.mem = o.st.mem ∧ o'.maxF = o.maxF ∧ o'.maxB = o.maxB ∧ o'.cur = o.cur ∧ o'.training = o.training ∧ o'.full = o.full ∧
      o'.blocked = false ∧ o'.reinit = false ∧ o'.st.insp.stack = [] ∧ (o.st.insp.Quiet → ∀ ps, passes N.root ps o'.st = passes N.root ps o.st) := by
  rw [gradcheck_run N fresh rng0 ni no o rows bs c h]
  have hi : o.init fresh rng0 (max bs c.online) = o := by
    unfold Obj.init
    obtain ⟨h1, h2, h3, h4⟩ := hr
    rw [if_pos]
    simp only [h1, Bool.not_false, Bool.true_and, Bool.and_eq_true, decide_eq_true_eq]
    exact ⟨⟨h2, h3⟩, h4⟩
  rw [hi]
  obtain ⟨ok, f', he, -, hm, hs, hq, -, -⟩ := perform_eq N hN c hv hvs o.st.mem rows bs hov h.1 h.2.1 h.2.2 (o.start c.step) (fun _ => rfl) (fun _ => rfl) (fun _ => hst) (fun _ => rfl) (fun _ => rfl)
  rw [he]
  refine ⟨ok, _, rfl, hm, rfl, rfl, rfl, rfl, rfl, rfl, hr.1, hs, fun hq0 ps => passes_twin _ _ _ _ ⟨hq, hq0, hm⟩⟩

/-- C103. Otherwise the network is initialised again: the weights stay, but the states of the optimisers are lost, the largest batches are those of the check, and the current batch size is 0. -/
theorem gradcheck_reinitialises (N : Net R S G) (hN : N.Ok) (fresh : Nat → S) (rng0 : G) (ni no : Nat) (o : Obj R S G) (rows bs : Nat) (c : Setts R) (hv : c.group.Valid) (hvs : c.sub.Valid)
    (hov : ∀ i ∈ N.root.visits, i.idx ∉ c.ignore → NoOverflow c i) (h : Fits rows bs c.online) (hst : o.st.insp.stack = []) (hr : ¬ o.Ready (max bs c.online)) :
    ∃ ok o', gradcheck N fresh rng0 ni no o rows ni rows no bs c = some (ok, o') ∧ o'.st.mem.w = o.st.mem.w ∧ o'.st.mem.opt = fresh ∧ o'.maxF = max bs c.online ∧ o'.maxB = max bs c.online ∧ o'.cur = 0 ∧
      o'.training = false ∧ o'.blocked = false := by
  rw [gradcheck_run N fresh rng0 ni no o rows bs c h]
  have hi : o.init fresh rng0 (max bs c.online) = { o with st := { o.st with mem := { o.st.mem with opt := fresh } }, rng := rng0, maxF := max bs c.online, maxB := max bs c.online, cur := 0, training := false, reinit := false } := by
    unfold Obj.init
    rw [if_neg]
    intro hh
    simp only [Bool.and_eq_true, decide_eq_true_eq, Bool.not_eq_true'] at hh
    exact hr ⟨hh.1.1.1, hh.1.1.2, hh.1.2, hh.2⟩
  rw [hi]
  obtain ⟨ok, f', he, -, hm, hs, hq, -, -⟩ := perform_eq N hN c hv hvs ({ o.st.mem with opt := fresh } : Mem R S) rows bs hov h.1 h.2.1 h.2.2
    (({ o with st := { o.st with mem := { o.st.mem with opt := fresh } }, rng := rng0, maxF := max bs c.online, maxB := max bs c.online, cur := 0, training := false, reinit := false } : Obj R S G).start c.step)
    (fun _ => rfl) (fun _ => rfl) (fun _ => hst) (fun _ => rfl) (fun _ => rfl)
  rw [he]
  refine ⟨ok, _, rfl, ?_, ?_, rfl, rfl, rfl, rfl, rfl⟩
  · show f'.st.mem.w = _
    rw [hm]
  · show f'.st.mem.opt = _
    rw [hm]

/-! ### Undefined behaviour -/

/-- C105. For data of fitting sizes (`Fits`) and numbers of trials in the range of `int` the check is defined. Missing for the full property: the sizes in `gradcheck_full_batch_undefined`, and the numbers in `checkA_overflow`. -/
theorem gradcheck_defined_partial (N : Net R S G) (hN : N.Ok) (fresh : Nat → S) (rng0 : G) (ni no : Nat) (o : Obj R S G) (rows bs : Nat) (c : Setts R) (hv : c.group.Valid) (hvs : c.sub.Valid)
    (hov : ∀ i ∈ N.root.visits, i.idx ∉ c.ignore → NoOverflow c i) (h : Fits rows bs c.online) (hst : o.st.insp.stack = []) : gradcheck N fresh rng0 ni no o rows ni rows no bs c ≠ none := by
  obtain ⟨ok, o', he, -⟩ := gradcheck_verdict N hN fresh rng0 ni no o rows bs c hv hvs hov h hst
  rw [he]
  simp

/-- The settings can only be set to valid numbers. -/
theorem counts_valid (ptc perc : Nat) : (Count.ofTotal ptc).Valid ∧ (Count.ofPercent ptc perc).Valid := by
  unfold Count.ofTotal Count.ofPercent Count.Valid
  constructor
  · show 0 < _
    split <;> omega
  · show 0 < _ ∧ _ ≤ 100
    constructor <;> split <;> omega

/-- C102. How many of `n` elements are tried: all of them or the given number if they are more; or the given share of them (in percent, rounded down), but no less than the given number and, if there are
fewer, all of them. At least one is tried. -/
theorem amount_checked (n ptc perc : Nat) :
    (∃ k, (Count.totalMin ptc).toCheck n = some k ∧ k ≤ n ∧ k ≤ ptc ∧ (k = n ∨ k = ptc)) ∧
    (n * perc < 2 ^ 31 → perc ≤ 100 → ∃ k, (Count.percentOrMin ptc perc).toCheck n = some k ∧ k ≤ n ∧ n * perc < 100 * (k + 1) ∧ (ptc ≤ k ∨ k = n) ∧
      (k = ptc ∨ k = n ∨ 100 * k ≤ n * perc)) ∧
    (∀ (c : Count) (k : Nat), c.Valid → 0 < n → c.toCheck n = some k → 0 < k) := by
  refine ⟨⟨min n ptc, rfl, by omega, by omega, by omega⟩, fun h hp => ⟨max (n * perc / 100) (min n ptc), ?_, ?_, ?_, ?_, ?_⟩, fun c k hv hn hk => ?_⟩
  · show (if n * perc < 2 ^ 31 then some (n * perc) else none).map (fun x => max (x / 100) (min n ptc)) = _
    rw [if_pos h]
    rfl
  · have : n * perc / 100 ≤ n := by
      have := Nat.mul_le_mul_left n hp
      omega
    omega
  · have := Nat.div_add_mod (n * perc) 100
    have := Nat.mod_lt (n * perc) (show 0 < 100 by omega)
    omega
  · have : n * perc / 100 ≤ n := by
      have := Nat.mul_le_mul_left n hp
      omega
    omega
  · have := Nat.div_mul_le_self (n * perc) 100
    omega
  · cases c with
    | totalMin p =>
      cases hk
      have : 0 < p := hv
      omega
    | percentOrMin p q =>
      have hv : 0 < p ∧ q ≤ 100 := hv
      replace hk : (if n * q < 2 ^ 31 then some (n * q) else none).map (fun x => max (x / 100) (min n p)) = some k := hk
      split at hk
      · cases hk
        show 0 < max (n * q / 100) (min n p)
        omega
      · cases hk

/-- C105. The product of the number of neurons and the percentage overflows for large layers. -/
theorem checkA_overflow (N : Net R S G) (c : Setts R) (i : Info) (f : F R S G) (ptc perc : Nat) (hc : c.group = .percentOrMin ptc perc) (h : 2 ^ 31 ≤ i.n * perc) : N.checkA c i f = none ∧ N.checkW c i f = none := by
  have : c.group.toCheck i.n = none := by
    rw [hc]
    show (if i.n * perc < 2 ^ 31 then some (i.n * perc) else none).map (fun x => max (x / 100) (min i.n ptc)) = none
    rw [if_neg (by omega)]
    rfl
  unfold Net.checkA Net.checkW
  rw [this]
  exact ⟨rfl, rfl⟩

/-- C105. The sizes are accepted, but the behaviour is undefined, if the batch has all the rows of the data and the batch size of the check of activations is another one (it is 1 by default). -/
theorem gradcheck_full_batch_undefined (N : Net R S G) (fresh : Nat → S) (rng0 : G) (ni no : Nat) (o : Obj R S G) (rows : Nat) (c : Setts R) (h0 : 0 < rows) (hc : c.online < rows) :
    gradcheck N fresh rng0 ni no o rows ni rows no rows c = none := by
  have hmax : max rows c.online = rows := by omega
  have hp : ∀ init : Dh.St → F R S G, (∀ s, (init s).hold = s) → N.perform c rows rows init = none := by
    intro init hi
    unfold Net.perform
    simp only
    rw [hmax, if_pos rfl]
    have hin : Dh.St.init rows true 0 = .ok ⟨rows, true, 0, rows, true, List.range rows, rows, [], []⟩ := by
      unfold Dh.St.init
      simp [Dh.St.prepare]
    rw [hin]
    simp only
    have hl : ∀ s : Dh.St, s.rows = rows → s.maxB = 0 → s.prepare c.online = .ub := by
      intro s h1 h2
      unfold Dh.St.prepare
      rw [h1, h2, if_neg (by omega), if_pos (by omega)]
    unfold Net.launch
    rw [hi, hl _ rfl rfl]
    rfl
  unfold gradcheck
  rw [if_neg (by omega)]
  simp only
  rw [if_neg (by simp; omega), hp _ (fun _ => rfl)]

end Nntl.GradCheck
