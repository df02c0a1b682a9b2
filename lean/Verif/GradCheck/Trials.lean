import Verif.GradCheck.Back
import Verif.Utils.HolderProps

/-! The trials that the check makes: lemmas. -/
namespace Nntl.GradCheck

open Nntl.Utils

variable {R S G : Type}

/-- What the model of a network is expected to satisfy: indices of layers inside and outside of packs differ, only the input layer has index 0, `random_shuffle` permutes. -/
structure Net.Ok (N : Net R S G) : Prop where
  wf : N.root.Wf
  pos : ∀ i ∈ N.root.visits, i.idx ≠ 0
  perm : ∀ g l, (N.shuffle g l).1.Perm l

/-- The state between two trials. -/
structure Good (c : Setts R) (m : Mem R S) (rows M bs : Nat) (f : F R S G) : Prop where
  blocked : f.blocked = true
  mem : f.st.mem = m
  changed : f.st.insp.changed = none
  stack : f.st.insp.stack = []
  step : f.st.insp.step = c.step
  inert : f.st.insp.toCheck = 0 ∨ f.st.insp.phase = .analytical
  hold : Dh.Inv rows M true f.hold
  cur : f.hold.curB = bs

/-- A batch after `nextBatch`. -/
theorem next_shown {rows M : Nat} {s : Dh.St} (h : Dh.Inv rows M true s) {sh : List Nat → List Nat} (hsh : ∀ l, (sh l).Perm l) :
    ∃ s', s.nextBatch sh = .ok s' ∧ Dh.Inv rows M true s' ∧ s'.curB = s.curB ∧ s'.shownX.length = s.curB ∧ s'.shownX.Nodup ∧ (∀ r ∈ s'.shownX, r < rows) ∧ s'.shownY = s'.shownX := by
  obtain ⟨s', e', h', hc, hf, hx⟩ := Dh.next_inv h hsh
  refine ⟨s', e', h', hc, ?_⟩
  by_cases hfull : s.full = true
  · have hf' : s'.full = true := by rw [hf, hfull]
    have hcur := h.cur
    rw [if_pos hfull] at hcur
    unfold Dh.St.shownX Dh.St.shownY
    rw [if_pos hf', if_pos hf', h'.rows, hcur]
    exact ⟨List.length_range, List.nodup_range, fun r hr => List.mem_range.1 hr, rfl⟩
  · have hfull : s.full = false := by simpa using hfull
    obtain ⟨hl, -⟩ := hx hfull
    have hf' : ¬ s'.full = true := by rw [hf, hfull]; simp
    have hcur := h.cur
    rw [hfull] at hcur
    simp only [Bool.false_eq_true, if_false] at hcur
    have hne : s'.batchX ≠ [] := by
      intro hn
      rw [hn] at hl
      simp at hl
      omega
    unfold Dh.St.shownX Dh.St.shownY
    rw [if_neg hf', if_neg hf']
    rcases h'.shown with hn | ⟨-, hnd, hlt⟩
    · exact absurd hn hne
    rcases h'.pair with hn | hp
    · exact absurd hn hne
    exact ⟨hl, hnd, hlt, hp rfl⟩

/-- A loss calculated by the check. -/
theorem calcLoss_eq (N : Net R S G) (hN : N.Ok) (c : Setts R) (sd : Nat) (f : F R S G) (hb : f.blocked = true) (h0 : f.st.insp.toCheck ≠ 0) (hch : f.st.insp.changed = none)
    (hst : f.st.insp.stack = []) :
    ∃ rb og, N.calcLoss c sd f =
      (N.A.add (N.loss (N.root.eval N.A (N.masks (N.reseed c sd f.rng)).1 (effA N.A f.st.insp) (effW N.A f.st.insp f.st.mem.w) (N.x f.hold.shownX)).1 (N.y f.hold.shownY))
        (N.addend f.st.mem.w (N.root.eval N.A (N.masks (N.reseed c sd f.rng)).1 (effA N.A f.st.insp) (effW N.A f.st.insp f.st.mem.w) (N.x f.hold.shownX)).2),
       { f with st := ⟨{ f.st.insp with realBs := rb, orig := og }, f.st.mem⟩, rng := (N.masks (N.reseed c sd f.rng)).2 }) ∧
      After f.st.insp (N.root.uses N.A (N.masks (N.reseed c sd f.rng)).1 (effW N.A f.st.insp f.st.mem.w) f.st.insp.toCheck (N.x f.hold.shownX)) rb := by
  obtain ⟨rb, og, he, hr⟩ := fprop_eq (N.env f) hb (N.masks (N.reseed c sd f.rng)).1 N.root (N.x f.hold.shownX) f.st.insp f.st.mem hN.wf h0 hch
    (fun k _ => by rw [hst]; simp)
  refine ⟨rb, og, ?_, hr⟩
  unfold Net.calcLoss
  simp only
  rw [he]
  rfl

/-- The third phase. -/
theorem analytic_eq (N : Net R S G) (hN : N.Ok) (c : Setts R) (sd : Nat) (f : F R S G) (hb : f.blocked = true) (h0 : f.st.insp.toCheck ≠ 0) (hch : f.st.insp.changed = none)
    (hst : f.st.insp.stack = []) (hph : f.st.insp.phase = .analytical) :
    ∃ an rb og rng, N.analytic c sd f = { f with st := ⟨{ f.st.insp with an := an, realBs := rb, orig := og }, f.st.mem⟩, rng := rng } ∧
      Rec f.st.insp (N.root.gradA (N.masks (N.reseed c sd f.rng)).1 f.st.mem.w f.st.insp.toCheck true (N.x f.hold.shownX) (N.y f.hold.shownY))
        (N.root.gradW (N.masks (N.reseed c sd f.rng)).1 f.st.mem.w f.st.insp.toCheck (N.x f.hold.shownX) (N.y f.hold.shownY)) an := by
  obtain ⟨rb, og, he, -⟩ := fprop_eq (N.env f) hb (N.masks (N.reseed c sd f.rng)).1 N.root (N.x f.hold.shownX) f.st.insp f.st.mem hN.wf h0 hch
    (fun k _ => by rw [hst]; simp)
  obtain ⟨an, rb2, he2, hr2⟩ := bprop_eq (N.env f) hb (N.masks (N.reseed c sd f.rng)).1 N.root true (N.x f.hold.shownX) (N.y f.hold.shownY)
    { f.st.insp with realBs := rb, orig := og } f.st.mem hN.wf h0 ⟨fun _ k _ => by show f.st.insp.stack.head? ≠ _; rw [hst]; simp, fun h => absurd h (by simp)⟩
  refine ⟨an, rb2, og, N.rngB (N.reseed c sd (N.masks (N.reseed c sd f.rng)).2), ?_, hr2⟩
  unfold Net.analytic
  simp only
  have : f.st = ⟨f.st.insp, f.st.mem⟩ := rfl
  rw [this, he, he2]

/-- The outcome of a comparison in the count of zeros. -/
def tally (c : Setts R) (g : Group) (l maxZero zeros : Nat) (v : Verdict) : Nat × Bool :=
  match v with
  | .zero => (zeros + 1, !(decide (g = .dLdW) && decide (l = 1) && c.ignoreZero1) && decide (maxZero < zeros + 1))
  | .ok => (zeros, false)
  | .warn => (zeros, false)
  | .fail => (zeros, true)

theorem checkErr_eq (A : Arith R) (c : Setts R) (g : Group) (l : Nat) (an num : R) (mz z : Nat) : checkErr A c g l an num mz z = tally c g l mz z (compare A (c.limits g) an num) := by
  unfold checkErr tally Setts.limits
  cases g <;> rfl

theorem shift_minus (A : Arith R) (i : Insp R) (h : i.phase = .minus) : i.shift A = A.neg i.step := by
  unfold Insp.shift
  rw [h]
  rfl

theorem shift_plus (A : Arith R) (i : Insp R) (h : i.phase = .plus) : i.shift A = i.step := by
  unfold Insp.shift
  rw [h]
  rfl

/-- The loss in a numeric phase. -/
theorem trial_loss (N : Net R S G) (i : Insp R) (w : Nat → Mat R) (t : Trial R) (om : Nat → Mat R) (d : R) (hg : i.group = t.g) (hl : i.toCheck = t.l) (hc : i.coord = t.co)
    (hp : i.phase ≠ .analytical) (hd : i.shift N.A = d) :
    N.A.add (N.loss (N.root.eval N.A om (effA N.A i) (effW N.A i w) (N.x t.rows)).1 (N.y t.rows)) (N.addend w (N.root.eval N.A om (effA N.A i) (effW N.A i w) (N.x t.rows)).2) =
      t.loss N w om d := by
  unfold Trial.loss effA effW
  rw [hg, hl, hc, hd]
  cases t.g with
  | dLdA => simp [hp]
  | dLdW => simp [hp]

end Nntl.GradCheck
