import Verif.Dumper.Passes
import Verif.Dumper.Names
/-! What the calls of a training do. -/
namespace Nntl.Dumper
open Nntl.MatFile

theorem openArch_at (E : Env) (hE : ∀ k, E.ok k = true) (t : ToDump) (s : St) (hc : Closed s.arch) (hd : s.dir ≠ []) (n : List Char) (hn : fileName s.dir s.epoch s.batch t = n)
    (hl : n.length + 1 ≤ maxFileName) :
    ∃ a, s.openArch E t = .ok { s with arch := a, disk := onDisk s.disk n (some []), cur := n } ∧ At ([] ++ [[]]) [] a := by
  obtain ⟨h1, h2, h3, h4⟩ := hc
  have ho : s.arch.base.open E true .updateDelete (s.disk n) =
      ({ s.arch.base with file := some [], err := .success, tick := s.arch.base.tick + 1 + 1 + 1 }, some []) := by
    simp [MatFile.St.open, h1, hE, MatFile.St.next]
  rw [St.openArch, if_neg (by simpa using hd)]
  dsimp only
  rw [hn, if_neg (by omega), ho, if_neg (by simp)]
  refine ⟨_, rfl, ⟨rfl, h2, h4, [], rfl, ?_, ?_⟩⟩
  · intro m r c fs hm
    simp [fget] at hm
  · simp [h3]

theorem closeArch_at (E : Env) (hE : ∀ k, E.ok k = true) (s : St) (f : Vars) (ha : At [f] [] s.arch) :
    ∃ a, s.closeArch E = .ok { s with arch := a, disk := onDisk s.disk s.cur (some f) } ∧ Closed a := by
  obtain ⟨h1, h2, h3, g, h4, -, h6⟩ := ha
  have hst : s.arch.base.stack = [] ∧ f = g := by
    rcases hs : s.arch.base.stack with _ | ⟨x, y⟩
    · rw [hs] at h6; simpa using h6
    · rw [hs] at h6; simp at h6
  have hcl : s.arch.close E = ({ base := { s.arch.base with file := none, cur := none, stack := [], err := .success, tick := s.arch.base.tick + 1 }, nested := [] }, .success) := by
    simp [ExSt.close, MatFile.St.close, h3, h2, hst.1, h4, hE, MatFile.St.next]
  rw [St.closeArch]
  rw [hcl, if_neg (by simp), h4]
  simp only [Option.isSome_some, if_true]
  rw [← hst.2]
  exact ⟨_, rfl, ⟨rfl, rfl, rfl, rfl⟩⟩

/-- Between the parts of a training. -/
structure Calm (w : Wish) (T L : Nat) (ok : Nat → Bool) (nm : Nat → String) (dir : List Char) (n : Option Nat) (e : Option Nat) (on : Bool) (s : St) : Prop where
  closed : Closed s.arch
  stack : s.stack = []
  cond : Ready w T n s.cond
  epoch : s.epoch = epochIdx e
  active : s.active = on
  dir : s.dir = dir
  name : ∀ l, l < L → s.names[l]? = some (nm l)
  allow : ∀ l, l < L → s.bw.cond[l]? = some (ok l)

theorem written_append (d : List Char → Option Vars) (a b : List (List Char × Vars)) : written d (a ++ b) = written (written d a) b := by
  simp [written, List.foldl_append]

theorem onDisk_twice (d : List Char → Option Vars) (n : List Char) (a b : Option Vars) : onDisk (onDisk d n a) n b = onDisk d n b := by
  funext m
  simp only [onDisk]
  split <;> rfl

theorem onDisk_written (d : List Char → Option Vars) (n : List Char) (v : Vars) : onDisk d n (some v) = written d [(n, v)] := rfl

theorem pass_on (E : Env) (hE : ∀ k, E.ok k = true) {L : Nat} {ok : Nat → Bool} {nm : Nat → String} (d : Dir) {ps : List Part} (hp : Pass L ps) (s : St) (ho : On L ok nm s)
    (hst : s.stack = []) (f : Vars) (ha : At ([] ++ [f]) [] s.arch) :
    ∃ a, St.run E (callsAll d ps) s = .ok { s with arch := a } ∧ At [addStructs f (structsAll ok nm d none ps)] [] a := by
  obtain ⟨a, h1, h2⟩ := all_on E hE L ok nm d ps s [] f [] ho ⟨by simp, by rw [hst]; simp⟩ hp.1 (fun _ => hp.2) ha
  rw [hst] at h2
  exact ⟨a, h1, h2⟩

/-- A file is opened, a pass is written to it, and it is closed. -/
theorem file_on (E : Env) (hE : ∀ k, E.ok k = true) {L : Nat} {ok : Nat → Bool} {nm : Nat → String} (t : ToDump) (d : Dir) {ps : List Part} (hp : Pass L ps) (s : St) (ho : On L ok nm s)
    (hst : s.stack = []) (hc : Closed s.arch) (hd : s.dir ≠ []) (n : List Char) (hn : fileName s.dir s.epoch s.batch t = n) (hl : n.length + 1 ≤ maxFileName) :
    ∃ s1 s2 a, s.openArch E t = .ok s1 ∧ St.run E (callsAll d ps) s1 = .ok s2 ∧ s2.dumping = true ∧
      s2.closeArch E = .ok { s with arch := a, disk := written s.disk [(n, contents ok nm d ps)], cur := n } ∧ Closed a := by
  obtain ⟨a1, o1, o2⟩ := openArch_at E hE t s hc hd n hn hl
  obtain ⟨a2, p1, p2⟩ := pass_on (L := L) (ok := ok) (nm := nm) E hE d hp { s with arch := a1, disk := onDisk s.disk n (some []), cur := n } ⟨ho.on, ho.name, ho.allow⟩ hst [] o2
  obtain ⟨a3, q1, q2⟩ := closeArch_at E hE { s with arch := a2, disk := onDisk s.disk n (some []), cur := n } _ p2
  refine ⟨_, _, a3, o1, p1, ho.on, ?_, q2⟩
  dsimp only at q1
  rw [q1, onDisk_twice, contents, asFile_eq]
  rfl

open Classical in
theorem batch_run (E : Env) (hE : ∀ k, E.ok k = true) {w : Wish} {T L : Nat} {ok : Nat → Bool} {nm : Nat → String} {dir : List Char} {m e : Nat} {on : Bool} (he : e < T) (k : Nat) (b : Batch)
    (hb : Pass L b.fwd ∧ Pass L b.bwd) (hd : dir ≠ []) (s : St) (hs : Calm w T L ok nm dir (some m) (some e) on s)
    (hl : on = true → w.batch T e m k → (batchFile dir .f e k).length + 1 ≤ maxFileName ∧ (batchFile dir .b e k).length + 1 ≤ maxFileName) :
    ∃ s', St.run E (b.calls k) s = .ok s' ∧ Calm w T L ok nm dir (some m) (some e) on s' ∧
      s'.disk = written s.disk (if on = true ∧ w.batch T e m k then [(batchFile dir .f e k, contents ok nm .f b.fwd), (batchFile dir .b e k, contents ok nm .b b.bwd)] else []) := by
  obtain ⟨d, hd1, hd2⟩ := batchBegin_spec hs.cond he k
  have hep : s.epoch = (e : Int) := hs.epoch
  rw [← hep] at hd1
  by_cases hw : on = true ∧ w.batch T e m k
  · obtain ⟨hon, hwb⟩ := hw
    have hdt := hd2.2 hwb
    subst hdt
    obtain ⟨l1, l2⟩ := hl hon hwb
    have hact : s.active = true := hs.active.trans hon
    obtain ⟨s1, s2, a, o1, p1, p2, p3, p4⟩ := file_on (L := L) (ok := ok) (nm := nm) E hE .fprop .f hb.1 { s with doDump := true, batch := (k : Int) }
      ⟨by simp [St.dumping, hact], hs.name, hs.allow⟩ hs.stack hs.closed (by rw [hs.dir]; exact hd) (batchFile dir .f e k)
      (by show fileName s.dir s.epoch k .fprop = _; rw [hep, hs.dir, fileName_f]) l1
    obtain ⟨s3, s4, a', q1, r1, r2, r3, r4⟩ := file_on (L := L) (ok := ok) (nm := nm) E hE .bprop .b hb.2
      { s with doDump := true, batch := (k : Int), arch := a, disk := written s.disk [(batchFile dir .f e k, contents ok nm .f b.fwd)], cur := batchFile dir .f e k }
      ⟨by simp [St.dumping, hact], hs.name, hs.allow⟩ hs.stack p4 (by rw [hs.dir]; exact hd) (batchFile dir .b e k)
      (by show fileName s.dir s.epoch k .bprop = _; rw [hep, hs.dir, fileName_b]) l2
    refine ⟨
      { s with doDump := false, batch := (k : Int), arch := a', disk := written (written s.disk [(batchFile dir .f e k, contents ok nm .f b.fwd)]) [(batchFile dir .b e k, contents ok nm .b b.bwd)], cur := batchFile dir .b e k }, ?_, ⟨r4, hs.stack, hs.cond, hs.epoch, hs.active, hs.dir, hs.name, hs.allow⟩, ?_⟩
    · have b1 : s.step E (.batchBegin k) = .ok s1 := by
        rw [St.step, hd1, bind_ok]
        dsimp only
        rw [show ({ s with doDump := true } : St).dumping = true by simp [St.dumping, hact], if_pos rfl]
        exact o1
      rw [Batch.calls, run_cons, b1, bind_ok, run_append, p1, bind_ok, run_cons, St.step, p2, if_pos rfl, p3, bind_ok, q1, bind_ok, run_append, r1, bind_ok, run_cons, St.step, r2, if_pos rfl,
        r3, bind_ok, bind_ok, run_nil]
    · rw [if_pos ⟨hon, hwb⟩]
      rfl
  · have hoff : ({ s with doDump := d } : St).dumping = false := by
      simp only [St.dumping, hs.active]
      by_cases h1 : on = true
      · have : d ≠ true := fun h => hw ⟨h1, hd2.1 h⟩
        simp [this]
      · simp [h1]
    refine ⟨{ s with doDump := d }, ?_, ⟨hs.closed, hs.stack, hs.cond, hs.epoch, hs.active, hs.dir, hs.name, hs.allow⟩, ?_⟩
    · have b1 : s.step E (.batchBegin k) = .ok { s with doDump := d } := by
        rw [St.step, hd1, bind_ok]
        dsimp only
        rw [hoff, if_neg (by simp)]
      rw [Batch.calls, run_cons, b1, bind_ok, run_append, all_off E .f _ _ hoff, bind_ok, run_cons, St.step, hoff, if_neg (by simp), bind_ok, run_append, all_off E .b _ _ hoff,
        bind_ok, run_cons, St.step, hoff, if_neg (by simp), bind_ok, run_nil]
    · rw [if_neg hw]; rfl

theorem batches_run (E : Env) (hE : ∀ k, E.ok k = true) {w : Wish} {T L : Nat} {ok : Nat → Bool} {nm : Nat → String} {dir : List Char} {m e : Nat} {on : Bool} (he : e < T) (hd : dir ≠ []) :
    ∀ (bs : List Batch) (k : Nat) (s : St), (∀ b ∈ bs, Pass L b.fwd ∧ Pass L b.bwd) → Calm w T L ok nm dir (some m) (some e) on s →
    (∀ p ∈ (if on then batchFiles w T ok nm dir e m k bs else []), p.1.length + 1 ≤ maxFileName) →
    ∃ s', St.run E (batchCalls k bs) s = .ok s' ∧ Calm w T L ok nm dir (some m) (some e) on s' ∧ s'.disk = written s.disk (if on then batchFiles w T ok nm dir e m k bs else [])
  | [], k, s, _, hs, _ => ⟨s, rfl, hs, by simp [batchFiles, written]⟩
  | b :: bs, k, s, hb, hs, hl => by
    obtain ⟨s1, h1, h2, h3⟩ := batch_run E hE he k b (hb b (List.mem_cons_self ..)) hd s hs (by
      intro hon hwb
      rw [hon, if_pos rfl, batchFiles, if_pos hwb] at hl
      exact ⟨hl (batchFile dir .f e k, contents ok nm .f b.fwd) (by simp), hl (batchFile dir .b e k, contents ok nm .b b.bwd) (by simp)⟩)
    obtain ⟨s2, g1, g2, g3⟩ := batches_run E hE he hd bs (k + 1) s1 (fun b' h => hb b' (List.mem_cons_of_mem _ h)) h2 (by
      intro p hp
      split at hp
      · rename_i hon
        apply hl p
        rw [if_pos hon, batchFiles]
        exact List.mem_append_right _ hp
      · simp at hp)
    refine ⟨s2, by rw [batchCalls, run_append, h1, bind_ok, g1], g2, ?_⟩
    rw [g3, h3]
    by_cases hon : on = true
    · rw [if_pos hon, if_pos hon, ← written_append, batchFiles]
      by_cases hwb : w.batch T e m k
      · rw [if_pos ⟨hon, hwb⟩, if_pos hwb]
      · rw [if_neg (fun h => hwb h.2), if_neg hwb]
    · simp [hon, written]

theorem err_run (E : Env) (hE : ∀ k, E.ok k = true) {w : Wish} (hw : w.Ok) {T L : Nat} {ok : Nat → Bool} {nm : Nat → String} {dir : List Char} {n e : Option Nat} {on : Bool} (he : ∀ i, e = some i → i < T)
    (hd : dir ≠ []) (set : Nat) (ps : List Part) (hp : Pass L ps) (s : St) (hs : Calm w T L ok nm dir n e on s) (hl : on = true → w.err T e set → (errFile dir e set).length + 1 ≤ maxFileName) :
    ∃ s', St.run E (Seg.err set ps).calls s = .ok s' ∧ Calm w T L ok nm dir n e on s' ∧
      s'.disk = written s.disk (open Classical in if on = true ∧ w.err T e set then [(errFile dir e set, contents ok nm .f ps)] else []) := by
  obtain ⟨d, hd1, hd2⟩ := calcErr_spec hw hs.cond e he set
  have hep : s.epoch = epochIdx e := hs.epoch
  have hd1 : s.cond.calcErr s.epoch set = .ok d := by rw [hep]; cases e <;> exact hd1
  by_cases hwe : on = true ∧ w.err T e set
  · obtain ⟨hon, hwb⟩ := hwe
    have hdt := hd2.2 hwb
    subst hdt
    have hact : s.active = true := hs.active.trans hon
    obtain ⟨s1, s2, a, o1, p1, p2, p3, p4⟩ := file_on (L := L) (ok := ok) (nm := nm) E hE (.calcErr set) .f hp { s with doDump := true }
      ⟨by simp [St.dumping, hact], hs.name, hs.allow⟩ hs.stack hs.closed (by rw [hs.dir]; exact hd) (errFile dir e set)
      (by show fileName s.dir s.epoch s.batch _ = _; rw [hep, hs.dir, fileName_err]) (hl hon hwb)
    refine ⟨{ s with doDump := false, arch := a, disk := written s.disk [(errFile dir e set, contents ok nm .f ps)], cur := errFile dir e set }, ?_,
      ⟨p4, hs.stack, hs.cond, hs.epoch, hs.active, hs.dir, hs.name, hs.allow⟩, ?_⟩
    · have b1 : s.step E (.preCalcErr set) = .ok s1 := by
        rw [St.step, hd1, bind_ok]
        dsimp only
        rw [show ({ s with doDump := true } : St).dumping = true by simp [St.dumping, hact], if_pos rfl, o1]
      rw [Seg.calls, run_cons, b1, bind_ok, run_append, p1, bind_ok, run_cons, St.step, p2, if_pos rfl, p3, bind_ok, bind_ok, run_nil]
    · rw [if_pos ⟨hon, hwb⟩]
  · have hoff : ({ s with doDump := d } : St).dumping = false := by
      simp only [St.dumping, hs.active]
      by_cases h1 : on = true
      · have : d ≠ true := fun h => hwe ⟨h1, hd2.1 h⟩
        simp [this]
      · simp [h1]
    refine ⟨{ s with doDump := d }, ?_, ⟨hs.closed, hs.stack, hs.cond, hs.epoch, hs.active, hs.dir, hs.name, hs.allow⟩, ?_⟩
    · have b1 : s.step E (.preCalcErr set) = .ok { s with doDump := d } := by
        rw [St.step, hd1, bind_ok]
        dsimp only
        rw [hoff, if_neg (by simp)]
      rw [Seg.calls, run_cons, b1, bind_ok, run_append, all_off E .f _ _ hoff, bind_ok, run_cons, St.step, hoff, if_neg (by simp), bind_ok, run_nil]
    · rw [if_neg hwe]; rfl

theorem segs_run (E : Env) (hE : ∀ k, E.ok k = true) {w : Wish} (hw : w.Ok) {T L : Nat} {ok : Nat → Bool} {nm : Nat → String} {dir : List Char} (hd : dir ≠ []) :
    ∀ (segs : List Seg) (n e : Option Nat) (on : Bool) (s : St), (∀ g ∈ segs, g.Fits L T) → (∀ i, e = some i → i < T) → Calm w T L ok nm dir n e on s →
    (∀ p ∈ files w T ok nm dir on e segs, p.1.length + 1 ≤ maxFileName) →
    ∃ s' n' e', St.run E (segs.flatMap Seg.calls) s = .ok s' ∧ Calm w T L ok nm dir n' e' (lastOn on segs) s' ∧ s'.disk = written s.disk (files w T ok nm dir on e segs)
  | [], n, e, on, s, _, _, hs, _ => ⟨s, n, e, rfl, hs, by simp [files, written]⟩
  | .epoch i bs :: r, n, e, on, s, hg, he, hs, hl => by
    have hi := hg _ (List.mem_cons_self ..)
    rw [Seg.Fits] at hi
    obtain ⟨c', d, h1, h2⟩ := epochBegin_ready hs.cond hi.1 bs.length
    rw [files] at hl
    obtain ⟨s1, g1, g2, g3⟩ := batches_run (w := w) (T := T) (L := L) (ok := ok) (nm := nm) (dir := dir) (m := bs.length) (on := on) E hE hi.1 hd bs 0
      { s with epoch := (i : Int), cond := c', doDump := d } hi.2 ⟨hs.closed, hs.stack, h2, rfl, hs.active, hs.dir, hs.name, hs.allow⟩
      (fun p hp => hl p (List.mem_append_left _ hp))
    obtain ⟨s2, n', e', k1, k2, k3⟩ := segs_run E hE hw hd r _ (some i) on s1 (fun g h => hg g (List.mem_cons_of_mem _ h)) (by rintro j ⟨⟩; exact hi.1) g2
      (fun p hp => hl p (List.mem_append_right _ hp))
    refine ⟨s2, n', e', ?_, k2, ?_⟩
    · rw [List.flatMap_cons, run_append, Seg.calls, run_cons, St.step, h1, bind_ok, bind_ok, g1, bind_ok, k1]
    · rw [k3, g3, ← written_append, files]
  | .err set ps :: r, n, e, on, s, hg, he, hs, hl => by
    have hi := hg _ (List.mem_cons_self ..)
    rw [files] at hl
    obtain ⟨s1, g1, g2, g3⟩ := err_run E hE hw he hd set ps hi s hs (by
      intro h1 h2
      rw [if_pos ⟨h1, h2⟩] at hl
      exact hl (errFile dir e set, contents ok nm .f ps) (by simp))
    obtain ⟨s2, n', e', k1, k2, k3⟩ := segs_run E hE hw hd r n e on s1 (fun g h => hg g (List.mem_cons_of_mem _ h)) he g2 (fun p hp => hl p (List.mem_append_right _ hp))
    refine ⟨s2, n', e', ?_, k2, ?_⟩
    · rw [List.flatMap_cons, run_append, g1, bind_ok, k1]
    · rw [k3, g3, ← written_append, files]
  | .turn b :: r, n, e, on, s, hg, he, hs, hl => by
    rw [files] at hl
    obtain ⟨s2, n', e', k1, k2, k3⟩ := segs_run E hE hw hd r n e b { s with active := b } (fun g h => hg g (List.mem_cons_of_mem _ h)) he
      ⟨hs.closed, hs.stack, hs.cond, hs.epoch, rfl, hs.dir, hs.name, hs.allow⟩ hl
    exact ⟨s2, n', e', by rw [List.flatMap_cons, Seg.calls]; exact k1, k2, by rw [k3, files]⟩

end Nntl.Dumper
