import Verif.Dumper.Init
/-!
C154: the files of a training. C155: what is in a file. C156: when nothing is written, and the limits.
-/
namespace Nntl.Dumper
open Nntl.MatFile

/-! ### C154 -/

/-- C154. A training with this inspector, for every network, every settings of the condition, every list of allowed or forbidden layers, every schedule of epochs, batches and calculations of the error, and every
moment at which the user turns the inspector on or off between them: the files that are written are exactly the ones that are wanted, with the contents that are wanted (`files`), and everything is closed
afterwards. The functions of the MAT-file library succeed, and the names of the files are shorter than 260 characters. -/
theorem training_files (E : Env) (hE : ∀ k, E.ok k = true) (w : Wish) (hw : w.Ok) (L T : Nat) (hT : 0 < T) (order : List Nat) (ho : ∀ l, l ∈ order ↔ l < L) (nm : Nat → String) (ty : Nat → Nat)
    (segs : List Seg) (hf : ∀ g ∈ segs, g.Fits L T) (s : St) (hc : s.cond.Has w) (ha : Closed s.arch) (hst : s.stack = []) (hd : s.dir ≠ [])
    (hl : ∀ p ∈ files w T (mayWrite s.bw ty) nm s.dir s.active none segs, p.1.length < 260) :
    ∃ s', St.run E (training L T order nm ty segs) s = .ok s' ∧ s'.disk = written s.disk (files w T (mayWrite s.bw ty) nm s.dir s.active none segs) ∧
      Closed s'.arch ∧ s'.stack = [] ∧ s'.active = lastOn s.active segs := by
  obtain ⟨s1, h1, h2, h3⟩ := init_run E hw hT order (fun l hl => (ho l).1 hl) nm ty s hc ha hst
  have h3 : Calm w T L (mayWrite s.bw ty) nm s.dir none none s.active s1 :=
    ⟨h3.closed, h3.stack, h3.cond, h3.epoch, h3.active, h3.dir, fun l hl => by rw [h3.name l hl, if_pos ((ho l).2 hl)], fun l hl => by rw [h3.allow l hl, if_pos ((ho l).2 hl)]⟩
  obtain ⟨s2, n, e, g1, g2, g3⟩ := segs_run E hE hw hd segs none none s.active s1 hf (by simp) h3 hl
  exact ⟨s2, by rw [training, run_append, h1, bind_ok, g1], by rw [g3, h2], g2.closed, g2.stack, g2.active⟩

/-- C154, length of the names: a directory of at most 243 characters, less than 1000 epochs and at most 1000 batches are enough. -/
theorem names_fit (w : Wish) (T : Nat) (hT : T < 1000) (ok : Nat → Bool) (nm : Nat → String) (dir : List Char) (hdir : dir.length ≤ 243) (on : Bool) (L : Nat) (segs : List Seg) (hf : ∀ g ∈ segs, g.Fits L T)
    (hb : ∀ e bs, Seg.epoch e bs ∈ segs → bs.length ≤ 1000) : ∀ p ∈ files w T ok nm dir on none segs, p.1.length < 260 := by
  have hlast : ∀ (pre : List Seg) (e0 : Option Nat), (∀ g ∈ pre, g.Fits L T) → (∀ i, e0 = some i → i < T) → ∀ i, lastEp e0 pre = some i → i < T := by
    intro pre
    induction pre with
    | nil => intro e0 _ h; exact h
    | cons g pre ih =>
      intro e0 hg h0
      have hgs := fun x hx => hg x (List.mem_cons_of_mem _ hx)
      have hg0 := hg g (List.mem_cons_self ..)
      cases g with
      | epoch e bs => exact ih _ hgs (by rintro i ⟨⟩; exact hg0.1)
      | err s ps => exact ih _ hgs h0
      | turn o => exact ih _ hgs h0
  intro p hp
  obtain ⟨pre, post, -, ⟨i, bs, k, b, d, h1, h2, -, h4⟩ | ⟨set, ps, h1, h2, h3⟩⟩ := mem_files hp
  · have hm : Seg.epoch i bs ∈ segs := by rw [h1]; simp
    have hi : i < T := (hf _ hm).1
    have hbs := hb i bs hm
    have hk : k < bs.length := (List.getElem?_eq_some_iff.1 h2).1
    rw [h4, batchFile_len, num3_len (by omega), num3_len (by omega)]
    omega
  · have hi := hlast pre none (fun g hg => hf g (by rw [h1]; simp [hg])) (by simp)
    have h0 : set = 0 := h2.2.1
    subst h0
    rw [h3, errFile_len, num3_len]
    · show _ + 3 + 1 + 12 < 260
      omega
    · rcases he : lastEp none pre with _ | i
      · simp
      · have := hi i he
        simp only
        omega

/-- C154, the file of a batch: if the batch is wanted and the inspector is on, then after the training there is the file with the batch's pass in this direction (the last time an epoch has this number). -/
theorem batch_file (w : Wish) (T : Nat) (ok : Nat → Bool) (nm : Nat → String) (dir : List Char) (on : Bool) (disk : List Char → Option Vars) (pre post : List Seg) (e : Nat) (bs : List Batch) (k : Nat) (b : Batch)
    (hon : lastOn on pre = true) (hb : bs[k]? = some b) (hwb : w.batch T e bs.length k) (hlast : ∀ bs', Seg.epoch e bs' ∉ post) (d : Dir) :
    written disk (files w T ok nm dir on none (pre ++ .epoch e bs :: post)) (batchFile dir d e k) = some (contents ok nm d (b.pass d)) := by
  have hpost : ∀ p ∈ files w T ok nm dir (lastOn on pre) (some e) post, ∀ d, p.1 ≠ batchFile dir d e k := by
    intro p hp d hpe
    obtain ⟨pre', post', -, ⟨i, bs', k', b', d', h1, -, -, h4⟩ | ⟨set, ps, h1, -, h3⟩⟩ := mem_files hp
    · rw [h4] at hpe
      obtain ⟨-, he, -⟩ := batchFile_inj hpe
      subst he
      exact hlast bs' (by rw [h1]; simp)
    · rw [h3] at hpe
      exact batch_ne_err hpe.symm
  obtain ⟨x, y, h1, h2⟩ := batchFiles_split (w := w) (T := T) (ok := ok) (nm := nm) (dir := dir) (e := e) (n := bs.length) (k0 := 0) hb (by rwa [Nat.zero_add])
  have hy : ∀ p ∈ y, ∀ d, p.1 ≠ batchFile dir d e k := by
    intro p hp d hpe
    obtain ⟨d', k', hk, h3⟩ := h2 p hp
    rw [h3] at hpe
    obtain ⟨-, -, h⟩ := batchFile_inj hpe
    omega
  rw [Nat.zero_add] at h1
  rw [files_append, files, if_pos hon, h1]
  have hrest : ∀ p ∈ y ++ files w T ok nm dir (lastOn on pre) (some e) post, ∀ d, p.1 ≠ batchFile dir d e k := by
    intro p hp
    rcases List.mem_append.1 hp with h | h
    · exact hy p h
    · exact hpost p h
  cases d with
  | f =>
    have := written_last (files w T ok nm dir on none pre ++ x) ((batchFile dir .b e k, contents ok nm .b b.bwd) :: (y ++ files w T ok nm dir (lastOn on pre) (some e) post))
      (batchFile dir .f e k) (contents ok nm .f b.fwd) (by
        intro p hp
        rcases List.mem_cons.1 hp with h | h
        · subst h
          exact fun h => absurd (batchFile_inj (dir := dir) (d := .b) (d' := .f) (e := e) (e' := e) (k := k) (k' := k) h).1 (by simp)
        · exact hrest p h .f) disk
    simpa [List.append_assoc, Batch.pass] using this
  | b =>
    have := written_last (files w T ok nm dir on none pre ++ x ++ [(batchFile dir .f e k, contents ok nm .f b.fwd)]) (y ++ files w T ok nm dir (lastOn on pre) (some e) post)
      (batchFile dir .b e k) (contents ok nm .b b.bwd) (fun p hp => hrest p hp .b) disk
    simpa [List.append_assoc, Batch.pass] using this

/-- C154, the file of a calculation of the error (the last one of this data set after this epoch). -/
theorem err_file (w : Wish) (T : Nat) (ok : Nat → Bool) (nm : Nat → String) (dir : List Char) (on : Bool) (disk : List Char → Option Vars) (pre post : List Seg) (set : Nat) (ps : List Part)
    (hon : lastOn on pre = true) (hwe : w.err T (lastEp none pre) set)
    (hlast : ∀ pre' ps' post', post = pre' ++ Seg.err set ps' :: post' → lastEp (lastEp none pre) pre' ≠ lastEp none pre) :
    written disk (files w T ok nm dir on none (pre ++ .err set ps :: post)) (errFile dir (lastEp none pre) set) = some (contents ok nm .f ps) := by
  rw [files_append, files, if_pos ⟨hon, hwe⟩, List.singleton_append]
  apply written_last
  intro p hp hpe
  obtain ⟨pre', post', -, ⟨i, bs', k', b', d', h1, -, -, h4⟩ | ⟨set', ps', h1, -, h3⟩⟩ := mem_files hp
  · rw [h4] at hpe
    exact batch_ne_err hpe
  · rw [h3] at hpe
    obtain ⟨he, hs⟩ := errFile_inj hpe
    subst hs
    exact hlast pre' ps' post' h1 he

/-- C154, no other file is touched. -/
theorem only_wanted (w : Wish) (T : Nat) (ok : Nat → Bool) (nm : Nat → String) (dir : List Char) (on : Bool) (disk : List Char → Option Vars) (segs : List Seg) (m : List Char)
    (hm : written disk (files w T ok nm dir on none segs) m ≠ disk m) :
    ∃ pre post, lastOn on pre = true ∧
      ((∃ e bs k d, segs = pre ++ .epoch e bs :: post ∧ k < bs.length ∧ w.batch T e bs.length k ∧ m = batchFile dir d e k) ∨
        ∃ set ps, segs = pre ++ .err set ps :: post ∧ w.err T (lastEp none pre) set ∧ m = errFile dir (lastEp none pre) set) := by
  have : ∃ p ∈ files w T ok nm dir on none segs, p.1 = m := by
    apply Classical.byContradiction
    intro h
    exact hm (written_ne _ m (fun p hp e => h ⟨p, hp, e⟩) disk)
  obtain ⟨p, hp, he⟩ := this
  obtain ⟨pre, post, h0, ⟨i, bs, k, b, d, h1, h2, h3, h4⟩ | ⟨set, ps, h1, h2, h3⟩⟩ := mem_files hp
  · exact ⟨pre, post, h0, .inl ⟨i, bs, k, d, h1, (List.getElem?_eq_some_iff.1 h2).1, h3, by rw [← he, h4]⟩⟩
  · exact ⟨pre, post, h0, .inr ⟨set, ps, h1, h2, by rw [← he, h3]⟩⟩

/-- C154: files of different batches, directions, epochs and calculations of the error have different names. -/
theorem names_differ (dir : List Char) : (∀ d d' e e' k k', batchFile dir d e k = batchFile dir d' e' k' → d = d' ∧ e = e' ∧ k = k') ∧
    (∀ e e' s s', errFile dir e s = errFile dir e' s' → e = e' ∧ s = s') ∧ (∀ d e k e' s, batchFile dir d e k ≠ errFile dir e' s) :=
  ⟨fun _ _ _ _ _ _ h => batchFile_inj h, fun _ _ _ _ h => errFile_inj h, fun _ _ _ _ _ => batch_ne_err⟩

/-! ### C155 -/

/-- C155. The variables of a file are structs; the one with this name is that of the layer's last turn in the passes; and its fields are what the layer has said (the last value, if it has used a name twice). -/
theorem file_variables (ok : Nat → Bool) (nm : Nat → String) (d : Dir) (ps : List Part) (n : String) :
    match lastOf (structsAll ok nm d none ps) n with
    | none => fget (contents ok nm d ps) n = none
    | some fs => ∃ vs, fget (contents ok nm d ps) n = some (.strct 1 1 vs) ∧ ∀ f, fget vs f = (lastOf fs f).map Leaf.var := by
  rcases h : lastOf (structsAll ok nm d none ps) n with _ | fs
  · simp only []
    rw [contents, asFile_get, h]
    rfl
  · simp only []
    exact ⟨_, by rw [contents, asFile_get, h]; rfl, fields_get fs⟩

mutual
/-- The layers at work in a part of a pass. -/
def Part.layers : Part → List Nat
  | .note _ => []
  | .layer l body _ => l :: layersAll body
def layersAll : List Part → List Nat
  | [] => []
  | p :: ps => p.layers ++ layersAll ps
end

mutual
theorem structs_name (ok : Nat → Bool) (nm : Nat → String) (d : Dir) : ∀ (p : Part) (up : Option Nat) (x : String × List (String × Leaf)), x ∈ p.structs ok nm d up → ∃ l, l ∈ p.layers ∧ ok l = true ∧ x.1 = nm l
  | .note _, up, x, h => by simp [Part.structs] at h
  | .layer l body v, up, x, h => by
    rw [Part.structs, List.mem_append] at h
    rcases h with h | h
    · obtain ⟨l', h1, h2⟩ := structsAll_name ok nm d body _ x h
      exact ⟨l', by rw [Part.layers]; exact List.mem_cons_of_mem _ h1, h2⟩
    · split at h
      · rename_i hl
        simp only [List.mem_cons, List.not_mem_nil, or_false] at h
        exact ⟨l, by rw [Part.layers]; exact List.mem_cons_self .., hl.1, by rw [h]⟩
      · simp at h
theorem structsAll_name (ok : Nat → Bool) (nm : Nat → String) (d : Dir) : ∀ (ps : List Part) (up : Option Nat) (x : String × List (String × Leaf)), x ∈ structsAll ok nm d up ps →
    ∃ l, l ∈ layersAll ps ∧ ok l = true ∧ x.1 = nm l
  | [], up, x, h => by simp [structsAll] at h
  | p :: ps, up, x, h => by
    rw [structsAll, List.mem_append] at h
    rcases h with h | h
    · obtain ⟨l, h1, h2⟩ := structs_name ok nm d p up x h
      exact ⟨l, by rw [layersAll]; exact List.mem_append_left _ h1, h2⟩
    · obtain ⟨l, h1, h2⟩ := structsAll_name ok nm d ps up x h
      exact ⟨l, by rw [layersAll]; exact List.mem_append_right _ h1, h2⟩
end

theorem lastOf_some {α : Type} {l : List (String × α)} {n : String} {v : α} (h : lastOf l n = some v) : (n, v) ∈ l := by
  unfold lastOf at h
  rw [Option.map_eq_some_iff] at h
  obtain ⟨p, h1, h2⟩ := h
  have h3 := List.mem_of_getLast? h1
  rw [List.mem_filter] at h3
  obtain ⟨h4, h5⟩ := h3
  simp only [decide_eq_true_eq] at h5
  rw [← h5, ← h2]
  exact h4

theorem lastOf_isSome {α : Type} {l : List (String × α)} {p : String × α} (h : p ∈ l) : (lastOf l p.1).isSome := by
  unfold lastOf
  have : p ∈ l.filter fun q => decide (q.1 = p.1) := by simp [List.mem_filter, h]
  rcases hq : (l.filter fun q => decide (q.1 = p.1)).getLast? with _ | q
  · rw [List.getLast?_eq_none_iff] at hq
    rw [hq] at this
    simp at this
  · rw [hq]; rfl

/-- C155: only layers that may be written and that have been at work are in a file. -/
theorem only_allowed (ok : Nat → Bool) (nm : Nat → String) (d : Dir) (ps : List Part) (n : String) (v : Var) (h : fget (contents ok nm d ps) n = some v) :
    ∃ l, l ∈ layersAll ps ∧ ok l = true ∧ nm l = n := by
  rw [contents, asFile_get, Option.map_eq_some_iff] at h
  obtain ⟨fs, h1, -⟩ := h
  obtain ⟨l, h2, h3, h4⟩ := structsAll_name ok nm d ps none _ (lastOf_some h1)
  exact ⟨l, h2, h3, h4.symm⟩

mutual
theorem layers_structs (ok : Nat → Bool) (nm : Nat → String) (d : Dir) : ∀ (p : Part) (up : Option Nat) (l : Nat), l ∈ p.layers → ok l = true → up ≠ some l → ∃ x ∈ p.structs ok nm d up, x.1 = nm l
  | .note _, up, l, h, _, _ => by simp [Part.layers] at h
  | .layer l' body v, up, l, h, ho, hu => by
    by_cases e : l' = l
    · subst e
      exact ⟨(nm l', fields d (ownAll l' body) v), by rw [Part.structs, if_pos ⟨ho, hu⟩]; simp, rfl⟩
    · rw [Part.layers, List.mem_cons] at h
      obtain ⟨x, h1, h2⟩ := layersAll_structs ok nm d body (some l') l (h.resolve_left fun e' => e e'.symm) ho (by simpa using e)
      exact ⟨x, by rw [Part.structs]; exact List.mem_append_left _ h1, h2⟩
theorem layersAll_structs (ok : Nat → Bool) (nm : Nat → String) (d : Dir) : ∀ (ps : List Part) (up : Option Nat) (l : Nat), l ∈ layersAll ps → ok l = true → up ≠ some l → ∃ x ∈ structsAll ok nm d up ps, x.1 = nm l
  | [], up, l, h, _, _ => by simp [layersAll] at h
  | p :: ps, up, l, h, ho, hu => by
    rw [layersAll, List.mem_append] at h
    rcases h with h | h
    · obtain ⟨x, h1, h2⟩ := layers_structs ok nm d p up l h ho hu
      exact ⟨x, by rw [structsAll]; exact List.mem_append_left _ h1, h2⟩
    · obtain ⟨x, h1, h2⟩ := layersAll_structs ok nm d ps up l h ho hu
      exact ⟨x, by rw [structsAll]; exact List.mem_append_right _ h1, h2⟩
end

/-- C155: every layer that may be written and that has been at work, at any depth, is in the file. -/
theorem every_allowed (ok : Nat → Bool) (nm : Nat → String) (d : Dir) (ps : List Part) (l : Nat) (hl : l ∈ layersAll ps) (ho : ok l = true) :
    ∃ vs, fget (contents ok nm d ps) (nm l) = some (.strct 1 1 vs) := by
  obtain ⟨x, h1, h2⟩ := layersAll_structs ok nm d ps none l hl ho (by simp)
  have := lastOf_isSome h1
  rw [h2] at this
  obtain ⟨fs, hfs⟩ := Option.isSome_iff_exists.1 this
  exact ⟨_, by rw [contents, asFile_get, hfs]; rfl⟩

/-- C155: a layer that must not be written is in no file, if the names of the layers differ. -/
theorem forbidden_absent (ok : Nat → Bool) (nm : Nat → String) (d : Dir) (ps : List Part) (l : Nat) (ho : ok l = false) (hn : ∀ l', l' ∈ layersAll ps → nm l' = nm l → l' = l) :
    fget (contents ok nm d ps) (nm l) = none := by
  rcases h : fget (contents ok nm d ps) (nm l) with _ | v
  · rfl
  · obtain ⟨l', h1, h2, h3⟩ := only_allowed ok nm d ps _ v h
    have := hn l' h1 h3
    subst this
    rw [ho] at h2
    cases h2

/-! ### C156 -/

theorem closeArch_disk (E : Env) {s s' : St} (h : s.closeArch E = .ok s') : s'.active = s.active := by
  unfold St.closeArch at h
  dsimp only at h
  split at h
  · cases h
  · cases h; rfl

/-- C156. As long as the inspector is turned off, no call whatsoever changes a file. -/
theorem off_writes_nothing (E : Env) : ∀ (cs : List Call) (s s' : St), s.active = false → (∀ b, Call.turnOn b ∈ cs → b = false) → St.run E cs s = .ok s' → s'.disk = s.disk ∧ s'.arch = s.arch
  | [], s, s', _, _, h => by cases h; exact ⟨rfl, rfl⟩
  | c :: cs, s, s', hs, hc, h => by
    rw [run_cons] at h
    have key : ∀ s1, s.step E c = .ok s1 → s1.active = false ∧ s1.disk = s.disk ∧ s1.arch = s.arch := by
      have off : ∀ t : St, t.active = false → t.dumping = false := fun t ht => by simp [St.dumping, ht]
      have offIn : ∀ (t : St) (l : Option Nat), t.active = false → t.dumpingIn l = .ok false := fun t l ht => by simp [St.dumpingIn, off t ht]
      intro s1 h1
      cases c with
      | initNnet l e =>
        simp only [St.step, St.initNnet] at h1
        cases hi : s.cond.init e with
        | ok c => rw [hi, bind_ok] at h1; cases h1; exact ⟨hs, rfl, rfl⟩
        | abort => rw [hi] at h1; cases h1
        | ub => rw [hi] at h1; cases h1
      | initLayer l n t =>
        simp only [St.step, St.initLayer] at h1
        split at h1
        · split at h1
          · cases h1; exact ⟨hs, rfl, rfl⟩
          · cases h1
        · cases h1
      | turnOn b =>
        have hb := hc b (List.mem_cons_self ..)
        cases h1
        exact ⟨hb, rfl, rfl⟩
      | epochBegin e nb =>
        simp only [St.step] at h1
        cases hi : s.cond.epochBegin e nb with
        | ok c => rw [hi, bind_ok] at h1; cases h1; exact ⟨hs, rfl, rfl⟩
        | abort => rw [hi] at h1; cases h1
        | ub => rw [hi] at h1; cases h1
      | batchBegin b =>
        simp only [St.step] at h1
        cases hi : s.cond.batchBegin b s.epoch with
        | ok c => rw [hi, bind_ok, off _ (by exact hs), if_neg (by simp)] at h1; cases h1; exact ⟨hs, rfl, rfl⟩
        | abort => rw [hi] at h1; cases h1
        | ub => rw [hi] at h1; cases h1
      | preBprop => rw [St.step, off s hs, if_neg (by simp)] at h1; cases h1; exact ⟨hs, rfl, rfl⟩
      | batchEnd => rw [St.step, off s hs, if_neg (by simp)] at h1; cases h1; exact ⟨hs, rfl, rfl⟩
      | preCalcErr set =>
        simp only [St.step] at h1
        cases hi : s.cond.calcErr s.epoch set with
        | ok c => rw [hi, bind_ok, off _ (by exact hs), if_neg (by simp)] at h1; cases h1; exact ⟨hs, rfl, rfl⟩
        | abort => rw [hi] at h1; cases h1
        | ub => rw [hi] at h1; cases h1
      | postCalcErr => rw [St.step, off s hs, if_neg (by simp)] at h1; cases h1; exact ⟨hs, rfl, rfl⟩
      | fpropBegin l => simp only [St.step] at h1; rw [offIn _ _ (by exact hs), bind_ok] at h1; cases h1; exact ⟨hs, rfl, rfl⟩
      | fpropEnd A =>
        simp only [St.step] at h1; rw [offIn _ _ hs, bind_ok] at h1
        simp only [Bool.false_and, Bool.false_eq_true, if_false, bind_ok] at h1
        split at h1
        · cases h1
        · cases h1; exact ⟨hs, rfl, rfl⟩
      | bpropBegin l d => simp only [St.step] at h1; rw [offIn _ _ (by exact hs), bind_ok] at h1; cases h1; exact ⟨hs, rfl, rfl⟩
      | bpropEnd =>
        simp only [St.step] at h1; rw [offIn _ _ hs, bind_ok] at h1
        simp only [Bool.false_and, Bool.false_eq_true, if_false, bind_ok] at h1
        split at h1
        · cases h1
        · cases h1; exact ⟨hs, rfl, rfl⟩
      | note n => rw [St.step, offIn _ _ hs, bind_ok] at h1; cases h1; exact ⟨hs, rfl, rfl⟩
    cases h1 : s.step E c with
    | ok s1 =>
      rw [h1, bind_ok] at h
      obtain ⟨k1, k2, k3⟩ := key s1 h1
      obtain ⟨g1, g2⟩ := off_writes_nothing E cs s1 s' k1 (fun b hb => hc b (List.mem_cons_of_mem _ hb)) h
      exact ⟨g1.trans k2, g2.trans k3⟩
    | abort => rw [h1] at h; cases h
    | ub => rw [h1] at h; cases h

/-! ### What goes wrong -/

/-- C154, negative: a negative number among the epochs makes the initialisation of the training write before the beginning of a vector. This includes -1, which `CalcErrByEpochNum` is made to look for (the error before the
first epoch), so that this error can never be written. -/
theorem negative_epoch (T : Nat) (c : Cond) (hk : c.kind ≠ .firstBatches) (hx : ∃ x ∈ c.epochs, x < 0) : c.init T = .ub := by
  have h1 : ∀ (es : List Int) (fl : List Bool), (∃ x ∈ es, x < 0) → setEpochs T es fl = .ub := by
    intro es
    induction es with
    | nil => rintro fl ⟨x, hx, -⟩; simp at hx
    | cons a es ih =>
      rintro fl ⟨x, hx, hn⟩
      rw [setEpochs]
      by_cases ha : a < 0
      · rw [setFlag, if_pos (by rw [if_pos (by omega)]; exact .inl ha)]
        rfl
      · have hx' : x ∈ es := by
          rcases List.mem_cons.1 hx with h | h
          · subst h; exact absurd hn ha
          · exact h
        generalize (if a < (T : Int) then a else (T : Int) - 1) = i
        rw [setFlag]
        by_cases hi : i < 0 ∨ fl.length ≤ i.toNat
        · rw [if_pos hi]; rfl
        · rw [if_neg hi]; exact ih _ ⟨x, hx', hn⟩
  have h2 : ∀ c : Cond, (∃ x ∈ c.epochs, x < 0) → initEpochs T c = .ub := by
    intro c hx
    have hne : c.epochs.isEmpty = false := by
      obtain ⟨x, h, -⟩ := hx
      cases hc : c.epochs with
      | nil => rw [hc] at h; simp at h
      | cons _ _ => rfl
    simp only [initEpochs, hne, Bool.false_eq_true, if_false]
    rw [h1 _ _ hx]
    rfl
  unfold Cond.init
  cases hk' : c.kind with
  | epochNum => exact h2 c hx
  | lastBatch => exact h2 _ hx
  | firstN => exact h2 _ hx
  | calcErr => simp only []; rw [h2 c hx]; rfl
  | calcErrOnly => simp only []; rw [h2 c hx]; rfl
  | firstBatches => exact absurd hk' hk

/-- C154, negative: with no list of epochs the last epoch is meant, but the number of the last epoch of the first training is kept: a second, longer training is written at the wrong epoch. -/
theorem default_epoch_sticks : ∃ c c1 c2 : Cond, c.epochs = [] ∧ c.init 5 = .ok c1 ∧ c1.init 10 = .ok c2 ∧ c2.batchBegin 0 9 = .ok false ∧ c2.batchBegin 0 4 = .ok true ∧
    ∀ w : Wish, c.Has w → w.batch 10 9 1 0 ∧ ¬ w.batch 10 4 1 0 := by
  refine ⟨⟨.epochNum, [], [], 0, 0, false, 0, 0⟩, _, _, rfl, rfl, rfl, rfl, rfl, ?_⟩
  rintro ⟨wk, we, wc, ws⟩ ⟨h1, h2, -, -⟩
  dsimp only at h1 h2
  subst h1 h2
  simp [Wish.batch, Wish.listed]

/-- C155, negative: a further training with the same network object calls `init_nnet` but not `init_layer`: every layer then has the empty name, and the list of allowed or forbidden layers is forgotten (every layer is written with a
black list, none with a white list). -/
theorem retraining_forgets (E : Env) (hE : ∀ k, E.ok k = true) (w : Wish) (hw : w.Ok) (L T : Nat) (hT : 0 < T) (nm : Nat → String) (ty : Nat → Nat) (segs : List Seg) (hf : ∀ g ∈ segs, g.Fits L T) (s : St)
    (hc : s.cond.Has w) (ha : Closed s.arch) (hst : s.stack = []) (hd : s.dir ≠ []) (hl : ∀ p ∈ files w T (fun _ => !s.bw.white) (fun _ => "") s.dir s.active none segs, p.1.length < 260) :
    ∃ s', St.run E (training L T [] nm ty segs) s = .ok s' ∧ s'.disk = written s.disk (files w T (fun _ => !s.bw.white) (fun _ => "") s.dir s.active none segs) := by
  obtain ⟨s1, h1, h2, h3⟩ := init_run E hw hT (L := L) [] (by simp) nm ty s hc ha hst
  simp only [List.not_mem_nil, if_false] at h3
  obtain ⟨s2, n, e, g1, -, g3⟩ := segs_run E hE hw hd segs none none s.active s1 hf (by simp) h3 hl
  exact ⟨s2, by rw [training, run_append, h1, bind_ok, g1], by rw [g3, h2]⟩

theorem openArch_open (E : Env) (t : ToDump) (s : St) (h : s.arch.base.file.isSome) : s.openArch E t = .abort := by
  rw [St.openArch]
  split
  · rfl
  · dsimp only
    split
    · rfl
    · rw [if_pos]
      simp [MatFile.St.open, h, MatFile.St.setErr]

/-- C156, negative: if the user turns the inspector off while a batch is being written and on again after the batch, then the file is still open and the next batch that is wanted ends the program. -/
theorem turned_off_inside (E : Env) (s : St) (hs : s.arch.base.file.isSome) (fwd bwd : List Part) (k : Int) (hk : s.cond.batchBegin k s.epoch = .ok true) :
    St.run E (.turnOn false :: (callsAll .f fwd ++ .preBprop :: (callsAll .b bwd ++ [.batchEnd, .turnOn true, .batchBegin k]))) s = .abort := by
  have off : ({ s with active := false } : St).dumping = false := rfl
  rw [run_cons, St.step, bind_ok, run_append, all_off E .f _ _ off, bind_ok, run_cons, St.step, off, if_neg (by simp), bind_ok, run_append, all_off E .b _ _ off, bind_ok, run_cons, St.step, off, if_neg (by simp), bind_ok,
    run_cons, St.step, bind_ok, run_cons, St.step]
  rw [hk, bind_ok]
  dsimp only
  rw [if_pos (by rfl), openArch_open E _ _ (by exact hs)]
  rfl

/-- C156, negative: directories with names of 244 to 250 characters are accepted, and the first batch that is to be written ends the program. -/
theorem long_directory (E : Env) (s : St) (dir : List Char) (h1 : 244 ≤ dir.length) (h2 : dir.length ≤ 250) (e k : Nat) :
    ∃ s', s.setDir dir = .ok s' ∧ ({ s' with epoch := (e : Int), batch := (k : Int) } : St).openArch E .fprop = .abort := by
  refine ⟨{ s with dir := dir }, ?_, ?_⟩
  · rw [St.setDir, if_neg (show ¬ dir.length > maxDirName from show ¬ dir.length > 250 by omega)]
  · rw [St.openArch]
    split
    · rfl
    · dsimp only
      rw [fileName_f, batchFile_len, if_pos]
      have := num3_len_ge (e + 1)
      have := num3_len_ge k
      show 260 < _
      omega

/-- C156, negative: something said outside of any layer while a batch is being written reads outside of a vector. -/
theorem note_outside (E : Env) (s : St) (n : Note) (hd : s.dumping = true) (hst : s.stack = []) : s.step E (.note n) = .ub := by
  simp only [St.step, St.dumpingIn, hd, hst, if_true]
  rfl

/-! ### A training -/

/-- Three layers: layer 1 is inside of layer 0, layer 2 follows. The output layer 2 is on the black list. -/
def demoFwd : List Part := [.layer 0 [.note (.makePre (.scalar .double 7)), .layer 1 [.note (.inspect "x" (.scalar .double 3))] (.scalar .double 4)] (.scalar .double 5), .layer 2 [] (.scalar .double 6)]
def demoBwd : List Part := [.layer 2 [] (.scalar .double 1), .layer 0 [.layer 1 [.note (.dLdZ (.scalar .double 3))] (.scalar .double 4)] (.scalar .double 5)]
def demoSegs : List Seg := [.err 0 demoFwd, .epoch 0 [⟨demoFwd, demoBwd⟩], .err 0 demoFwd, .epoch 1 [⟨demoFwd, demoBwd⟩, ⟨demoFwd, demoBwd⟩], .err 0 demoFwd, .err 1 demoFwd]
def demoSt : St := St.new ⟨.calcErr, [1], [], 0, 0, false, 0, 0⟩ ⟨[], [], [2], false⟩ "d".toList (fun _ => none)
def demoWish : Wish := ⟨.calcErr, [1], 0, 0⟩
def demoNm : Nat → String := fun l => if l = 0 then "pack" else if l = 1 then "fc" else "out"
def demoEnv : Env := ⟨fun _ => true, fun _ _ => 0, fun _ _ x => x⟩

theorem demo_pass : Pass 3 demoFwd ∧ Pass 3 demoBwd := by
  refine ⟨⟨by simp [demoFwd, FitsAll, Part.Fits], ?_⟩, ⟨by simp [demoBwd, FitsAll, Part.Fits], ?_⟩⟩
  · intro p hp
    simp only [demoFwd, List.mem_cons, List.not_mem_nil, or_false] at hp
    rcases hp with h | h <;> exact ⟨_, _, _, h⟩
  · intro p hp
    simp only [demoBwd, List.mem_cons, List.not_mem_nil, or_false] at hp
    rcases hp with h | h <;> exact ⟨_, _, _, h⟩

theorem demo_fits : ∀ g ∈ demoSegs, g.Fits 3 2 := by
  obtain ⟨h1, h2⟩ := demo_pass
  intro g hg
  simp only [demoSegs, List.mem_cons, List.not_mem_nil, or_false] at hg
  rcases hg with h | h | h | h | h | h <;> subst h <;> simp [Seg.Fits, h1, h2]

/-- The hypotheses of `training_files`, `names_fit` and `batch_file` are met: the first batch of epoch 1 is in a file with the structs "pack" and "fc" and no "out"; the first epoch is not written. -/
theorem demo : ∃ s', St.run demoEnv (training 3 2 [0, 1, 2] demoNm id demoSegs) demoSt = .ok s' ∧
    s'.disk "d/ep002_000_f.mat".toList = some [("fc", .strct 1 1 [("x", .num .double 1 1 fun _ => 3), ("A", .num .double 1 1 fun _ => 4)]),
      ("pack", .strct 1 1 [("W", .num .double 1 1 fun _ => 7), ("A", .num .double 1 1 fun _ => 5)])] ∧
    (s'.disk "d/ep002_000_b.mat".toList).isSome ∧ (s'.disk "d/ep002_err_0.mat".toList).isSome ∧
    s'.disk "d/ep001_000_f.mat".toList = none ∧ s'.disk "d/ep002_001_f.mat".toList = none ∧ s'.disk "d/ep000_err_0.mat".toList = none := by
  have ho : ∀ l, l ∈ [0, 1, 2] ↔ l < 3 := by intro l; simp only [List.mem_cons, List.not_mem_nil, or_false]; omega
  have hok : demoWish.Ok := ⟨fun h => (by cases h), fun _ x hx => (by simp [demoWish] at hx; omega)⟩
  have hbs : ∀ e bs, Seg.epoch e bs ∈ demoSegs → bs.length ≤ 1000 := by
    intro e bs h
    simp only [demoSegs, List.mem_cons, List.not_mem_nil, or_false, reduceCtorEq, false_or, Seg.epoch.injEq] at h
    rcases h with ⟨-, h⟩ | ⟨-, h⟩ <;> rw [h] <;> simp
  have hl := names_fit demoWish 2 (by omega) (mayWrite demoSt.bw id) demoNm demoSt.dir (by decide) true 3 demoSegs demo_fits hbs
  obtain ⟨s', h1, h2, -⟩ := training_files demoEnv (fun _ => rfl) demoWish hok 3 2 (by omega) [0, 1, 2] ho demoNm id demoSegs demo_fits demoSt ⟨rfl, rfl, rfl, rfl⟩ ⟨rfl, rfl, rfl, rfl⟩ rfl (by decide) hl
  have hw : demoWish.batch 2 1 2 0 := by simp [demoWish, Wish.batch, Wish.listed]
  have hb := fun d => batch_file demoWish 2 (mayWrite demoSt.bw id) demoNm demoSt.dir true demoSt.disk [.err 0 demoFwd, .epoch 0 [⟨demoFwd, demoBwd⟩], .err 0 demoFwd] [.err 0 demoFwd, .err 1 demoFwd] 1
    [⟨demoFwd, demoBwd⟩, ⟨demoFwd, demoBwd⟩] 0 ⟨demoFwd, demoBwd⟩ rfl rfl hw (by simp) d
  have he := err_file demoWish 2 (mayWrite demoSt.bw id) demoNm demoSt.dir true demoSt.disk [.err 0 demoFwd, .epoch 0 [⟨demoFwd, demoBwd⟩], .err 0 demoFwd, .epoch 1 [⟨demoFwd, demoBwd⟩, ⟨demoFwd, demoBwd⟩]]
    [.err 1 demoFwd] 0 demoFwd rfl ⟨.inl rfl, rfl, by simp [lastEp, demoWish, Wish.listed]⟩ (by
      intro pre' ps' post' h
      have : Seg.err 0 ps' ∈ [Seg.err 1 demoFwd] := by rw [h]; simp
      simp at this)
  have none_of : ∀ m, (∀ d, m ≠ batchFile demoSt.dir d 1 0) → m ≠ errFile demoSt.dir (some 1) 0 → s'.disk m = none := by
    intro m m1 m2
    rw [h2]
    apply Classical.byContradiction
    intro hm
    obtain ⟨pre, post, -, ⟨e, bs, k, d, g1, g2, g3, g4⟩ | ⟨set, ps, g1, g2, g3⟩⟩ := only_wanted demoWish 2 (mayWrite demoSt.bw id) demoNm demoSt.dir demoSt.active demoSt.disk demoSegs m hm
    · simp only [demoWish, Wish.batch, Wish.listed] at g3
      obtain ⟨rfl, g3⟩ := g3
      have : e = 1 := by
        simp only [List.mem_cons, List.not_mem_nil, or_false, exists_eq_left] at g3
        have hf := (demo_fits (.epoch e bs) (by rw [g1]; simp)).1
        omega
      subst this
      exact m1 d g4
    · obtain ⟨-, h0, h3⟩ := g2
      subst h0
      rcases he : lastEp none pre with _ | e
      · rw [he] at h3
        simp [demoWish] at h3
      · rw [he] at h3
        have : e = 1 := by
          simp only [demoWish, Wish.listed, List.mem_cons, List.not_mem_nil, or_false] at h3
          rcases h3 with h | ⟨h, -⟩ <;> omega
        subst this
        rw [he] at g3
        exact m2 g3
  refine ⟨s', h1, ?_, ?_, ?_, ?_, ?_, ?_⟩
  · rw [h2]
    exact (hb .f).trans (by rfl)
  · rw [h2]
    exact (congrArg Option.isSome (hb .b)).trans rfl
  · rw [h2]
    exact (congrArg Option.isSome he).trans rfl
  · exact none_of _ (fun d h => absurd (batchFile_inj (dir := "d".toList) (d := .f) (d' := d) (e := 0) (e' := 1) (k := 0) (k' := 0) h).2.1 (by omega)) (fun h => batch_ne_err (dir := "d".toList) (d := .f) (e := 0) (k := 0) h)
  · exact none_of _ (fun d h => absurd (batchFile_inj (dir := "d".toList) (d := .f) (d' := d) (e := 1) (e' := 1) (k := 1) (k' := 0) h).2.2 (by omega)) (fun h => batch_ne_err (dir := "d".toList) (d := .f) (e := 1) (k := 1) h)
  · exact none_of _ (fun d h => batch_ne_err (dir := "d".toList) (d := d) (e := 1) (k := 0) (e' := none) (s := 0) h.symm) (fun h => by
      have := (errFile_inj (dir := "d".toList) (e := none) (e' := some 1) (s := 0) (s' := 0) h).1
      cases this)

end Nntl.Dumper
