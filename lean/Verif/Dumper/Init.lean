import Verif.Dumper.Session
/-! The beginning of a training, and the files of a training one by one. -/
namespace Nntl.Dumper
open Nntl.MatFile

/-- The list names the layer. -/
def isNamed (bw : Utils.Bw.St) (ty : Nat → Nat) (l : Nat) : Bool := bw.types.any (fun e => e == ty l) || bw.idxs.any (fun e => e == l)

theorem contains_any (l : List Nat) (x : Nat) : l.contains x = l.any (fun e => e == x) := by
  rw [Bool.eq_iff_iff]
  simp

theorem mayWrite_eq (bw : Utils.Bw.St) (ty : Nat → Nat) (l : Nat) : mayWrite bw ty l = if isNamed bw ty l then bw.white else !bw.white := by
  unfold mayWrite isNamed
  rw [contains_any, contains_any]
  cases bw.white <;> generalize (_ || _) = b <;> cases b <;> rfl

theorem layers_run (E : Env) (L : Nat) (nm : Nat → String) (ty : Nat → Nat) : ∀ (order : List Nat) (s : St), (∀ l ∈ order, l < L) → s.names.length = L → s.bw.cond.length = L →
    ∃ N C, St.run E (order.map fun l => .initLayer l (nm l) (ty l)) s = .ok { s with names := N, bw := { s.bw with cond := C } } ∧
      (∀ l, l < L → N[l]? = if l ∈ order then some (nm l) else s.names[l]?) ∧
      (∀ l, l < L → C[l]? = if l ∈ order ∧ isNamed s.bw ty l = true then some s.bw.white else s.bw.cond[l]?)
  | [], s, _, h1, h2 => ⟨s.names, s.bw.cond, rfl, fun l _ => by simp, fun l _ => by simp⟩
  | a :: order, s, h, h1, h2 => by
    have ha : a < L := h a (List.mem_cons_self ..)
    let C' := if isNamed s.bw ty a then s.bw.cond.set a s.bw.white else s.bw.cond
    have hs : s.step E (.initLayer a (nm a) (ty a)) = .ok { s with names := s.names.set a (nm a), bw := { s.bw with cond := C' } } := by
      rw [St.step, St.initLayer, if_pos (by omega)]
      have : Utils.Bw.updateLayer false s.bw a (ty a) = .ok { s.bw with cond := C' } := by
        show (if (false && decide (s.bw.cond.length ≤ a)) = true then _ else if isNamed s.bw ty a = true then _ else _) = _
        rw [if_neg (by simp)]
        by_cases hn : isNamed s.bw ty a = true
        · simp only [C', if_pos hn, if_pos (show a < s.bw.cond.length by omega)]
        · simp only [C', if_neg hn]
      rw [this]
    obtain ⟨N, C, g1, g2, g3⟩ := layers_run E L nm ty order { s with names := s.names.set a (nm a), bw := { s.bw with cond := C' } } (fun l hl => h l (List.mem_cons_of_mem _ hl))
      (by simpa using h1) (by simp only [C']; split <;> simpa using h2)
    refine ⟨N, C, ?_, ?_, ?_⟩
    · rw [List.map_cons, run_cons, hs, bind_ok, g1]
    · intro l hl
      rw [g2 l hl]
      dsimp only
      rw [List.getElem?_set, h1]
      by_cases e : a = l
      · subst e; simp [ha]
      · have e' : ¬ l = a := fun h => e h.symm
        simp [e, e']
    · intro l hl
      rw [g3 l hl]
      have hi : isNamed { s.bw with cond := C' } ty l = isNamed s.bw ty l := rfl
      dsimp only
      rw [hi]
      by_cases e : a = l
      · subst e
        simp only [C']
        by_cases hn : isNamed s.bw ty a = true
        · simp [hn, h2, ha]
        · simp [hn]
      · have e' : ¬ l = a := fun h => e h.symm
        have hc : C'[l]? = s.bw.cond[l]? := by
          simp only [C']
          split
          · rw [List.getElem?_set, if_neg e]
          · rfl
        rw [hc]
        simp [e']

theorem init_run (E : Env) {w : Wish} (hw : w.Ok) {T L : Nat} (hT : 0 < T) (order : List Nat) (ho : ∀ l ∈ order, l < L) (nm : Nat → String) (ty : Nat → Nat) (s : St) (hc : s.cond.Has w)
    (ha : Closed s.arch) (hst : s.stack = []) :
    ∃ s', St.run E (initCalls L T order nm ty) s = .ok s' ∧ s'.disk = s.disk ∧
      Calm w T L (fun l => if l ∈ order then mayWrite s.bw ty l else !s.bw.white) (fun l => if l ∈ order then nm l else "") s.dir none none s.active s' := by
  obtain ⟨c', h1, h2, -⟩ := init_ready w hw T hT s.cond hc
  obtain ⟨N, C, g1, g2, g3⟩ := layers_run E L nm ty order
    { s with doDump := false, epoch := -1, batch := -1, names := List.replicate L "", bw := { s.bw with cond := List.replicate L (!s.bw.white) }, cond := c' } ho
    (by simp) (by simp)
  refine ⟨{ s with doDump := false, epoch := -1, batch := -1, names := N, bw := { s.bw with cond := C }, cond := c' }, ?_, rfl, ?_⟩
  · rw [initCalls, run_cons, St.step, St.initNnet, h1, bind_ok, bind_ok, g1]
  · refine ⟨ha, hst, h2, rfl, rfl, rfl, ?_, ?_⟩
    · intro l hl
      rw [g2 l hl]
      split <;> simp [hl]
    · intro l hl
      rw [g3 l hl]
      have hi : isNamed { s.bw with cond := List.replicate L (!s.bw.white) } ty l = isNamed s.bw ty l := rfl
      dsimp only
      rw [hi, mayWrite_eq]
      by_cases e : l ∈ order <;> by_cases e' : isNamed s.bw ty l = true <;> simp [e, e', hl]

/-! ### The files of a training -/

theorem written_ne (fs : List (List Char × Vars)) (m : List Char) (h : ∀ p ∈ fs, p.1 ≠ m) (d : List Char → Option Vars) : written d fs m = d m := by
  induction fs generalizing d with
  | nil => rfl
  | cons p fs ih =>
    show written (fun m => if m = p.1 then some p.2 else d m) fs m = d m
    rw [ih (fun q hq => h q (List.mem_cons_of_mem _ hq)), if_neg (fun e => h p (List.mem_cons_self ..) e.symm)]

theorem written_last (a b : List (List Char × Vars)) (n : List Char) (v : Vars) (h : ∀ p ∈ b, p.1 ≠ n) (d : List Char → Option Vars) : written d (a ++ (n, v) :: b) n = some v := by
  rw [written_append]
  show written (fun m => if m = n then some v else written d a m) b n = some v
  rw [written_ne b n h, if_pos rfl]

theorem files_append (w : Wish) (T : Nat) (ok : Nat → Bool) (nm : Nat → String) (dir : List Char) : ∀ (a b : List Seg) (on : Bool) (e : Option Nat),
    files w T ok nm dir on e (a ++ b) = files w T ok nm dir on e a ++ files w T ok nm dir (lastOn on a) (lastEp e a) b
  | [], b, on, e => by simp [files, lastOn, lastEp]
  | .epoch i bs :: a, b, on, e => by simp only [List.cons_append, files, lastOn, lastEp, files_append w T ok nm dir a b, List.append_assoc]
  | .err s ps :: a, b, on, e => by simp only [List.cons_append, files, lastOn, lastEp, files_append w T ok nm dir a b, List.append_assoc]
  | .turn o :: a, b, on, e => by simp only [List.cons_append, files, lastOn, lastEp, files_append w T ok nm dir a b]

theorem mem_batchFiles {w : Wish} {T : Nat} {ok : Nat → Bool} {nm : Nat → String} {dir : List Char} {e n : Nat} : ∀ {bs : List Batch} {k0 : Nat} {p : List Char × Vars}, p ∈ batchFiles w T ok nm dir e n k0 bs →
    ∃ k b d, bs[k]? = some b ∧ w.batch T e n (k0 + k) ∧ p = (batchFile dir d e (k0 + k), contents ok nm d (b.pass d))
  | [], _, _, h => by simp [batchFiles] at h
  | b :: bs, k0, p, h => by
    rw [batchFiles, List.mem_append] at h
    rcases h with h | h
    · split at h
      · rename_i hw
        simp only [List.mem_cons, List.not_mem_nil, or_false] at h
        rcases h with h | h
        · exact ⟨0, b, .f, rfl, hw, h⟩
        · exact ⟨0, b, .b, rfl, hw, h⟩
      · simp at h
    · obtain ⟨k, b', d, h1, h2, h3⟩ := mem_batchFiles h
      rw [show k0 + 1 + k = k0 + (k + 1) by omega] at h2 h3
      exact ⟨k + 1, b', d, h1, h2, h3⟩

/-- Every file is one of a batch or one of a calculation of the error. -/
theorem mem_files {w : Wish} {T : Nat} {ok : Nat → Bool} {nm : Nat → String} {dir : List Char} : ∀ {segs : List Seg} {on : Bool} {e : Option Nat} {p : List Char × Vars}, p ∈ files w T ok nm dir on e segs →
    ∃ pre post, lastOn on pre = true ∧
      ((∃ i bs k b d, segs = pre ++ .epoch i bs :: post ∧ bs[k]? = some b ∧ w.batch T i bs.length k ∧ p = (batchFile dir d i k, contents ok nm d (b.pass d))) ∨
        ∃ set ps, segs = pre ++ .err set ps :: post ∧ w.err T (lastEp e pre) set ∧ p = (errFile dir (lastEp e pre) set, contents ok nm .f ps))
  | [], _, _, _, h => by simp [files] at h
  | .epoch i bs :: r, on, e, p, h => by
    rw [files, List.mem_append] at h
    rcases h with h | h
    · split at h
      · rename_i hon
        obtain ⟨k, b, d, h1, h2, h3⟩ := mem_batchFiles h
        rw [Nat.zero_add] at h2 h3
        exact ⟨[], r, hon, .inl ⟨i, bs, k, b, d, rfl, h1, h2, h3⟩⟩
      · simp at h
    · obtain ⟨pre, post, h1, h2⟩ := mem_files h
      refine ⟨.epoch i bs :: pre, post, h1, ?_⟩
      rcases h2 with ⟨i', bs', k, b, d, h2, h3⟩ | ⟨set, ps, h2, h3⟩
      · exact .inl ⟨i', bs', k, b, d, by rw [h2]; rfl, h3⟩
      · exact .inr ⟨set, ps, by rw [h2]; rfl, h3⟩
  | .err s ps :: r, on, e, p, h => by
    rw [files, List.mem_append] at h
    rcases h with h | h
    · split at h
      · rename_i hon
        simp only [List.mem_cons, List.not_mem_nil, or_false] at h
        exact ⟨[], r, hon.1, .inr ⟨s, ps, rfl, hon.2, h⟩⟩
      · simp at h
    · obtain ⟨pre, post, h1, h2⟩ := mem_files h
      refine ⟨.err s ps :: pre, post, h1, ?_⟩
      rcases h2 with ⟨i', bs', k, b, d, h2, h3⟩ | ⟨set, ps', h2, h3⟩
      · exact .inl ⟨i', bs', k, b, d, by rw [h2]; rfl, h3⟩
      · exact .inr ⟨set, ps', by rw [h2]; rfl, h3⟩
  | .turn o :: r, on, e, p, h => by
    rw [files] at h
    obtain ⟨pre, post, h1, h2⟩ := mem_files h
    refine ⟨.turn o :: pre, post, h1, ?_⟩
    rcases h2 with ⟨i', bs', k, b, d, h2, h3⟩ | ⟨set, ps', h2, h3⟩
    · exact .inl ⟨i', bs', k, b, d, by rw [h2]; rfl, h3⟩
    · exact .inr ⟨set, ps', by rw [h2]; rfl, h3⟩

theorem batchFiles_split {w : Wish} {T : Nat} {ok : Nat → Bool} {nm : Nat → String} {dir : List Char} {e n : Nat} : ∀ {bs : List Batch} {k0 k : Nat} {b : Batch}, bs[k]? = some b → w.batch T e n (k0 + k) →
    ∃ x y, batchFiles w T ok nm dir e n k0 bs = x ++ (batchFile dir .f e (k0 + k), contents ok nm .f b.fwd) :: (batchFile dir .b e (k0 + k), contents ok nm .b b.bwd) :: y ∧
      ∀ p ∈ y, ∃ d k', k0 + k < k' ∧ p.1 = batchFile dir d e k'
  | [], k0, k, b, h, _ => by simp at h
  | b' :: bs, k0, 0, b, h, hw => by
    simp only [List.getElem?_cons_zero, Option.some.injEq] at h
    subst h
    refine ⟨[], batchFiles w T ok nm dir e n (k0 + 1) bs, ?_, ?_⟩
    · rw [Nat.add_zero] at hw
      rw [batchFiles, if_pos hw]
      rfl
    · intro p hp
      obtain ⟨j, b, d, -, -, h3⟩ := mem_batchFiles hp
      exact ⟨d, k0 + 1 + j, by omega, by rw [h3]⟩
  | b' :: bs, k0, k + 1, b, h, hw => by
    rw [List.getElem?_cons_succ] at h
    rw [show k0 + (k + 1) = k0 + 1 + k by omega] at hw ⊢
    obtain ⟨x, y, h1, h2⟩ := batchFiles_split (ok := ok) (nm := nm) (dir := dir) h hw
    generalize hx : batchFiles w T ok nm dir e n k0 (b' :: bs) = z
    rw [batchFiles, h1, ← List.append_assoc] at hx
    exact ⟨_, y, hx.symm, h2⟩

/-! ### Variables -/

theorem fget_fput (fs : Vars) (k k' : String) (v : Var) : fget (fput fs k v) k' = if k = k' then some v else fget fs k' := by
  induction fs with
  | nil => simp [fput, fget]
  | cons p fs ih =>
    obtain ⟨n, u⟩ := p
    rw [fput]
    by_cases h : n = k
    · subst h
      rw [if_pos rfl, fget]
      by_cases h2 : n = k'
      · simp [h2]
      · simp [h2, fget]
    · rw [if_neg h, fget, fget, ih]
      by_cases h2 : n = k'
      · subst h2
        have h' : ¬ k = n := fun e => h e.symm
        simp [h']
      · simp [h2]

theorem asVars_get (l : List (String × Var)) (n : String) : fget (asVars l) n = lastOf l n := by
  have key : ∀ (l : List (String × Var)) (f : Vars), fget (l.foldl (fun fs p => fput fs p.1 p.2) f) n = (lastOf l n).or (fget f n) := by
    intro l
    induction l with
    | nil => intro f; rfl
    | cons p l ih =>
      intro f
      rw [List.foldl_cons, ih, fget_fput]
      unfold lastOf
      by_cases h : p.1 = n
      · rw [List.filter_cons_of_pos (by simpa using h), if_pos h]
        rw [List.getLast?_cons]
        generalize (l.filter fun p => decide (p.1 = n)).getLast? = o
        cases o <;> rfl
      · rw [List.filter_cons_of_neg (by simpa using h), if_neg h]
  rw [asVars, key]
  simp [fget]

theorem lastOf_map {α β : Type} (g : α → β) (l : List (String × α)) (n : String) : lastOf (l.map fun p => (p.1, g p.2)) n = (lastOf l n).map g := by
  unfold lastOf
  rw [List.filter_map, List.getLast?_map]
  simp only [Function.comp_def, Option.map_map]

theorem asFile_get (l : List (String × List (String × Leaf))) (n : String) :
    fget (asFile l) n = (lastOf l n).map fun fs => .strct 1 1 (asVars (fs.map fun q => (q.1, q.2.var))) := by
  rw [asFile, asVars_get, lastOf_map (fun x : List (String × Leaf) => Var.strct 1 1 (asVars (x.map fun q => (q.1, q.2.var))))]

theorem fields_get (l : List (String × Leaf)) (n : String) : fget (asVars (l.map fun q => (q.1, q.2.var))) n = (lastOf l n).map Leaf.var := by
  rw [asVars_get, lastOf_map]

end Nntl.Dumper
