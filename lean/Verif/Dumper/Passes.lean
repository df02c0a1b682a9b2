import Verif.Dumper.Conds
import Verif.MatFile.ExProps
/-! What the calls of a pass do. -/
namespace Nntl.Dumper
open Nntl.MatFile

theorem run_append (E : Env) : ∀ (a b : List Call) (s : St), St.run E (a ++ b) s = (St.run E a s).bind (St.run E b)
  | [], b, s => rfl
  | c :: a, b, s => by
    simp only [List.cons_append, St.run]
    cases h : s.step E c with
    | ok s' => exact run_append E a b s'
    | abort => rfl
    | ub => rfl

theorem run_cons (E : Env) (c : Call) (cs : List Call) (s : St) : St.run E (c :: cs) s = (s.step E c).bind (St.run E cs) := rfl
/-- The values are stored under the names they are to be found under. -/
theorem says_items (n : Note) : n.items = n.says := by cases n <;> rfl

theorem run_nil (E : Env) (s : St) : St.run E [] s = .ok s := rfl

/-! ### Nothing is written -/

theorem dumpingIn_off {s : St} (h : s.dumping = false) (l : Option Nat) : s.dumpingIn l = .ok false := by
  unfold St.dumpingIn
  rw [h]; rfl

mutual
theorem part_off (E : Env) (d : Dir) : ∀ (p : Part) (s : St), s.dumping = false → St.run E (p.calls d) s = .ok s
  | .note n, s, h => by
    rw [Part.calls, run_cons, St.step, dumpingIn_off h]; rfl
  | .layer l body v, s, h => by
    have h1 : ({ s with stack := l :: s.stack } : St).dumping = false := h
    cases d
    · rw [Part.calls, run_cons, St.step]
      rw [dumpingIn_off h1, bind_ok, Bool.false_and, if_neg (by simp), bind_ok, run_append, all_off E .f body _ h1, bind_ok, run_cons, St.step, dumpingIn_off h1]
      rfl
    · rw [Part.calls, run_cons, St.step]
      rw [dumpingIn_off h1, bind_ok, Bool.false_and, if_neg (by simp), bind_ok, run_append, all_off E .b body _ h1, bind_ok, run_cons, St.step, dumpingIn_off h1]
      rfl
theorem all_off (E : Env) (d : Dir) : ∀ (ps : List Part) (s : St), s.dumping = false → St.run E (callsAll d ps) s = .ok s
  | [], s, _ => by rw [callsAll, run_nil]
  | p :: ps, s, h => by
    rw [callsAll, run_append, part_off E d p s h, bind_ok, all_off E d ps s h]
end

/-! ### Something is written -/

/-- Fields are added to a struct. -/
def addAll (fs : Vars) (items : List (String × Leaf)) : Vars := items.foldl (fun fs q => fput fs q.1 q.2.var) fs

/-- Structs are added to a file. -/
def addStructs (f : Vars) (l : List (String × List (String × Leaf))) : Vars := l.foldl (fun f p => fput f p.1 (.strct 1 1 (addAll [] p.2))) f

theorem asFile_eq (l : List (String × List (String × Leaf))) : asFile l = addStructs [] l := by
  simp only [asFile, asVars, addStructs, addAll, List.foldl_map]

/-- The inspector writes; `nm` and `ok` say how the layers are called and which ones are written. -/
structure On (L : Nat) (ok : Nat → Bool) (nm : Nat → String) (s : St) : Prop where
  on : s.dumping = true
  name : ∀ l, l < L → s.names[l]? = some (nm l)
  allow : ∀ l, l < L → s.bw.cond[l]? = some (ok l)

theorem On.stack {L : Nat} {ok : Nat → Bool} {nm : Nat → String} {s : St} (h : On L ok nm s) (st : List Nat) : On L ok nm { s with stack := st } := ⟨h.on, h.name, h.allow⟩
theorem On.arch {L : Nat} {ok : Nat → Bool} {nm : Nat → String} {s : St} (h : On L ok nm s) (a : ExSt) : On L ok nm { s with arch := a } := ⟨h.on, h.name, h.allow⟩

theorem dumpingIn_on {L : Nat} {ok : Nat → Bool} {nm : Nat → String} {s : St} (h : On L ok nm s) {l : Nat} (hl : l < L) : s.dumpingIn (some l) = .ok (ok l) := by
  unfold St.dumpingIn
  rw [h.on, if_pos rfl]
  simp only [Utils.Bw.allowed, h.allow l hl]

theorem put_at (E : Env) (hE : ∀ k, E.ok k = true) (n : String) (v : Leaf) (h : Vars) (t : List Vars) (ne : List NEntry) (s : St) (ha : At (h :: t) ne s.arch) :
    ∃ a, s.put E n v = .ok { s with arch := a } ∧ At (fput h n v.var :: t) ne a := by
  obtain ⟨a, h1, h2, -⟩ := run_at E hE (.item (.nvp n v)) (h :: t) ne s.arch ha (by simp [Act.Fine, Item.Named])
  simp only [Act.run, Option.some.injEq] at h1
  subst h1
  refine ⟨_, ?_, h2⟩
  rw [St.put]
  dsimp only
  rw [if_neg (by rw [show (save E (.nvp n v) s.arch.base).err = .success from h2.err]; simp)]

theorem putAll_at (E : Env) (hE : ∀ k, E.ok k = true) : ∀ (items : List (String × Leaf)) (h : Vars) (t : List Vars) (ne : List NEntry) (s : St), At (h :: t) ne s.arch →
    ∃ a, s.putAll E items = .ok { s with arch := a } ∧ At (addAll h items :: t) ne a
  | [], h, t, ne, s, ha => ⟨s.arch, rfl, ha⟩
  | (n, v) :: r, h, t, ne, s, ha => by
    obtain ⟨a, h1, h2⟩ := put_at E hE n v h t ne s ha
    obtain ⟨a', h3, h4⟩ := putAll_at E hE r _ t ne { s with arch := a } h2
    exact ⟨a', by rw [St.putAll, h1, bind_ok, h3], h4⟩

theorem structBegin_at (E : Env) (hE : ∀ k, E.ok k = true) (hs : List Vars) (hl : hs.length ≤ 1) (f : Vars) (ne : List NEntry) (s : St) (ha : At (hs ++ [f]) ne s.arch) :
    ∃ a old, s.structBegin E = .ok { s with arch := a } ∧ old.toList = hs ∧ At [[], f] (⟨s.layerName, old, false⟩ :: ne) a := by
  obtain ⟨old, h1, h2, h3⟩ := begin_at E hE s.layerName false true _ ne s.arch ha (by simp)
  have ht : target true (hs ++ [f]) = (hs, [f]) := by
    rcases hs with _ | ⟨h, _ | ⟨h', t⟩⟩
    · rfl
    · rfl
    · simp at hl
  rw [ht] at h1 h2
  refine ⟨(begin' E s.layerName false true s.arch).1, old, ?_, h1, ?_⟩
  · rw [St.structBegin]
    rw [if_neg (by rw [h3]; simp)]
  · exact h2

theorem structEnd_at (E : Env) (hE : ∀ k, E.ok k = true) (n : String) (old : Option Vars) (own f : Vars) (ne : List NEntry) (s : St)
    (ha : At [own, f] (⟨n, old, false⟩ :: ne) s.arch) :
    ∃ a, s.structEnd E = .ok { s with arch := a } ∧ At (old.toList ++ [fput f n (.strct 1 1 own)]) ne a := by
  obtain ⟨a, h1, h2⟩ := end_at E hE n old own [f] ne s.arch (by simp) ha
  refine ⟨a, ?_, h2⟩
  rw [St.structEnd, h1]
  dsimp only
  rw [if_neg (by simp)]

/-- The struct of the layer `cur`, if it is written, gets the fields. -/
def addOwn (ok : Nat → Bool) (cur : Option Nat) (hs : List Vars) (items : Nat → List (String × Leaf)) : List Vars := match cur with
  | some c => if ok c then hs.map fun h => addAll h (items c) else hs
  | none => hs

theorem addOwn_length (ok : Nat → Bool) (cur : Option Nat) (hs : List Vars) (items : Nat → List (String × Leaf)) : (addOwn ok cur hs items).length = hs.length := by
  rcases cur with _ | c
  · rfl
  · simp only [addOwn]; split <;> simp

theorem addOwn_append (ok : Nat → Bool) (cur : Option Nat) (hs : List Vars) (i j : Nat → List (String × Leaf)) :
    addOwn ok cur (addOwn ok cur hs i) j = addOwn ok cur hs fun c => i c ++ j c := by
  rcases cur with _ | c
  · rfl
  · simp only [addOwn]
    split
    · rw [List.map_map]
      congr 1
      funext h
      simp [addAll, List.foldl_append]
    · rfl

theorem addStructs_append (f : Vars) (a b : List (String × List (String × Leaf))) : addStructs (addStructs f a) b = addStructs f (a ++ b) := by
  simp [addStructs, List.foldl_append]

theorem outer_iff (l : Nat) (st : List Nat) (s : St) : ({ s with stack := l :: st } : St).outermost = decide (st.head? ≠ some l) := by
  rcases st with _ | ⟨a, st⟩
  · rfl
  · simp only [St.outermost, List.head?_cons, ne_eq, Option.some.injEq]
    by_cases h : l = a
    · subst h; simp
    · have h' : ¬ a = l := fun h' => h h'.symm
      simp [h, h']

/-- Where a layer may speak: inside of a layer, and then the struct on top of the archive is the layer's, if it is written. -/
structure Place (L : Nat) (ok : Nat → Bool) (hs : List Vars) (s : St) : Prop where
  few : hs.length ≤ 1
  own : ∀ c, s.stack.head? = some c → c < L ∧ (ok c = true → hs.length = 1)

mutual
theorem part_on (E : Env) (hE : ∀ k, E.ok k = true) (L : Nat) (ok : Nat → Bool) (nm : Nat → String) (d : Dir) : ∀ (p : Part) (s : St) (hs : List Vars) (f : Vars) (ne : List NEntry),
    On L ok nm s → Place L ok hs s → p.Fits L → (s.stack = [] → ∃ l b v, p = .layer l b v) → At (hs ++ [f]) ne s.arch →
    ∃ a, St.run E (p.calls d) s = .ok { s with arch := a } ∧
      At (addOwn ok s.stack.head? hs (fun c => p.own c) ++ [addStructs f (p.structs ok nm d s.stack.head?)]) ne a
  | .note n, s, hs, f, ne, ho, hp, _, hq, ha => by
    obtain ⟨c, hst⟩ : ∃ c, s.stack.head? = some c := by
      cases hst : s.stack with
      | nil => obtain ⟨l, b, v, h⟩ := hq hst; cases h
      | cons c st => exact ⟨c, rfl⟩
    have hc := hp.own c hst
    rw [Part.calls, run_cons, St.step, hst, dumpingIn_on ho hc.1, bind_ok]
    cases hok : ok c
    · refine ⟨s.arch, rfl, ?_⟩
      simpa [addOwn, hok, Part.structs, addStructs] using ha
    · rcases hs with _ | ⟨h, _ | _⟩
      · have := hc.2 hok; simp at this
      · obtain ⟨a, h1, h2⟩ := putAll_at E hE n.says h [f] ne s ha
        refine ⟨a, by rw [if_pos rfl, says_items, h1]; rfl, ?_⟩
        simpa [addOwn, hok, Part.structs, addStructs, Part.own] using h2
      · have := hc.2 hok; simp at this
  | .layer l body v, s, hs, f, ne, ho, hp, hf, hq, ha => by
    rw [Part.Fits] at hf
    have ho1 := ho.stack (l :: s.stack)
    have hname : ∀ a : ExSt, ({ s with stack := l :: s.stack, arch := a } : St).layerName = nm l := by
      intro a
      simp [St.layerName, ho.name l hf.1]
    have hne : l :: s.stack ≠ [] := by simp
    by_cases hcase : ok l = true ∧ s.stack.head? ≠ some l
    · obtain ⟨hok, hout⟩ := hcase
      have hown : addOwn ok s.stack.head? hs (fun c => (Part.layer l body v).own c) = hs := by
        rcases hh : s.stack.head? with _ | c
        · rfl
        · rw [hh] at hout
          have : l ≠ c := fun h => hout (by rw [h])
          simp only [addOwn, Part.own, if_neg this]
          split
          · simp [addAll]
          · rfl
      have hou : ({ s with stack := l :: s.stack } : St).outermost = true := by rw [outer_iff]; simpa using hout
      obtain ⟨a1, old, b1, b2, b3⟩ := structBegin_at E hE hs hp.few f ne { s with stack := l :: s.stack } ha
      have hn : ({ s with stack := l :: s.stack } : St).layerName = nm l := hname s.arch
      rw [hn] at b3
      cases d with
      | f =>
        obtain ⟨a2, c1, c2⟩ := all_on E hE L ok nm .f body { s with stack := l :: s.stack, arch := a1 } [[]] f _ (ho1.arch a1)
          ⟨by simp, by intro c hc; simp only [List.head?_cons, Option.some.injEq] at hc; subst hc; exact ⟨hf.1, fun _ => rfl⟩⟩ hf.2 (by simp) b3
        simp only [List.head?_cons, addOwn, hok, if_true, List.map_cons, List.map_nil] at c2
        obtain ⟨a3, d1, d2⟩ := put_at E hE "A" v _ _ _ { s with stack := l :: s.stack, arch := a2 } c2
        obtain ⟨a4, e1, e2⟩ := structEnd_at E hE (nm l) old _ _ ne { s with stack := l :: s.stack, arch := a3 } d2
        refine ⟨a4, ?_, ?_⟩
        · rw [Part.calls, run_cons, St.step]
          rw [dumpingIn_on ho1 hf.1, bind_ok, hok, hou, Bool.and_self, if_pos rfl, b1, bind_ok, run_append, c1, bind_ok, run_cons, St.step]
          dsimp only [List.head?_cons]
          rw [dumpingIn_on (ho1.arch a2) hf.1, bind_ok, hok, show ({ s with stack := l :: s.stack, arch := a2 } : St).outermost = true from hou, Bool.and_self, if_pos rfl, d1,
            bind_ok, e1, bind_ok]
          rfl
        · rw [hown, Part.structs, if_pos ⟨hok, hout⟩, ← addStructs_append]
          rw [b2] at e2
          have : addStructs (addStructs f (structsAll ok nm Dir.f (some l) body)) [(nm l, fields .f (ownAll l body) v)] =
              fput (addStructs f (structsAll ok nm Dir.f (some l) body)) (nm l) (.strct 1 1 (fput (addAll [] (ownAll l body)) "A" v.var)) := by
            simp [addStructs, fields, addAll]
          rw [this]
          exact e2
      | b =>
        obtain ⟨a2, d1, d2⟩ := put_at E hE "dLdA" v _ _ _ { s with stack := l :: s.stack, arch := a1 } b3
        obtain ⟨a3, c1, c2⟩ := all_on E hE L ok nm .b body { s with stack := l :: s.stack, arch := a2 } [fput [] "dLdA" v.var] f _ (ho1.arch a2)
          ⟨by simp, by intro c hc; simp only [List.head?_cons, Option.some.injEq] at hc; subst hc; exact ⟨hf.1, fun _ => rfl⟩⟩ hf.2 (by simp) d2
        simp only [List.head?_cons, addOwn, hok, if_true, List.map_cons, List.map_nil] at c2
        obtain ⟨a4, e1, e2⟩ := structEnd_at E hE (nm l) old _ _ ne { s with stack := l :: s.stack, arch := a3 } c2
        refine ⟨a4, ?_, ?_⟩
        · rw [Part.calls, run_cons, St.step]
          rw [dumpingIn_on ho1 hf.1, bind_ok, hok, hou, Bool.and_self, if_pos rfl, b1, bind_ok, d1, bind_ok, run_append, c1, bind_ok, run_cons, St.step]
          dsimp only [List.head?_cons]
          rw [dumpingIn_on (ho1.arch a3) hf.1, bind_ok, hok, show ({ s with stack := l :: s.stack, arch := a3 } : St).outermost = true from hou, Bool.and_self, if_pos rfl, e1, bind_ok]
          rfl
        · rw [hown, Part.structs, if_pos ⟨hok, hout⟩, ← addStructs_append]
          rw [b2] at e2
          exact e2
    · have hno : (ok l && ({ s with stack := l :: s.stack } : St).outermost) = false := by
        rw [outer_iff]
        by_cases h1 : ok l = true
        · have : s.stack.head? = some l := Classical.byContradiction fun h => hcase ⟨h1, h⟩
          simp [this]
        · simp [h1]
      have hpl : Place L ok hs { s with stack := l :: s.stack } := by
        refine ⟨hp.few, ?_⟩
        intro c hc
        simp only [List.head?_cons, Option.some.injEq] at hc
        subst hc
        refine ⟨hf.1, fun h1 => ?_⟩
        have : s.stack.head? = some l := Classical.byContradiction fun h => hcase ⟨h1, h⟩
        exact (hp.own l this).2 h1
      obtain ⟨a, c1, c2⟩ := all_on E hE L ok nm d body { s with stack := l :: s.stack } hs f ne ho1 hpl hf.2 (by simp) ha
      refine ⟨a, ?_, ?_⟩
      · cases d <;>
        · rw [Part.calls, run_cons, St.step]
          rw [dumpingIn_on ho1 hf.1, bind_ok, hno, if_neg (by simp), bind_ok, run_append, c1, bind_ok, run_cons, St.step]
          dsimp only [List.head?_cons]
          rw [dumpingIn_on (ho1.arch a) hf.1, bind_ok, show (ok l && ({ s with stack := l :: s.stack, arch := a } : St).outermost) = false from hno, if_neg (by simp), bind_ok]
          rfl
      · rw [Part.structs, if_neg hcase, List.append_nil]
        have : addOwn ok s.stack.head? hs (fun c => (Part.layer l body v).own c) = addOwn ok (some l) hs (fun c => ownAll c body) := by
          by_cases h1 : ok l = true
          · have h2 : s.stack.head? = some l := Classical.byContradiction fun h => hcase ⟨h1, h⟩
            rw [h2]
            simp [addOwn, h1, Part.own]
          · simp only [addOwn, h1, Bool.false_eq_true, if_false]
            rcases hh : s.stack.head? with _ | c
            · rfl
            · simp only [Part.own]
              split
              · have hne : l ≠ c := by
                  intro h
                  subst h
                  exact h1 (by assumption)
                simp [if_neg hne, addAll]
              · rfl
        rw [this]
        exact c2
theorem all_on (E : Env) (hE : ∀ k, E.ok k = true) (L : Nat) (ok : Nat → Bool) (nm : Nat → String) (d : Dir) : ∀ (ps : List Part) (s : St) (hs : List Vars) (f : Vars) (ne : List NEntry),
    On L ok nm s → Place L ok hs s → FitsAll L ps → (s.stack = [] → ∀ p ∈ ps, ∃ l b v, p = .layer l b v) → At (hs ++ [f]) ne s.arch →
    ∃ a, St.run E (callsAll d ps) s = .ok { s with arch := a } ∧
      At (addOwn ok s.stack.head? hs (fun c => ownAll c ps) ++ [addStructs f (structsAll ok nm d s.stack.head? ps)]) ne a
  | [], s, hs, f, ne, ho, hp, _, hq, ha => by
    refine ⟨s.arch, by rw [callsAll, run_nil], ?_⟩
    have : addOwn ok s.stack.head? hs (fun c => ownAll c []) = hs := by
      rcases s.stack.head? with _ | c
      · rfl
      · simp [addOwn, ownAll, addAll]
    rw [this, structsAll]
    exact ha
  | p :: ps, s, hs, f, ne, ho, hp, hf, hq, ha => by
    rw [FitsAll] at hf
    obtain ⟨a, h1, h2⟩ := part_on E hE L ok nm d p s hs f ne ho hp hf.1 (fun h => hq h p (List.mem_cons_self ..)) ha
    obtain ⟨a', h3, h4⟩ := all_on E hE L ok nm d ps { s with arch := a } _ _ ne (ho.arch a) ⟨by rw [addOwn_length]; exact hp.few, by
      intro c hc
      rw [addOwn_length]
      exact hp.own c hc⟩ hf.2 (fun h q hq' => hq h q (List.mem_cons_of_mem _ hq')) h2
    refine ⟨a', by rw [callsAll, run_append, h1, bind_ok, h3], ?_⟩
    rw [structsAll, ← addStructs_append]
    have : addOwn ok s.stack.head? hs (fun c => ownAll c (p :: ps)) = addOwn ok s.stack.head? (addOwn ok s.stack.head? hs (fun c => p.own c)) (fun c => ownAll c ps) := by
      rw [addOwn_append]
      simp only [ownAll]
    rw [this]
    exact h4
end

end Nntl.Dumper
