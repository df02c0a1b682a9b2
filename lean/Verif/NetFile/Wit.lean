import Verif.NetFile.Props
/-! C146, C147: what is false of the code, and concrete networks. -/
namespace Nntl.NetFile
open Nntl.Matrix Nntl.MatFile
set_option linter.unusedSimpArgs false

theorem loadLyrs_append {T : Cls} (E : Env) : ∀ (a b : List (Lyr T)) (s : St),
    loadLyrs E (a ++ b) s = ((loadLyrs E a s).1 ++ (loadLyrs E b (loadLyrs E a s).2).1, (loadLyrs E b (loadLyrs E a s).2).2)
  | [], b, s => by simp [loadLyrs]
  | l :: a, b, s => by simp [loadLyrs, loadLyrs_append E a b]

theorem loadLyr_missing {T : Cls} (E : Env) (x : Lyr T) (s : St) (hf : s.file.isSome = true) (h : fget (scope s) x.item.name = none) :
    (loadLyr E x s).1 = x ∧ (loadLyr E x s).2.err ≠ .success := by
  rw [item_name] at h
  cases x with
  | plain b i =>
    rcases (inStruct_any E (NetFile.label b i) () (fun s => ((), s)) s hf (fun s1 _ => Kept.refl s1)).2 with h1 | ⟨fs, k, -, -, h1, -⟩
    · exact ⟨rfl, h1.2⟩
    · simp only [Lyr.base, Lyr.idx] at h; rw [h] at h1; cases h1
  | fc b i n c w ini =>
    rcases (inStruct_any E (NetFile.label b i) (w, ini) (fun s => loadWeights E n c w ini s) s hf
      (fun s1 h => (loadWeights_any E n c w ini s1 h).1)).2 with h1 | ⟨fs, k, -, -, h1, -⟩
    · simp only [loadLyr, h1.1]; exact ⟨trivial, h1.2⟩
    · simp only [Lyr.base, Lyr.idx] at h; rw [h] at h1; cases h1
  | pack b i l =>
    rcases (inStruct_any E (NetFile.label b i) l (fun s => loadLyrs E l s) s hf (fun s1 h => (loadLyrs_any E l s1 h).1)).2 with
      h1 | ⟨fs, k, -, -, h1, -⟩
    · simp only [loadLyr, h1.1]; exact ⟨trivial, h1.2⟩
    · simp only [Lyr.base, Lyr.idx] at h; rw [h] at h1; cases h1
  | tile b i t l =>
    have hk : ∀ s1 : St, s1.file.isSome = true → Kept s1 (asNvp "m_tiles_count" t (loadScalar E .int32 t) s1).2 := by
      intro s1 h
      rcases asNvp_any "m_tiles_count" t (loadScalar E .int32 t) s1 h with ⟨-, -, h3⟩ | ⟨-, -, h3⟩
      · exact h3
      · rw [h3]; exact (loadScalar_any E "m_tiles_count" .int32 t { s1 with cur := some "m_tiles_count" } rfl h).1
    rcases (inStruct_any E (NetFile.label b i) (t, l) (fun s =>
        let p := asNvp "m_tiles_count" t (loadScalar E .int32 t) s
        let q := loadLyr E l p.2
        ((p.1, q.1), q.2)) s hf
      (fun s1 h => (hk s1 h).trans (loadLyr_any E l _ (by rw [(hk s1 h).1]; exact h)).1)).2 with h1 | ⟨fs, k, -, -, h1, -⟩
    · simp only [loadLyr, h1.1]; exact ⟨trivial, h1.2⟩
    · simp only [Lyr.base, Lyr.idx] at h; rw [h] at h1; cases h1

/-- **C147, false of the code: after the answer `false` the network is not as it was.** A file with the weights of a network is read into
one that has one more layer on top. The answer is `false`; all other layers have got the weights from the file. -/
theorem false_but_overwritten {T : Cls} (E E' : Env) (hE' : ∀ k, E'.ok k = true) (f : Vars) (lost disk : Option Vars) (net net' : List (Lyr T))
    (x : Lyr T) (hready : Ready net) (hidx : (indices (net ++ [x])).Nodup) (hw : writeWeights E lost disk net = (some f, true, true))
    (harch : SameArch net net') :
    ∃ r, readWeights E' (some f) (net' ++ [x]) = (r ++ [x], false) ∧ SameWeights net r := by
  have hsplit : ∀ (a : List (Lyr T)), indices (a ++ [x]) = indices a ++ x.indices := by
    intro a
    induction a with
    | nil => simp [indices]
    | cons l a ih => simp [indices, ih, List.append_assoc]
  rw [hsplit, List.nodup_append] at hidx
  obtain ⟨i1, -, i3⟩ := hidx
  obtain ⟨p1, p2⟩ := weights_survive E f lost disk net hready i1 hw E' net' harch
  have hcont := written_is E f lost disk net i1 hw
  have hop : St.open E' false .read (some f) .init = (⟨some f, none, [], .success, 1⟩, some f) := by
    simp [St.open, St.init, hE', St.next]
  have hr : ∀ n : List (Lyr T), readWeights E' (some f) n =
      ((loadLyrs E' n ⟨some f, none, [], .success, 1⟩).1, decide ((loadLyrs E' n ⟨some f, none, [], .success, 1⟩).2.err = .success)) := by
    intro n
    simp [readWeights, hop]
  have h1 := p2 hE'
  have h2 := p1 h1
  rw [hr] at h1 h2
  simp only [decide_eq_true_eq] at h1 h2
  obtain ⟨k1, -, -⟩ := loadLyrs_any E' net' ⟨some f, none, [], .success, 1⟩ rfl
  have hmiss : fget (scope (loadLyrs E' net' ⟨some f, none, [], .success, 1⟩).2) x.item.name = none := by
    rw [kept_scope k1]
    show fget f x.item.name = none
    rw [hcont, putAll_other]
    · rfl
    · intro j hj e
      obtain ⟨l, hl1, rfl⟩ := mem_items net j hj
      rw [item_name, item_name] at e
      exact i3 _ (indices_mem net l hl1) _ (idx_mem x) (label_inj e).2
  obtain ⟨m1, m2⟩ := loadLyr_missing E' x (loadLyrs E' net' ⟨some f, none, [], .success, 1⟩).2 (by rw [k1.1]; rfl) hmiss
  refine ⟨(loadLyrs E' net' ⟨some f, none, [], .success, 1⟩).1, ?_, h2⟩
  rw [hr, loadLyrs_append]
  simp only [loadLyrs, m1, Prod.mk.injEq, true_and, decide_eq_false_iff_not]
  exact m2

/-- **C147, false of the code: not only the weights are read.** A layer that repeats another one `k'` times reads the number of repetitions from the file and
takes it over without a question: after the answer `true` it believes to have as many tiles as the network that was written. -/
theorem tiles_overwritten {T : Cls} (E E' : Env) (hE : ∀ k, E.ok k = true) (hE' : ∀ k, E'.ok k = true) (b : String) (i k k' : Nat) (l l' : Lyr T)
    (hready : Ready [l]) (hidx : (indices [.tile b i k l]).Nodup) (harch : SameArch [l] [l']) :
    ∃ f l'', writeWeights E none none [.tile b i k l] = (some f, true, true) ∧
      readWeights E' (some f) [.tile b i k' l'] = ([.tile b i k l''], true) ∧ SameWeights [l] [l''] := by
  obtain ⟨f, hw, -⟩ := write_succeeds E hE none none [.tile b i k l] hidx
  obtain ⟨p1, p2⟩ := weights_survive E f none none [.tile b i k l] (by simpa [Ready, EachAll, Lyr.Each] using hready) hidx hw E'
    [.tile b i k' l'] (by simpa [SameArch, RelAll, Lyr.Rel] using harch)
  have h2 := p2 hE'
  have h1 := p1 h2
  generalize hg : readWeights E' (some f) [.tile b i k' l'] = r at *
  obtain ⟨r, a⟩ := r
  simp only at h1 h2
  subst h2
  cases r with
  | nil => simp [SameWeights, RelAll] at h1
  | cons x xs =>
    cases xs with
    | cons => simp [SameWeights, RelAll] at h1
    | nil =>
      cases x <;> simp only [SameWeights, RelAll, Lyr.Rel, and_true, false_and] at h1
      obtain ⟨rfl, rfl, rfl, h1⟩ := h1
      exact ⟨f, _, hw, hg, by simpa [SameWeights, RelAll] using h1⟩

/-- A library that does everything but call number `k`. -/
def allBut (k : Nat) : Env := ⟨fun n => n != k, fun _ n => n, fun _ _ b => b⟩

/-- A network: an input layer, a fully connected layer of two neurons for three inputs, a pack with a repeated layer, an output layer. -/
def demo (x : Nat) (t : Nat) : List (Lyr .single) :=
  [.plain "inp" 0,
   .fc "fcl" 1 2 3 ⟨fun k => ⟨k + x⟩, 8, 2, 4, false, false, false, false, 8⟩ true,
   .pack "lpv" 2 [.tile "lpt" 3 t (.fc "fcl" 4 1 1 ⟨fun k => ⟨k + 2 * x⟩, 2, 1, 2, false, false, false, false, 2⟩ true)],
   .fc "outp" 5 1 2 ⟨fun k => ⟨k + 3 * x⟩, 3, 1, 3, false, false, false, false, 3⟩ true]

theorem demo_ready (x t : Nat) : Ready (demo x t) := by
  simp only [Ready, demo, EachAll, Lyr.Each, true_and, and_true]
  exact ⟨⟨by omega, by constructor <;> simp⟩, ⟨by omega, by constructor <;> simp⟩, ⟨by omega, by constructor <;> simp⟩⟩

theorem demo_indices (x t : Nat) : (indices (demo x t)).Nodup := by
  simp [indices, demo, Lyr.indices]

theorem demo_arch (x y t u : Nat) : SameArch (demo x t) (demo y u) := by
  simp [SameArch, demo, RelAll, Lyr.Rel]

/-- **C146, false of the code: the answer `true` does not mean that there is a file.** The file is closed only after the answer was decided, and the
error of closing is dropped. -/
theorem true_but_lost : ∃ E : Env, ∀ lost disk, writeWeights E lost disk (demo 7 2) = (lost, true, false) := by
  refine ⟨allBut 21, fun lost disk => ?_⟩
  have h : (writeWeights (allBut 21) none none (demo 7 2)).2 = (true, false) := by decide +kernel
  have hop : ∀ d, (St.open (allBut 21) true .writeDelete d .init).1 = ⟨some [], none, [], .success, 1⟩ := by
    intro d; simp [St.open, St.init, St.next, allBut]
  simp only [writeWeights, hop, if_true] at h ⊢
  simp only [Prod.mk.injEq] at h
  rw [h.1, h.2]
  rfl

theorem fc_failed {T : Cls} (E : Env) (b : String) (i n c : Nat) (w : Mtx (Elem T)) (ini : Bool) (s : St) (hf : s.file.isSome = true)
    (h : (loadLyr E (.fc b i n c w ini) s).2.err ≠ .success) : (loadLyr E (.fc b i n c w ini) s).1 = .fc b i n c w ini := by
  obtain ⟨-, h2⟩ := inStruct_any E (NetFile.label b i) (w, ini) (fun s => loadWeights E n c w ini s) s hf
    (fun s1 h => (loadWeights_any E n c w ini s1 h).1)
  simp only [loadLyr] at h ⊢
  rcases h2 with ⟨h3, -⟩ | ⟨fs, k, -, -, -, d⟩
  · rw [h3]
  · rw [d] at h ⊢
    simp only [loadWeights_failed E n c w ini _ h]

/-- **C146, why the weights must have been initialised.** The weights of a layer that has none yet are written too, and the answer is `true`; such a file
cannot be read into any network: the answer is `false`, and the layer stays as it was. -/
theorem uninitialised_written {T : Cls} (E E' : Env) (hE : ∀ k, E.ok k = true) (b : String) (i n c : Nat) (d : Nat → Elem T) (w : Mtx (Elem T)) (ini : Bool) :
    ∃ f, writeWeights E none none [.fc b i n c (Mtx.default d) false] = (some f, true, true) ∧
      readWeights E' (some f) [.fc b i n c w ini] = ([.fc b i n c w ini], false) := by
  obtain ⟨f, hw, -⟩ := write_succeeds E hE none none [.fc b i n c (Mtx.default d) false] (by simp [indices, Lyr.indices])
  refine ⟨f, hw, ?_⟩
  have hcont := written_is E f none none _ (by simp [indices, Lyr.indices]) hw
  obtain ⟨h1, h2⟩ := read_any E' (some f) [.fc b i n c w ini]
  have hkeep : (readWeights E' (some f) [.fc b i n c w ini]).2 = false → (readWeights E' (some f) [.fc b i n c w ini]).1 = [.fc b i n c w ini] := by
    simp only [readWeights, Option.isSome_some, if_true]
    by_cases ho : (St.open E' false .read (some f) .init).1.err = .success
    · rw [if_pos ho]
      have hi := open_read E' f ho
      simp only [loadLyrs, decide_eq_false_iff_not]
      intro h
      rw [fc_failed E' b i n c w ini _ (by rw [hi.file]; rfl) (of_decide_eq_false h)]
    · rw [if_neg ho]; exact fun _ => rfl
  generalize readWeights E' (some f) [.fc b i n c w ini] = r at *
  obtain ⟨r, ans⟩ := r
  have hans : ans = false := by
    cases ans
    · rfl
    · obtain ⟨f', hf', h⟩ := h2 rfl
      cases hf'
      cases r with
      | nil => simp [Touched, RelAll] at h1
      | cons x xs =>
        cases x <;> simp only [Touched, RelAll, Lyr.Rel, false_and] at h1
        obtain ⟨⟨rfl, rfl, rfl, rfl, -⟩, -⟩ := h1
        simp only [AllFrom, Lyr.From] at h
        obtain ⟨⟨-, -, fs, S, dd, q1, q2, -⟩, -⟩ := h
        rw [hcont] at q1
        simp only [items, Lyr.item, putAll, fput, Item.name, Item.var, fget, label, if_true, Option.some.injEq, Var.strct.injEq, true_and] at q1
        subst q1
        simp [fget, Leaf.var, Mtx.default] at q2
  subst hans
  have := hkeep rfl
  simp only at this
  rw [this]

/-! ### A concrete network -/

example : ∃ f, writeWeights (allBut 1000) none none (demo 7 2) = (some f, true, true) := by
  have h : (writeWeights (allBut 1000) none none (demo 7 2)).2 = (true, true) := by decide +kernel
  have h1 : (writeWeights (allBut 1000) none none (demo 7 2)).1.isSome = true := by decide +kernel
  obtain ⟨f, hf⟩ := Option.isSome_iff_exists.1 h1
  exact ⟨f, Prod.ext hf h⟩

/-- The weights as numbers. -/
def numbers (net : List (Lyr .single)) : List (List Nat) := (leaves net).map fun l => (List.range (l.w.rows * l.w.cols)).map fun k => (l.w.data k).bits

/-- Written, then read into a network with other weights and another number of tiles. -/
example :
    let r := readWeights (allBut 1000) (writeWeights (allBut 1000) none none (demo 7 2)).1 (demo 100 5)
    r.2 = true ∧ numbers r.1 = [[7, 8, 9, 10, 11, 12, 13, 14], [14, 15], [21, 22, 23]] ∧
      numbers (demo 100 5) = [[100, 101, 102, 103, 104, 105, 106, 107], [200, 201], [300, 301, 302]] := by decide +kernel

/-- The library fails in the middle of reading: the first layer is read, the others are not. -/
example :
    let r := readWeights (allBut 5) (writeWeights (allBut 1000) none none (demo 7 2)).1 (demo 100 5)
    r.2 = false ∧ numbers r.1 = [[7, 8, 9, 10, 11, 12, 13, 14], [200, 201], [300, 301, 302]] := by decide +kernel

end Nntl.NetFile
