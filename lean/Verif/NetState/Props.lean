import Verif.NetState.Load
/-! C157 (what a saved network's file contains), C158 (loading a saved network), C159 (loading an arbitrary file). -/
namespace Nntl.NetState
open Nntl.Matrix Nntl.MatFile
open Nntl.NetFile (Fits)
set_option linter.unusedSimpArgs false

/-! ### C157 -/

/-- **C157.** A network is saved, with any options, and every call answers success. Then the file contains, for each layer at any depth, a struct of its name, in which the
variables of the table are that are to be stored with these options, with the layer's values; and nothing else. -/
theorem saved_contains {T : Cls} (E : Env) (lt1 : Nat → Bool) (o : Opts) (disk : Option Vars) (net : List (Lyr T)) (f : Vars)
    (hidx : (indices net).Nodup) (h : saveNet E lt1 o disk net = (some f, true)) :
    AllStored lt1 o f net ∧ ∀ n, fget f n ≠ none → ∃ l ∈ net, n = l.name := by
  have hnamed := items_named lt1 o net hidx
  simp only [saveNet] at h
  by_cases ho : (St.open E true .writeDelete disk .init).1.err = .success
  · rw [if_pos ho] at h
    simp only [Prod.mk.injEq, Bool.and_eq_true, decide_eq_true_eq] at h
    obtain ⟨h1, h2, -⟩ := h
    have hi := NetFile.open_write E disk ho
    obtain ⟨⟨-, w⟩, -⟩ := saveAll_ok E (items lt1 o net) _ hnamed hi.cur (by rw [hi.file]; rfl) h2
    rw [hi.stack, hi.file] at w
    simp only at w
    rw [w.2] at h1
    cases h1
    refine ⟨items_stored lt1 o net _ hidx (fun l hl => ?_), fun n hn => ?_⟩
    · have := putAll_mem _ [] hnamed (l.item lt1 o) ((mem_items lt1 o net _).2 ⟨l, hl, rfl⟩)
      rwa [item_name] at this
    · rcases putAll_none _ _ _ hn with ⟨i, hi, e⟩ | h
      · obtain ⟨l, hl, rfl⟩ := (mem_items lt1 o net i).1 hi
        exact ⟨l, hl, by rw [← e, item_name]⟩
      · exact absurd rfl h
  · rw [if_neg ho] at h
    simp at h

/-- **C157.** Saving fails only if the library or the allocator does; what is saved does not depend on what was in the file before. -/
theorem saving_succeeds {T : Cls} (E : Env) (hE : ∀ k, E.ok k = true) (lt1 : Nat → Bool) (o : Opts) (net : List (Lyr T)) (hidx : (indices net).Nodup) :
    ∃ f, ∀ disk, saveNet E lt1 o disk net = (some f, true) := by
  have hnamed := items_named lt1 o net hidx
  have hop : ∀ disk, St.open E true .writeDelete disk .init = (⟨some [], none, [], .success, 1⟩, some []) := by
    intro d
    simp [St.open, St.init, hE, St.next]
  have hs := save_succeeds E hE [] ⟨some [], none, [], .success, 1⟩ ⟨rfl, rfl, rfl, rfl⟩ (items lt1 o net) hnamed
  obtain ⟨⟨w0, w⟩, -⟩ := saveAll_ok E (items lt1 o net) ⟨some [], none, [], .success, 1⟩ hnamed rfl rfl hs
  simp only at w
  have hcl : ((saveAll E (items lt1 o net) ⟨some [], none, [], .success, 1⟩).close E).2 = .success := by
    simp [St.close, w0, w.1, w.2, hE]
  exact ⟨putAll [] (items lt1 o net), fun disk => by simp only [saveNet, hop, if_true, hcl, hs, decide_true, w.2, Bool.and_self]⟩

/-! ### C158 -/

/-- **C158.** A network `net` was saved with options `p`. The file is loaded with options `o`, which may be others, into a network `net'` of the same architecture. If loading
answers success, then every layer at any depth has what the options say of the saved layer, and what it had before otherwise (`Restored`). And, unless the library or the
allocator fails, the answer is success if and only if everything that is to be loaded was saved and fits (`Loads`). -/
theorem loaded_is_saved {T : Cls} (E : Env) (lt1 : Nat → Bool) (p : Opts) (disk : Option Vars) (net : List (Lyr T)) (f : Vars)
    (hidx : (indices net).Nodup) (hsave : saveNet E lt1 p disk net = (some f, true))
    (E' : Env) (o : Opts) (net' : List (Lyr T)) (harch : SameArch net net') :
    ((loadNet E' lt1 o (some f) net').2 = true → AllRel3 (Restored lt1 o) net net' (loadNet E' lt1 o (some f) net').1 ∧
      AllRel2 (Loads lt1 p o) net net') ∧
    ((∀ k, E'.ok k = true) → AllRel2 (Loads lt1 p o) net net' → (loadNet E' lt1 o (some f) net').2 = true) := by
  obtain ⟨hst, -⟩ := saved_contains E lt1 p disk net f hidx hsave
  simp only [loadNet]
  by_cases ho : (St.open E' false .read (some f) .init).1.err = .success
  · rw [if_pos ho]
    have hi := NetFile.open_read E' f ho
    have Q := step_lyrs E' lt1 p o net net' (St.open E' false .read (some f) .init).1 ⟨by rw [hi.file]; rfl, ho, hi.cur⟩ harch
      (by rw [NetFile.scope_idle hi]; exact hst)
    simp only [decide_eq_true_eq]
    exact ⟨fun h => ⟨(Q.ok h).2.2, (Q.ok h).2.1⟩, Q.total⟩
  · rw [if_neg ho]
    refine ⟨nofun, fun hE _ => ?_⟩
    exfalso
    apply ho
    simp [St.open, St.init, hE]

/-- What a layer has that is never loaded from any file: the optimiser and the activations of a layer with weights. -/
def SameOptimiser {T : Cls} : Own T → Own T → Prop
  | .fc l, .fc l' => l'.gw = l.gw ∧ l'.act = l.act
  | .fc _, _ => False
  | _, _ => True

mutual
theorem rel2_mono {T : Cls} {R S : Own T → Own T → Prop} (h : ∀ x y, R x y → S x y) : ∀ a b : Lyr T, a.Rel2 R b → a.Rel2 S b
  | .node _ _ x s, .node _ _ y t, q => by simp only [Lyr.Rel2] at q ⊢; exact ⟨q.1, q.2.1, h x y q.2.2.1, allRel2_mono h s t q.2.2.2⟩
theorem allRel2_mono {T : Cls} {R S : Own T → Own T → Prop} (h : ∀ x y, R x y → S x y) : ∀ a b : List (Lyr T), AllRel2 R a b → AllRel2 S a b
  | [], [], _ => by simp [AllRel2]
  | [], _ :: _, q => by simp [AllRel2] at q
  | _ :: _, [], q => by simp [AllRel2] at q
  | a :: as, b :: bs, q => by simp only [AllRel2] at q ⊢; exact ⟨rel2_mono h a b q.1, allRel2_mono h as bs q.2⟩
end

/-! ### C159 -/

/-- **C159.** Whatever the file is, whether it exists, whatever fails and whatever the answer: loading changes nothing but what the options cover (`Governed`). The structure of the network, the
numbers of neurons, the optimisers and the data of the input layer stay; a layer's weights are those it had or weights of its dimensions. -/
theorem load_governed {T : Cls} (E : Env) (lt1 : Nat → Bool) (o : Opts) (disk : Option Vars) (net : List (Lyr T)) :
    AllRel2 (Governed o) net (loadNet E lt1 o disk net).1 := by
  simp only [loadNet]
  by_cases ho : (St.open E false .read disk .init).1.err = .success
  · rw [if_pos ho]
    cases disk with
    | none => simp [St.open, St.init, St.next, St.setErr] at ho
    | some f =>
      have hi := NetFile.open_read E f ho
      exact (lyrs_any E lt1 o net _ (by rw [hi.file]; rfl)).2
  · rw [if_neg ho]
    exact allRel2_refl (governed_refl o) net

/-- **C158, C159: training cannot be resumed from a file.** Whatever the options and the file, the optimiser of every layer (learning rate, momentum, velocities, moments) is what it was before loading,
although it is saved (`saved_contains`). -/
theorem optimiser_never_loaded {T : Cls} (E : Env) (lt1 : Nat → Bool) (o : Opts) (disk : Option Vars) (net : List (Lyr T)) :
    AllRel2 SameOptimiser net (loadNet E lt1 o disk net).1 := by
  refine allRel2_mono (fun x y h => ?_) _ _ (load_governed E lt1 o disk net)
  cases x <;> cases y <;> try trivial
  exact ⟨h.2.2.2.1, h.2.2.1⟩

end Nntl.NetState
