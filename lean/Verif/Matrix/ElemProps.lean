import Verif.Matrix.Props

/-! C10: matrices that were given a number of elements. -/
namespace Nntl.Matrix

variable {α : Type}

/-- C10. After `resize(ne)` no element can be addressed until `deform(r, c)`; that gives a matrix of exactly these sizes within the storage if `r * c ≤ ne`, and violates an
assertion otherwise. -/
theorem resize_elements_then_deform (m : Mtx α) (ne : Nat) (emul holey bir : Bool) (junk : Nat → α) (h0 : 0 < ne) :
    (m.dResizeNe ne emul holey bir junk).numel = 0 ∧
    (∀ r c, r * c ≤ ne → ∃ m', (m.dResizeNe ne emul holey bir junk).deform r c = some m' ∧ m'.rows = r ∧ m'.cols = c ∧ InStorage m' ∧ m'.ext = false) ∧
    ∀ r c, ne < r * c → (m.dResizeNe ne emul holey bir junk).deform r c = none := by
  have he : (m.dResizeNe ne emul holey bir junk).empty = false := by
    unfold Mtx.empty Mtx.dResizeNe
    simp only [beq_eq_false_iff_ne]
    omega
  refine ⟨rfl, fun r c h => ?_, fun r c h => ?_⟩
  · refine ⟨{ m.dResizeNe ne emul holey bir junk with rows := r, cols := c }, ?_, rfl, rfl, ?_, rfl⟩
    · unfold Mtx.deform
      rw [he, if_pos ⟨rfl, h⟩]
    · exact h
  · unfold Mtx.deform
    exact if_neg fun hh => by
      have : ne ≥ r * c := hh.2
      omega

/-- A concrete case. -/
example : ((Mtx.default (fun _ => (0 : Int))).dResizeNe 12 false false false fun _ => 7).deform 3 4 ≠ none ∧
    ((Mtx.default (fun _ => (0 : Int))).dResizeNe 12 false false false fun _ => 7).deform 4 4 = none := by
  obtain ⟨_, h1, h2⟩ := resize_elements_then_deform (Mtx.default fun _ => (0 : Int)) 12 false false false (fun _ => 7) (by decide)
  obtain ⟨m, hm, _⟩ := h1 3 4 (by decide)
  exact ⟨by rw [hm]; simp, h2 4 4 (by decide)⟩

end Nntl.Matrix
