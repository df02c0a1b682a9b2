import Verif.GradCheck.Props

/-! The activations that layers keep for the backward pass are those of the forward pass. -/
namespace Nntl.GradCheck

variable {R S : Type}

/-- In a pass of a gradient check in which nothing is changed on purpose (learning is blocked), the activations are those that the layers keep for the backward pass,
and the weights and optimisers stay as they are. -/
theorem analytical_fprop_keeps (E : Env R S) (hE : E.blocked = true) (om : Nat → Mat R) : ∀ (n : Node R) (x : Acts R) (s : St R S), s.insp.Quiet →
    (n.fprop E om x s).1 = n.keep om s.mem.w x ∧ (n.fprop E om x s).2.2.insp.Quiet ∧ (n.fprop E om x s).2.2.mem = s.mem
  | .fc idx _ _ _ _ pre act _ _ _, x, s, h => by
    have e : E.doPre idx (s.begin idx) = s.begin idx := by unfold Env.doPre; simp [hE]
    have hq : (s.begin idx).insp.Quiet := quiet_push h idx
    simp only [Node.fprop, Node.keep, e, quiet_makePre hq, quiet_preAct hq, quiet_acts hq]
    exact ⟨rfl, quiet_pop hq, rfl⟩
  | .plain idx _ f _, x, s, h => by
    have hq : (s.begin idx).insp.Quiet := quiet_push h idx
    simp only [Node.fprop, Node.keep, quiet_acts hq, true_and]
    exact ⟨quiet_pop hq, rfl⟩
  | .ext idx post pen _ a, x, s, h => by
    obtain ⟨h1, h2, h3⟩ := analytical_fprop_keeps E hE om a x s h
    exact ⟨by simp only [Node.fprop, Node.keep, h1], h2, h3⟩
  | .seq l u, x, s, h => by
    obtain ⟨h1, h2, h3⟩ := analytical_fprop_keeps E hE om l x s h
    obtain ⟨k1, k2, k3⟩ := analytical_fprop_keeps E hE om u (l.fprop E om x s).1 (l.fprop E om x s).2.2 h2
    rw [h1, h3] at k1
    rw [h1] at k2 k3
    refine ⟨?_, ?_, ?_⟩
    · simp only [Node.fprop, Node.keep, h1, k1]
    · simp only [Node.fprop, h1, k2]
    · simp only [Node.fprop, h1, k3, h3]
  | .par f g mix _ _ _ a b, x, s, h => by
    obtain ⟨h1, h2, h3⟩ := analytical_fprop_keeps E hE om a (f x) s h
    obtain ⟨k1, k2, k3⟩ := analytical_fprop_keeps E hE om b (g x) (a.fprop E om (f x) s).2.2 h2
    rw [h3] at k1
    exact ⟨by simp only [Node.fprop, Node.keep, k1, h1], k2, k3.trans h3⟩
  | .map f g _ _ a, x, s, h => by
    obtain ⟨h1, h2, h3⟩ := analytical_fprop_keeps E hE om a (f x) s h
    exact ⟨by simp only [Node.fprop, Node.keep, h1], h2, h3⟩
  | .gate run dflt _ a, x, s, h => by
    simp only [Node.fprop, Node.keep]
    split
    · exact analytical_fprop_keeps E hE om a x s h
    · exact ⟨rfl, h, rfl⟩
  | .pack idx _ a, x, s, h => by
    obtain ⟨h1, h2, h3⟩ := analytical_fprop_keeps E hE om a x (s.begin idx) (quiet_push h idx)
    simp only [Node.fprop, Node.keep, quiet_acts h2]
    exact ⟨h1, quiet_pop h2, h3⟩

end Nntl.GradCheck
