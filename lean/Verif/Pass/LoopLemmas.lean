import Verif.Pass.LoopModel
import Verif.Pass.OptModel
import Verif.Pass.Lemmas
import Mathlib.Algebra.BigOperators.Group.List.Basic
namespace Nntl.Pass
open Nntl.Kernel
variable {α : Type}

theorem downLoop_ok {R : Nat} : (ls : List (BLayer α)) → (i : Bool) → (m0 m1 : Mem α) → (G : Mat α) → Stacked ls →
    (∀ l ∈ ls, l.Delivers R) → (n : Nat) → (∀ l, ls.head? = some l → n = l.neurons) → Shows R n (if i then m1 else m0) G →
    (∀ k (hk : k < ls.length), ∃ A, (downLoop (ls.map BLayer.step) i m0 m1).1[k]? = some A ∧ Shows R ls[k].neurons A (gradAfter ls k G)) ∧
    (downLoop (ls.map BLayer.step) i m0 m1).1.length = ls.length ∧
    Shows R ((ls.getLast?.map BLayer.inc).getD n)
      (if (downLoop (ls.map BLayer.step) i m0 m1).2.1 then (downLoop (ls.map BLayer.step) i m0 m1).2.2.2
        else (downLoop (ls.map BLayer.step) i m0 m1).2.2.1) (gradAfter ls ls.length G)
  | [], i, m0, m1, G, _, _, n, _, h => ⟨fun k hk => absurd hk (Nat.not_lt_zero k), rfl, h⟩
  | l :: ls, i, m0, m1, G, hs, hd, n, hn, h => by
    have hn' := hn l rfl
    subst hn'
    have hl := hd l List.mem_cons_self (if i then m1 else m0) (if i then m0 else m1) G h
    simp only [List.map_cons, downLoop]
    generalize hx : l.step (if i then m1 else m0) (if i then m0 else m1) = x at *
    have hnext : Shows R l.inc (if xor i x.1 then (if i then x.2.1 else x.2.2) else (if i then x.2.2 else x.2.1)) (l.grad G) := by
      cases i <;> cases hf : x.1 <;> simp only [hf] at hl ⊢ <;> exact hl
    have hs' : Stacked ls := by
      cases ls with
      | nil => trivial
      | cons b r => exact hs.2
    have hh : ∀ b, ls.head? = some b → l.inc = b.neurons := by
      intro b hb
      cases ls with
      | nil => cases hb
      | cons c r => simp only [List.head?_cons, Option.some.injEq] at hb; subst hb; exact hs.1
    obtain ⟨a1, a2, a3⟩ := downLoop_ok ls _ _ _ (l.grad G) hs' (fun b hb => hd b (List.mem_cons_of_mem _ hb)) l.inc hh hnext
    refine ⟨fun k hk => ?_, by simp only [List.length_cons, a2], ?_⟩
    · cases k with
      | zero => exact ⟨_, rfl, h⟩
      | succ k =>
        obtain ⟨A, hA, hsA⟩ := a1 k (by simpa using hk)
        exact ⟨A, by simpa using hA, by simpa [gradAfter] using hsA⟩
    · have e : (((l :: ls).getLast?.map BLayer.inc).getD l.neurons) = (ls.getLast?.map BLayer.inc).getD l.inc := by
        cases ls with
        | nil => rfl
        | cons c r => rw [List.getLast?_cons_cons]; rw [List.getLast?_eq_some_getLast (by simp)]; rfl
      rw [e]
      simpa [gradAfter] using a3

theorem outs_total (R : Nat) (X : Mat α) : (fs : List (Fld α)) → (Ls : Laws fs) → (s : FState fs) →
    ((outs R X fs Ls s).map Prod.fst).sum = fNeurons fs
  | [], _, _ => rfl
  | f :: fs, Ls, s => by simp only [outs, List.map_cons, List.sum_cons, fNeurons, outs_total R X fs Ls.tail s.2]

theorem outs_at (R : Nat) (X : Mat α) : (fs : List (Fld α)) → (Ls : Laws fs) → (s : FState fs) → (i : Nat) → (m : Nat) → (Y : Mat α) →
    (outs R X fs Ls s)[i]? = some (m, Y) → ∀ r c, c < m →
    blockStart (outs R X fs Ls s) i + c < fNeurons fs ∧ fFwd R X fs Ls s r (blockStart (outs R X fs Ls s) i + c) = Y r c
  | [], _, _, i, m, Y, h, _, _, _ => by simp [outs] at h
  | f :: fs, Ls, s, 0, m, Y, h, r, c, hc => by
    simp only [outs, List.getElem?_cons_zero, Option.some.injEq, Prod.mk.injEq] at h
    obtain ⟨rfl, rfl⟩ := h
    simp only [blockStart, List.take_zero, List.map_nil, List.sum_nil, Nat.zero_add, fFwd, fNeurons]
    exact ⟨by omega, by rw [if_pos hc]⟩
  | f :: fs, Ls, s, i + 1, m, Y, h, r, c, hc => by
    simp only [outs, List.getElem?_cons_succ] at h
    obtain ⟨a, b⟩ := outs_at R X fs Ls.tail s.2 i m Y h r c hc
    have e : blockStart (outs R X (f :: fs) Ls s) (i + 1) = f.obj.neurons + blockStart (outs R X fs Ls.tail s.2) i := by
      simp only [blockStart, outs, List.take_succ_cons, List.map_cons, List.sum_cons]
    rw [e]
    simp only [fFwd, fNeurons]
    refine ⟨by omega, ?_⟩
    rw [if_neg (by omega), ← b]
    congr 1; omega

theorem grads_sum [AddCommMonoid α] (R : Nat) (X : Mat α) : (fs : List (Fld α)) → (Ls : Laws fs) → (s : FState fs) → (G : Mat α) →
    ∀ r j, fBwd R X fs Ls s G r j = (contributions (grads R X fs Ls s G) r j).sum
  | [], _, _, _, _, _ => rfl
  | f :: fs, Ls, s, G, r, j => by
    simp only [fBwd, grads, contributions]
    rw [grads_sum R X fs Ls.tail s.2 _ r j]
    by_cases h : f.ofs ≤ j ∧ j < f.ofs + f.cnt
    · rw [if_pos h, List.filter_cons_of_pos (by simpa using h), List.map_cons, List.sum_cons, add_comm]
      rfl
    · rw [if_neg h, List.filter_cons_of_neg (by simpa using h)]
      rfl

theorem gouts_at [Zero α] [DecidableEq α] (R : Nat) (g X : Mat α) : (fs : List (Fld α)) → (k : Nat) → (Ls : Laws fs) → (s : OState fs) →
    (i : Nat) → (m : Nat) → (Y : Mat α) → (gouts R g X fs k Ls s)[i]? = some (m, Y) → ∀ r c, c < m →
    blockStart (gouts R g X fs k Ls s) i + c < fNeurons fs ∧
    oFwd R g X fs k Ls s r (blockStart (gouts R g X fs k Ls s) i + c) =
      if g r (k + i) = 0 then 0 else Y ((List.range r).filter fun r' => g r' (k + i) ≠ 0).length c
  | [], _, _, _, i, m, Y, h, _, _, _ => by simp [gouts] at h
  | f :: fs, k, Ls, s, 0, m, Y, h, r, c, hc => by
    simp only [gouts, List.getElem?_cons_zero, Option.some.injEq, Prod.mk.injEq] at h
    obtain ⟨rfl, rfl⟩ := h
    simp only [blockStart, List.take_zero, List.map_nil, List.sum_nil, Nat.zero_add, oFwd, fNeurons]
    refine ⟨by omega, ?_⟩
    rw [if_pos hc]
    unfold scatter gmask
    by_cases hz : g r k = 0
    · rw [if_neg (by simp [hz]), if_pos (by simpa using hz)]
    · rw [if_pos (by simp [hz]), if_neg (by simpa using hz)]
      rfl
  | f :: fs, k, Ls, s, i + 1, m, Y, h, r, c, hc => by
    simp only [gouts, List.getElem?_cons_succ] at h
    obtain ⟨a, b⟩ := gouts_at R g X fs (k + 1) Ls.tail s.2 i m Y h r c hc
    have e : blockStart (gouts R g X (f :: fs) k Ls s) (i + 1) = f.obj.neurons + blockStart (gouts R g X fs (k + 1) Ls.tail s.2) i := by
      simp only [blockStart, gouts, List.take_succ_cons, List.map_cons, List.sum_cons]
    rw [e]
    simp only [oFwd, fNeurons]
    refine ⟨by omega, ?_⟩
    rw [show k + (i + 1) = k + 1 + i by omega, if_neg (by omega), ← b]
    congr 1; omega

theorem gouts_total [Zero α] [DecidableEq α] (R : Nat) (g X : Mat α) : (fs : List (Fld α)) → (k : Nat) → (Ls : Laws fs) → (s : OState fs) →
    (gouts R g X fs k Ls s).map Prod.fst = fs.map fun f => f.obj.neurons
  | [], _, _, _ => rfl
  | f :: fs, k, Ls, s => by simp only [gouts, List.map_cons, gouts_total R g X fs (k + 1) Ls.tail s.2]

theorem gouts_rowwise [Zero α] [DecidableEq α] (R : Nat) (g X : Mat α) : (fs : List (Fld α)) → (k : Nat) → (Ls : Laws fs) → (s : OState fs) →
    (φs : List ((Nat → α) → Nat → α)) → RowWise fs Ls s φs → (i : Nat) → (f : Fld α) → fs[i]? = some f →
    (φ : (Nat → α) → Nat → α) → φs[i]? = some φ →
    ∃ Y, (gouts R g X fs k Ls s)[i]? = some (f.obj.neurons, Y) ∧ ∀ r c, r < R → g r (k + i) ≠ 0 → c < f.obj.neurons →
      Y ((List.range r).filter fun r' => g r' (k + i) ≠ 0).length c = φ (fun j => X r (f.ofs + j)) c
  | [], _, _, _, _, _, i, f, hf, _, _ => by simp at hf
  | f0 :: fs, k, Ls, s, φs, ⟨φ0, φs', he, hφ, hr⟩, 0, f, hf, φ, hφi => by
    subst he
    simp only [List.getElem?_cons_zero, Option.some.injEq] at hf hφi
    subst hf; subst hφi
    refine ⟨_, rfl, fun r c hrR hg hc => ?_⟩
    have hget := openRows_get (fun r => decide (g r k ≠ 0)) R r hrR (by simpa using hg)
    simp only [openRows, rank, Nat.add_zero] at hget ⊢
    rw [hφ _ _ _ _ (List.getElem?_eq_some_iff.1 hget).1 hc, List.getD_eq_getElem?_getD, hget]
    rfl
  | f0 :: fs, k, Ls, s, φs, ⟨φ0, φs', he, hφ, hr⟩, i + 1, f, hf, φ, hφi => by
    subst he
    simp only [List.getElem?_cons_succ] at hf hφi
    obtain ⟨Y, h1, h2⟩ := gouts_rowwise R g X fs (k + 1) Ls.tail s.2 φs' hr i f hf φ hφi
    refine ⟨Y, by simpa only [gouts, List.getElem?_cons_succ] using h1, ?_⟩
    rw [show k + (i + 1) = k + 1 + i by omega]
    exact h2

theorem oBprop_cong [Zero α] [One α] [DecidableEq α] {R bbs bias buf : Nat} {need : Bool} {O D D' : Mem α} :
    (fs : List (Fld α)) → (k fo po : Nat) → (s : OState fs) → (Q T P : Mem α) → (∀ p, R * fo ≤ p → D p = D' p) →
    oBprop R bbs bias buf need fs k fo po s Q T O D P = oBprop R bbs bias buf need fs k fo po s Q T O D' P
  | [], _, _, _, _, _, _, _, _ => rfl
  | f :: fs, k, fo, po, s, Q, T, P, h => by
    have hs : shift (R * fo) D = shift (R * fo) D' := funext fun p => h _ (by omega)
    simp only [oBprop]
    rw [oBprop_cong fs (k + 1) (fo + f.obj.neurons) (po + bbs * f.cnt) s.2 Q T P (fun p hp => h p (by rw [Nat.mul_add] at hp; omega)), hs]

end Nntl.Pass
