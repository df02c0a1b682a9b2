import Verif.DataBuf.Spec
import Mathlib.Algebra.BigOperators.Group.List.Basic
/-! The invariant of the circular buffer. -/
namespace Nntl.DataBuf
variable {α : Type}

/-- An index of a circular buffer: `total` stands for the end, not for 0. -/
def rep (total y : Nat) : Nat := if y ≤ total then y else y - total
/-- Cell of the element `i` after `cur`. -/
def cellAt (total cur i : Nat) : Nat := if cur + i < total then cur + i else cur + i - total

/-- The buffer state for the unread queue `q` and `o` claimed elements. -/
structure Good (b : Buf α) (q : List α) (o : Nat) : Prop where
  pos : 0 < b.total
  cur : b.cur < b.total
  fit : q.length + o ≤ b.total
  alv : b.alv = rep b.total (b.cur + q.length)
  alc : b.alc = rep b.total (b.cur + q.length + o)
  empty : b.empty = (q.length == 0)
  data : ∀ i (h : i < q.length), b.mem (cellAt b.total b.cur i) = q[i]

theorem init_good (total : Nat) (mem : Nat → α) (h : 0 < total) : Good (Buf.init total mem) [] 0 :=
  ⟨h, h, by simp, by simp [Buf.init, rep], by simp [Buf.init, rep], by simp [Buf.init], by simp⟩

/-- The range that covers `n` elements from `cur` on. -/
def fullRange (total cur n : Nat) : Range := if cur + n ≤ total then .one cur n else .two cur (total - cur) (cur + n - total)

theorem acquire_good {b : Buf α} {q : List α} {o : Nat} (h : Good b q o) (n : Nat) :
    b.acquire n = if 0 < n ∧ n ≤ q.length then some (fullRange b.total b.cur n) else none := by
  have hpos := h.pos
  have hcur := h.cur
  have hfit := h.fit
  unfold Buf.acquire fullRange
  rw [h.empty, h.alv]
  unfold rep
  rcases Nat.eq_zero_or_pos q.length with hq | hq
  · rw [if_neg (by simp [hq]), if_neg (by omega)]
  · have e1 : (q.length == 0) = false := beq_false_of_ne (by omega)
    rw [e1]
    rcases Nat.eq_zero_or_pos n with hn | hn
    · simp [hn]
    · have e2 : (n != 0) = true := by simp; omega
      rw [e2]
      simp only [Bool.not_false, Bool.and_self, if_true]
      by_cases c1 : b.cur + q.length ≤ b.total
      · simp only [c1, if_true]
        rw [if_pos (by omega)]
        by_cases c2 : n ≤ q.length
        · rw [if_pos (by omega), if_pos ⟨hn, c2⟩, if_pos (by omega)]
        · rw [if_neg (by omega), if_neg (by omega)]
      · simp only [c1, if_false]
        rw [if_neg (by omega)]
        by_cases c2 : b.cur + n ≤ b.total
        · rw [if_pos c2, if_pos (by omega)]
          simp [c2]
        · rw [if_neg c2]
          by_cases c3 : n ≤ q.length
          · rw [if_pos (by omega), if_pos ⟨hn, c3⟩]
            simp only [c2, if_false, Option.some.injEq, Range.two.injEq, true_and]
            omega
          · rw [if_neg (by omega), if_neg (by omega)]

theorem fullRange_size {total cur : Nat} (n : Nat) (hc : cur < total) : (fullRange total cur n).size = n := by
  unfold fullRange
  split
  · rfl
  · simp [Range.size]; omega

theorem read_good {b : Buf α} {q : List α} {o : Nat} (h : Good b q o) {n : Nat} (hn : n ≤ q.length) :
    b.read (fullRange b.total b.cur n) = q.take n := by
  have hcur := h.cur
  have hfit := h.fit
  apply List.ext_getElem
  · unfold fullRange Buf.read
    split <;> rename_i hh <;> split at hh <;> cases hh <;> simp <;> omega
  · intro i h1 h2
    have hi : i < n := by simp at h2; omega
    rw [List.getElem_take, ← h.data i (by omega)]
    unfold fullRange at h1 ⊢
    unfold cellAt
    by_cases c : b.cur + n ≤ b.total
    · simp only [c, if_true, Buf.read, List.getElem_map, List.getElem_range]
      rw [if_pos (by omega)]
    · simp only [c, if_false, Buf.read]
      by_cases ci : b.cur + i < b.total
      · rw [List.getElem_append_left (by simp; omega), if_pos ci]; simp
      · rw [List.getElem_append_right (by simp; omega), if_neg ci]
        simp only [List.getElem_map, List.getElem_range, List.length_map, List.length_range]
        congr 1; omega

theorem presents_good {b : Buf α} {q : List α} {o : Nat} (h : Good b q o) : Presents b q := by
  intro n
  rw [acquire_good h]
  by_cases c : 0 < n ∧ n ≤ q.length
  · rw [if_pos c, if_pos c]
    exact ⟨_, rfl, fullRange_size n h.cur, read_good h c.2⟩
  · rw [if_neg c, if_neg c]

theorem fullRange_shrink {total cur n k : Nat} (hc : cur < total) (hk : k ≤ n) :
    (fullRange total cur n).shrink k = fullRange total cur k ∨
    (cur + k = total ∧ total < cur + n ∧ (fullRange total cur n).shrink k = .two cur (total - cur) 0) := by
  unfold fullRange
  by_cases c : cur + n ≤ total
  · left
    simp only [c, if_true, Range.shrink]
    rw [if_pos (by omega : cur + k ≤ total)]
    split
    · congr 1; omega
    · rfl
  · simp only [c, if_false, Range.shrink]
    by_cases c2 : k ≥ total - cur
    · rw [if_pos c2]
      by_cases c3 : cur + k ≤ total
      · right; refine ⟨by omega, by omega, ?_⟩; congr 1; omega
      · left; rw [if_neg c3]; congr 1; omega
    · left; rw [if_neg c2, if_pos (by omega)]

theorem release_good {b : Buf α} {q : List α} {o n k : Nat} (h : Good b q o) (hk : 0 < k) (hkn : k ≤ n) (hn : n ≤ q.length) :
    Good (b.release ((fullRange b.total b.cur n).shrink k)) (q.drop k) o ∧
    (b.release ((fullRange b.total b.cur n).shrink k)).total = b.total := by
  have hpos := h.pos
  have hcur := h.cur
  have hfit := h.fit
  have halv := h.alv
  have halc := h.alc
  unfold rep at halv halc
  -- what release does to the three numbers
  have key : ∃ c' v' w', b.release ((fullRange b.total b.cur n).shrink k) = { b with cur := c', alv := v', alc := w', empty := c' == v' } ∧
      c' = (if b.cur + k < b.total then b.cur + k else b.cur + k - b.total) ∧
      v' = rep b.total (c' + (q.length - k)) ∧ w' = rep b.total (c' + (q.length - k) + o) := by
    rcases fullRange_shrink hcur hkn with hs | ⟨e1, e2, hs⟩
    · rw [hs]
      unfold fullRange Buf.release
      by_cases c : b.cur + k ≤ b.total
      · simp only [c, if_true]
        by_cases c2 : b.cur + k < b.total
        · refine ⟨b.cur + k, b.alv, b.alc, ?_, by rw [if_pos c2], ?_, ?_⟩
          · rw [if_neg (by omega)]
          · rw [halv]; unfold rep; congr 1 <;> first | omega | (congr 1; omega)
            <;> simp <;> omega
          · rw [halc]; unfold rep
            rw [show b.cur + k + (q.length - k) + o = b.cur + q.length + o by omega]
        · refine ⟨0, if b.alv = b.total then 0 else b.alv, if b.alc = b.total then 0 else b.alc, ?_, by rw [if_neg c2]; omega, ?_, ?_⟩
          · rw [if_pos (by omega)]
          · rw [halv]; unfold rep; split <;> split <;> split <;> omega
          · rw [halc]; unfold rep; split <;> split <;> split <;> omega
      · simp only [c, if_false]
        refine ⟨b.cur + k - b.total, b.alv, b.alc, ?_, by rw [if_neg (by omega)], ?_, ?_⟩
        · rw [if_neg (by omega)]
        · rw [halv]; unfold rep; split <;> split <;> omega
        · rw [halc]; unfold rep; split <;> split <;> omega
    · rw [hs]
      unfold Buf.release
      refine ⟨0, b.alv, b.alc, ?_, by rw [if_neg (by omega)]; omega, ?_, ?_⟩
      · simp only; rw [if_neg (by omega)]
      · rw [halv]; unfold rep; split <;> split <;> omega
      · rw [halc]; unfold rep; split <;> split <;> omega
  obtain ⟨c', v', w', he, hc', hv', hw'⟩ := key
  rw [he]
  refine ⟨⟨hpos, ?_, ?_, ?_, ?_, ?_, ?_⟩, rfl⟩
  · show c' < b.total
    rw [hc']; split <;> omega
  · simp only [List.length_drop]; omega
  · simpa using hv'
  · simpa using hw'
  · show (c' == v') = _
    rw [hv', List.length_drop]
    unfold rep
    rw [Bool.eq_iff_iff]
    simp only [beq_iff_eq]
    split <;> (split at hc' <;> omega)
  · intro i hi
    simp only [List.length_drop] at hi
    rw [List.getElem_drop, ← h.data (k + i) (by omega)]
    show b.mem (cellAt b.total c' i) = _
    congr 1
    unfold cellAt
    split at hc' <;> split <;> split <;> omega

theorem shouldWork_good {b : Buf α} {q : List α} {o : Nat} (h : Good b q o) (n : Nat) (hn : 0 < n) (hg : 0 < q.length ∨ o < b.total) :
    (b.shouldWork n).2 = min n (b.total - (q.length + o)) ∧ Good (b.shouldWork n).1 q (o + (b.shouldWork n).2) ∧
    (b.shouldWork n).1.total = b.total := by
  have hpos := h.pos
  have hcur := h.cur
  have hfit := h.fit
  have halc := h.alc
  have key : ∃ w', b.shouldWork n = ({ b with alc := w' }, min n (b.total - (q.length + o))) ∧
      w' = rep b.total (b.cur + q.length + (o + min n (b.total - (q.length + o)))) := by
    unfold Buf.shouldWork
    have hemp := h.empty
    by_cases full : q.length + o = b.total
    · have hq : 0 < q.length := by omega
      have e1 : (q.length == 0) = false := beq_false_of_ne (by omega)
      refine ⟨b.alc, ?_, ?_⟩
      · rw [if_pos]
        · rw [full]; simp
        · rw [hemp, e1]
          unfold rep at halc
          rcases Nat.eq_zero_or_pos b.cur with hc | hc
          · have : b.alc = b.total := by rw [halc, if_pos (by omega)]; omega
            simp [hc, this]
          · have : b.alc = b.cur := by rw [halc, if_neg (by omega)]; omega
            simp [this]; omega
      · rw [halc, full]; simp
    · have hlt : q.length + o < b.total := by omega
      rw [if_neg]
      · unfold rep at halc
        generalize hn' : (if n ≤ b.total then n else b.total) = n'
        have hmin : ∀ x, x ≤ b.total → min n x = min n' x := by intro x hx; rw [← hn']; split <;> omega
        rw [hmin _ (by omega)]
        have hn2 : n' ≤ b.total := by rw [← hn']; split <;> omega
        have hn3 : 0 < n' := by rw [← hn']; split <;> omega
        clear hn' hmin
        by_cases c0 : b.cur + q.length + o ≤ b.total
        · rw [if_pos c0] at halc
          rw [if_pos (by omega)]
          by_cases c1 : b.alc < b.total
          · rw [if_pos c1]
            dsimp only
            by_cases c2 : b.total - b.alc ≥ n'
            · rw [if_pos c2]
              refine ⟨b.alc + n', ?_, ?_⟩
              · congr 1; omega
              · unfold rep; rw [if_pos (by omega)]; omega
            · rw [if_neg c2]
              by_cases c3 : n' - (b.total - b.alc) ≤ b.cur
              · rw [if_pos c3]
                refine ⟨_, by congr 1; omega, ?_⟩
                unfold rep; rw [if_neg (by omega)]; omega
              · rw [if_neg c3]
                by_cases c4 : b.cur ≠ 0
                · rw [if_pos c4]
                  refine ⟨_, by congr 1; omega, ?_⟩
                  unfold rep; rw [if_neg (by omega)]; omega
                · rw [if_neg c4]
                  refine ⟨_, by congr 1; omega, ?_⟩
                  unfold rep; rw [if_pos (by omega)]; omega
          · rw [if_neg c1, if_pos (by omega)]
            refine ⟨if b.cur > n' then n' else b.cur, ?_, ?_⟩
            · dsimp only; congr 1; split <;> omega
            · unfold rep
              by_cases cc : b.cur > n'
              · rw [if_pos cc, show min n' (b.total - (q.length + o)) = n' by omega]; split <;> omega
              · rw [if_neg cc, show min n' (b.total - (q.length + o)) = b.cur by omega]; split <;> omega
        · rw [if_neg c0] at halc
          rw [if_neg (by omega)]
          dsimp only
          refine ⟨_, by congr 1; split <;> omega, ?_⟩
          unfold rep; split <;> split <;> omega
      · unfold rep at halc
        intro hc
        rw [hemp] at hc
        simp only [Bool.and_eq_true, Bool.not_eq_true', Bool.or_eq_true, bne_iff_ne, ne_eq, beq_iff_eq, beq_eq_false_iff_ne] at hc
        split at halc <;> omega
  obtain ⟨w', he, hw⟩ := key
  rw [he]
  exact ⟨rfl, ⟨hpos, hcur, by dsimp only; omega, h.alv, by dsimp only; rw [hw], h.empty, h.data⟩, rfl⟩

theorem copy2buf_in {mem : Nat → α} {ofs k : Nat} {xs : List α} (h1 : ofs ≤ k) (h2 : k < ofs + xs.length) :
    copy2buf mem ofs xs k = xs[k - ofs]'(by omega) := by
  unfold copy2buf
  rw [if_pos h1, List.getElem?_eq_getElem (by omega)]; rfl
theorem copy2buf_out {mem : Nat → α} {ofs k : Nat} {xs : List α} (h : k < ofs ∨ ofs + xs.length ≤ k) : copy2buf mem ofs xs k = mem k := by
  unfold copy2buf
  split
  · rw [List.getElem?_eq_none (by omega)]; rfl
  · rfl

theorem done_good {b : Buf α} {q : List α} {o : Nat} (h : Good b q o) (xs : List α) (hx : 0 < xs.length) (hxo : xs.length ≤ o) :
    Good (b.done xs) (q ++ xs) (o - xs.length) ∧ (b.done xs).total = b.total ∧ (b.done xs).cur = b.cur ∧
    ∀ i, i < q.length → (b.done xs).mem (cellAt b.total b.cur i) = b.mem (cellAt b.total b.cur i) := by
  have hpos := h.pos
  have hcur := h.cur
  have hfit := h.fit
  have halv := h.alv
  have halc := h.alc
  have key : ∃ v' mem', b.done xs = { b with alv := v', mem := mem', empty := false } ∧ v' = rep b.total (b.cur + q.length + xs.length) ∧
      (∀ i (hi : i < xs.length), mem' (cellAt b.total b.cur (q.length + i)) = xs[i]) ∧
      (∀ i, i < q.length → mem' (cellAt b.total b.cur i) = b.mem (cellAt b.total b.cur i)) := by
    unfold rep at halv halc
    by_cases c : b.alv < b.alc
    · have hds : (if b.alc - b.alv < xs.length then b.alc - b.alv else xs.length) = xs.length := by
        split at halv <;> split at halc <;> split <;> omega
      refine ⟨b.alv + xs.length, copy2buf b.mem b.alv xs, ?_, ?_, ?_, ?_⟩
      · unfold Buf.done
        simp only [c, if_true, hds, List.take_length]
      · unfold rep; split at halv <;> split at halc <;> split <;> omega
      · intro i hi
        have e : cellAt b.total b.cur (q.length + i) = b.alv + i := by
          unfold cellAt; split at halv <;> split at halc <;> split <;> omega
        rw [e, copy2buf_in (by omega) (by omega)]
        congr 1; omega
      · intro i hi
        apply copy2buf_out
        unfold cellAt; split at halv <;> split at halc <;> split <;> omega
    · have h1 : b.alv = b.cur + q.length := by split at halv <;> split at halc <;> omega
      have h2 : b.alc = b.cur + q.length + o - b.total := by split at halv <;> split at halc <;> omega
      have h3 : b.total < b.cur + q.length + o := by split at halv <;> split at halc <;> omega
      have h4 : b.cur + q.length ≤ b.total := by split at halv <;> split at halc <;> omega
      clear halv halc
      by_cases c2 : b.total - b.alv ≥ xs.length
      · refine ⟨b.alv + xs.length, copy2buf b.mem b.alv xs, ?_, ?_, ?_, ?_⟩
        · unfold Buf.done
          simp only [c, if_false, c2, if_true]
        · unfold rep; rw [if_pos (by omega)]; omega
        · intro i hi
          have e : cellAt b.total b.cur (q.length + i) = b.alv + i := by unfold cellAt; split <;> omega
          rw [e, copy2buf_in (by omega) (by omega)]
          congr 1; omega
        · intro i hi
          apply copy2buf_out
          unfold cellAt; split <;> omega
      · have hbs2 : (if xs.length - (b.total - b.alv) < b.alc then xs.length - (b.total - b.alv) else b.alc) = xs.length - (b.total - b.alv) := by
          split <;> omega
        have hmem1 : (if b.total - b.alv ≠ 0 then copy2buf b.mem b.alv (xs.take (b.total - b.alv)) else b.mem) =
            copy2buf b.mem b.alv (xs.take (b.total - b.alv)) := by
          split
          · rfl
          · rename_i hz
            simp only [ne_eq, not_not] at hz
            funext k; rw [copy2buf_out (by simp [hz]; omega)]
        refine ⟨xs.length - (b.total - b.alv), copy2buf (copy2buf b.mem b.alv (xs.take (b.total - b.alv))) 0 (xs.drop (b.total - b.alv)),
          ?_, ?_, ?_, ?_⟩
        · unfold Buf.done
          have e : (xs.drop (b.total - b.alv)).take (xs.length - (b.total - b.alv)) = xs.drop (b.total - b.alv) :=
            List.take_of_length_le (by simp)
          simp only [c, if_false, c2, hbs2, hmem1, e]
        · unfold rep; rw [if_neg (by omega)]; omega
        · intro i hi
          unfold cellAt
          by_cases ci : b.cur + (q.length + i) < b.total
          · rw [if_pos ci, copy2buf_out (by simp; omega), copy2buf_in (by omega) (by simp; omega), List.getElem_take]
            congr 1; omega
          · rw [if_neg ci, copy2buf_in (by omega) (by simp; omega), List.getElem_drop]
            congr 1; omega
        · intro i hi
          unfold cellAt
          by_cases ci : b.cur + i < b.total
          · rw [if_pos ci, copy2buf_out (by simp; omega), copy2buf_out (by simp; omega)]
          · omega
  obtain ⟨v', mem', he, hv, hm1, hm2⟩ := key
  rw [he]
  refine ⟨⟨hpos, hcur, ?_, ?_, ?_, ?_, ?_⟩, rfl, rfl, hm2⟩
  · simp; omega
  · simp only [List.length_append]; rw [hv]; congr 1; omega
  · simp only [List.length_append]; rw [h.alc]; congr 1; omega
  · exact (beq_false_of_ne (by rw [List.length_append]; omega)).symm
  · intro i hi
    rw [List.getElem_append]
    show mem' (cellAt b.total b.cur i) = _
    split
    · rename_i hl; rw [hm2 i hl, h.data i hl]
    · rename_i hl
      simp only [List.length_append] at hi
      rw [← hm1 (i - q.length) (by omega)]
      congr 2; omega

end Nntl.DataBuf
