import Verif.NetFile.Lemmas
/-! Helper lemmas for networks in files: reading an arbitrary file. -/
namespace Nntl.NetFile
open Nntl.Matrix Nntl.MatFile
set_option linter.unusedSimpArgs false

theorem suitable_iff {T : Cls} (n c : Nat) (w : Mtx (Elem T)) : weightsSuitable n c w = true ↔ Fits n c w := by
  simp only [weightsSuitable, Mtx.empty, Bool.not_eq_true', Bool.or_eq_false_iff, decide_eq_false_iff_not, ne_eq, Decidable.not_not,
    beq_eq_false_iff_ne]
  exact ⟨fun ⟨⟨⟨⟨a, b⟩, c⟩, d⟩, e⟩ => ⟨e, d, c, b, by omega⟩, fun ⟨a, b, c, d, e⟩ => ⟨⟨⟨⟨by omega, d⟩, c⟩, b⟩, a⟩⟩

theorem weights_no_x : ¬ XName "m_weights" := by decide

/-- What `Lyr.From` says about the weights, given the fields of the layer's struct. -/
def WFrom {T : Cls} (fs : Vars) (n c : Nat) (w : Mtx (Elem T)) : Prop :=
  ∃ S d, fget fs "m_weights" = some (.num S n (c + 1) d) ∧
    ∃ g : Nat → Elem T, (S = T → ∀ x, g x = ⟨x⟩) ∧ ∀ r j, r < n → j < c + 1 → w.get r j = some (g (d (r + n * j)))

theorem loadWeights_any {T : Cls} (E : Env) (n c : Nat) (w : Mtx (Elem T)) (ini : Bool) (s : St) (hf : s.file.isSome = true) :
    Kept s (loadWeights E n c w ini s).2 ∧
    ((loadWeights E n c w ini s).1 = (w, ini) ∨
      ((loadWeights E n c w ini s).1.2 = true ∧ Fits n c (loadWeights E n c w ini s).1.1)) ∧
    ((loadWeights E n c w ini s).2.err = .success → s.err = .success ∧ s.cur = none ∧ (loadWeights E n c w ini s).2.cur = none ∧
      (loadWeights E n c w ini s).1.2 = true ∧ Fits n c (loadWeights E n c w ini s).1.1 ∧
      WFrom (scope s) n c (loadWeights E n c w ini s).1.1) := by
  rcases asNvp_any "m_weights" (Mtx.default (E.elems T s.tick)) (loadMtx E "m_weights" false (Mtx.default (E.elems T s.tick))) s hf with
    ⟨-, h2, h3⟩ | ⟨he, hc, h⟩
  · simp only [loadWeights, if_neg h2]
    exact ⟨h3, .inl trivial, fun h => absurd h h2⟩
  · simp only [loadWeights, h]
    obtain ⟨a, b⟩ := loadMtx_any E "m_weights" false (Mtx.default (E.elems T s.tick)) { s with cur := some "m_weights" } rfl hf he weights_no_x
    generalize loadMtx E "m_weights" false (Mtx.default (E.elems T s.tick)) { s with cur := some "m_weights" } = r at *
    by_cases hr : r.2.err = .success
    · simp only [if_pos hr]
      obtain ⟨b1, S, R, C, d, g, b2, b3, b4, b5, F⟩ := b hr
      by_cases hs : weightsSuitable n c r.1 = true
      · simp only [if_pos hs]
        have hfit := (suitable_iff n c r.1).1 hs
        have hfit' : Fits n c r.1.updateOnHiddenResize := ⟨hfit.1, hfit.2, hfit.3, hfit.4, hfit.5⟩
        refine ⟨a, .inr ⟨trivial, hfit'⟩, fun _ => ⟨he, hc, b1, trivial, hfit', ?_⟩⟩
        have eR : R = n := by rw [← F.rows, hfit.rows]
        have eC : C = c + 1 := by rw [← F.cols, hfit.cols]
        subst eR eC
        refine ⟨S, d, b2, g, ?_, ?_⟩
        · rintro rfl x
          rw [element_same] at b5
          cases b5
          rfl
        · intro i j hi hj
          have := F.get i j hi hj
          rw [if_neg (fun q => weights_no_x q.1)] at this
          exact this
      · simp only [if_neg hs]
        exact ⟨a, .inl trivial, nofun⟩
    · simp only [if_neg hr]
      exact ⟨a, .inl trivial, fun h => absurd h hr⟩

/-- See `Touched`. -/
abbrev TR {T : Cls} : Nat → Nat → Mtx (Elem T) → Bool → Mtx (Elem T) → Bool → Prop :=
  fun n c w ini w' ini' => (w' = w ∧ ini' = ini) ∨ (ini' = true ∧ Fits n c w')

mutual
theorem touched_refl {T : Cls} : ∀ (l : Lyr T), l.Rel TR (fun _ _ => True) l
  | .plain b i => by simp [Lyr.Rel]
  | .fc b i n c w ini => by simp [Lyr.Rel, TR]
  | .pack b i l => by simp only [Lyr.Rel, true_and]; exact touchedAll_refl l
  | .tile b i k l => by simp only [Lyr.Rel, true_and]; exact touched_refl l
theorem touchedAll_refl {T : Cls} : ∀ (l : List (Lyr T)), RelAll TR (fun _ _ => True) l l
  | [] => by simp [RelAll]
  | l :: ls => by simp only [RelAll]; exact ⟨touched_refl l, touchedAll_refl ls⟩
end

theorem loadLyr_latched {T : Cls} (E : Env) (l : Lyr T) (s : St) (h : s.err ≠ .success) : loadLyr E l s = (l, s) := by
  cases l <;> simp [loadLyr, inStruct, h]

theorem loadLyrs_latched {T : Cls} (E : Env) : ∀ (ls : List (Lyr T)) (s : St), s.err ≠ .success → loadLyrs E ls s = (ls, s)
  | [], s, _ => by simp [loadLyrs]
  | l :: ls, s, h => by simp [loadLyrs, loadLyr_latched E l s h, loadLyrs_latched E ls s h]

mutual
theorem loadLyr_any {T : Cls} (E : Env) : ∀ (l : Lyr T) (s : St), s.file.isSome = true →
    Kept s (loadLyr E l s).2 ∧ l.Rel TR (fun _ _ => True) (loadLyr E l s).1 ∧
    ((loadLyr E l s).2.err = .success → s.err = .success ∧ s.cur = none ∧ (loadLyr E l s).2.cur = none ∧ (loadLyr E l s).1.From (scope s))
  | .plain b i, s, hf => by
    obtain ⟨h1, h2⟩ := inStruct_any E (NetFile.label b i) () (fun s => ((), s)) s hf (fun s1 _ => Kept.refl s1)
    simp only [loadLyr, Lyr.Rel, Lyr.From, true_and]
    refine ⟨h1, fun he => ?_⟩
    rcases h2 with ⟨-, h2⟩ | ⟨fs, k, a, b, c, d⟩
    · exact absurd he h2
    · exact ⟨a, b, by rw [d], fs, c⟩
  | .fc b i n c w ini, s, hf => by
    obtain ⟨h1, h2⟩ := inStruct_any E (NetFile.label b i) (w, ini) (fun s => loadWeights E n c w ini s) s hf
      (fun s1 h => (loadWeights_any E n c w ini s1 h).1)
    simp only [loadLyr, Lyr.Rel, Lyr.From, true_and]
    rcases h2 with ⟨h3, h2⟩ | ⟨fs, k, a, b', c', d⟩
    · exact ⟨h1, .inl (by rw [h3]; exact ⟨rfl, rfl⟩), fun he => absurd he h2⟩
    · obtain ⟨-, q2, q3⟩ := loadWeights_any E n c w ini ⟨s.file, none, fs :: s.stack, .success, k⟩ hf
      refine ⟨h1, ?_, fun he => ?_⟩
      · rw [d]
        rcases q2 with q2 | q2
        · exact .inl (by simp only [q2]; exact ⟨trivial, trivial⟩)
        · exact .inr q2
      · rw [d] at he ⊢
        obtain ⟨-, -, r1, r2, r3, S, dd, r4, r5⟩ := q3 he
        exact ⟨a, b', r1, r2, r3, fs, S, dd, c', r4, r5⟩
  | .pack b i l, s, hf => by
    obtain ⟨h1, h2⟩ := inStruct_any E (NetFile.label b i) l (fun s => loadLyrs E l s) s hf
      (fun s1 h => (loadLyrs_any E l s1 h).1)
    simp only [loadLyr, Lyr.Rel, Lyr.From, true_and]
    rcases h2 with ⟨h3, h2⟩ | ⟨fs, k, a, b', c', d⟩
    · exact ⟨h1, by rw [h3]; exact touchedAll_refl l, fun he => absurd he h2⟩
    · obtain ⟨-, q2, q3⟩ := loadLyrs_any E l ⟨s.file, none, fs :: s.stack, .success, k⟩ hf
      refine ⟨h1, by rw [d]; exact q2, fun he => ?_⟩
      rw [d] at he ⊢
      obtain ⟨-, r1, r2⟩ := q3 he rfl
      exact ⟨a, b', r1, fs, c', r2⟩
  | .tile b i k l, s, hf => by
    have key : ∀ s1 : St, s1.file.isSome = true →
        Kept s1 (asNvp "m_tiles_count" k (loadScalar E .int32 k) s1).2 ∧
        ((asNvp "m_tiles_count" k (loadScalar E .int32 k) s1).2.err = .success → s1.err = .success ∧ s1.cur = none ∧
          ∃ d, fget (scope s1) "m_tiles_count" = some (.num .int32 1 1 d) ∧
            (asNvp "m_tiles_count" k (loadScalar E .int32 k) s1).1 = d 0) := by
      intro s1 h
      rcases asNvp_any "m_tiles_count" k (loadScalar E .int32 k) s1 h with ⟨h1, h2, h3⟩ | ⟨h1, h2, h3⟩
      · exact ⟨h3, fun q => absurd q h2⟩
      · rw [h3]
        obtain ⟨p, q⟩ := loadScalar_any E "m_tiles_count" .int32 k { s1 with cur := some "m_tiles_count" } rfl h
        exact ⟨p, fun h => ⟨h1, h2, (q h).2⟩⟩
    obtain ⟨h1, h2⟩ := inStruct_any E (NetFile.label b i) (k, l) (fun s =>
      let p := asNvp "m_tiles_count" k (loadScalar E .int32 k) s
      let q := loadLyr E l p.2
      ((p.1, q.1), q.2)) s hf
      (fun s1 h => (key s1 h).1.trans (loadLyr_any E l _ (by rw [(key s1 h).1.1]; exact h)).1)
    simp only [loadLyr, Lyr.Rel, Lyr.From, true_and]
    rcases h2 with ⟨h3, h2⟩ | ⟨fs, t, a, b', c', d⟩
    · exact ⟨h1, by rw [h3]; exact touched_refl l, fun he => absurd he h2⟩
    · obtain ⟨p1, p2⟩ := key ⟨s.file, none, fs :: s.stack, .success, t⟩ hf
      obtain ⟨-, q2, q3⟩ := loadLyr_any E l (asNvp "m_tiles_count" k (loadScalar E .int32 k) ⟨s.file, none, fs :: s.stack, .success, t⟩).2
        (by rw [p1.1]; exact hf)
      refine ⟨h1, by rw [d]; exact q2, fun he => ?_⟩
      rw [d] at he ⊢
      obtain ⟨r0, r1, r2, r3⟩ := q3 he
      obtain ⟨-, -, dd, u1, u2⟩ := p2 r0
      rw [kept_scope p1] at r3
      exact ⟨a, b', r2, fs, dd, c', u1, u2, r3⟩
theorem loadLyrs_any {T : Cls} (E : Env) : ∀ (ls : List (Lyr T)) (s : St), s.file.isSome = true →
    Kept s (loadLyrs E ls s).2 ∧ RelAll TR (fun _ _ => True) ls (loadLyrs E ls s).1 ∧
    ((loadLyrs E ls s).2.err = .success → s.cur = none → s.err = .success ∧ (loadLyrs E ls s).2.cur = none ∧ AllFrom (scope s) (loadLyrs E ls s).1)
  | [], s, _ => by
    simp only [loadLyrs, RelAll, AllFrom, and_true, true_and]
    exact ⟨Kept.refl s, fun h1 h2 => ⟨h1, h2⟩⟩
  | l :: ls, s, hf => by
    obtain ⟨a1, a2, a3⟩ := loadLyr_any E l s hf
    obtain ⟨b1, b2, b3⟩ := loadLyrs_any E ls (loadLyr E l s).2 (by rw [a1.1]; exact hf)
    simp only [loadLyrs, RelAll, AllFrom]
    refine ⟨a1.trans b1, ⟨a2, b2⟩, fun h1 h2 => ?_⟩
    by_cases he : (loadLyr E l s).2.err = .success
    · obtain ⟨p1, p2, p3, p4⟩ := a3 he
      obtain ⟨-, q2, q3⟩ := b3 h1 p3
      rw [kept_scope a1] at q3
      exact ⟨p1, q2, p4, q3⟩
    · rw [loadLyrs_latched E ls _ he] at h1
      exact absurd h1 he
end

end Nntl.NetFile
