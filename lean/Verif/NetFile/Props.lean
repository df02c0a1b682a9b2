import Verif.NetFile.Any
/-! C146 (weights written are the weights read), C147 (reading an arbitrary file). -/
namespace Nntl.NetFile
open Nntl.Matrix Nntl.MatFile
set_option linter.unusedSimpArgs false

/-! ### Helpers: what a file written for a network says -/

/-- See `SameWeights`. -/
abbrev SW {T : Cls} : Nat → Nat → Mtx (Elem T) → Bool → Mtx (Elem T) → Bool → Prop :=
  fun n c w _ w' ini' => ini' = true ∧ Fits n c w' ∧ ∀ i j, w'.get i j = w.get i j

theorem item_var {T : Cls} (l : Lyr T) : ∃ b, l.item = .strct (NetFile.label l.base l.idx) b ∧ l.item.var = .strct 1 1 (putAll [] b) := by
  cases l <;> simp [Lyr.item, Item.var, Lyr.base, Lyr.idx]

mutual
theorem from_same {T : Cls} (R : Nat → Nat → Mtx (Elem T) → Bool → Mtx (Elem T) → Bool → Prop) (K : Nat → Nat → Prop) :
    ∀ (a b : Lyr T) (vs : Vars), a.item.Named → a.Each (fun n c w _ => 0 < n ∧ Fits n c w) → a.Rel R K b → fget vs a.item.name = some a.item.var →
      b.From vs → a.Rel SW (· = ·) b
  | .plain b i, x, vs, _, _, hr, _, _ => by cases x <;> simp_all [Lyr.Rel]
  | .fc b i n c w ini, x, vs, _, hfit, hr, hl, hx => by
    cases x with
    | fc b' i' n' c' w' ini' =>
      simp only [Lyr.Rel] at hr
      obtain ⟨rfl, rfl, rfl, rfl, -⟩ := hr
      simp only [Lyr.From] at hx
      simp only [Lyr.Each] at hfit
      obtain ⟨h1, h2, fs, S, d, h3, h4, g, h5, h6⟩ := hx
      simp only [Lyr.item, Item.name, Item.var, putAll, fput, Leaf.var] at hl
      rw [show NetFile.label b i = b ++ "_" ++ i.repr from rfl, h3] at hl
      cases hl
      simp only [fget, if_true, Option.some.injEq, Var.num.injEq] at h4
      obtain ⟨rfl, e1, e2, rfl⟩ := h4
      simp only [Lyr.Rel, true_and]
      refine ⟨h1, h2, fun r j => ?_⟩
      by_cases hin : r < n ∧ j < c + 1
      · rw [h6 r j hin.1 hin.2, h5 rfl]
        simp only [Mtx.get, Mtx.cell]
        rw [hfit.2.rows, hfit.2.cols, if_pos hin]
      · simp only [Mtx.get]
        rw [hfit.2.rows, hfit.2.cols, h2.rows, h2.cols, if_neg hin, if_neg hin]
    | plain => simp [Lyr.Rel] at hr
    | pack => simp [Lyr.Rel] at hr
    | tile => simp [Lyr.Rel] at hr
  | .pack b i l, x, vs, hn, hfit, hr, hl, hx => by
    cases x with
    | pack b' i' l' =>
      simp only [Lyr.Rel] at hr
      obtain ⟨rfl, rfl, hr⟩ := hr
      simp only [Lyr.From] at hx
      simp only [Lyr.Each] at hfit
      obtain ⟨fs, h3, h4⟩ := hx
      simp only [Lyr.item, Item.Named] at hn
      simp only [Lyr.item, Item.name, Item.var] at hl
      rw [show NetFile.label b i = b ++ "_" ++ i.repr from rfl, h3] at hl
      cases hl
      simp only [Lyr.Rel, true_and]
      exact from_same_all R K l l' _ hn hfit hr (fun j hj => putAll_mem _ _ hn j hj) h4
    | plain => simp [Lyr.Rel] at hr
    | fc => simp [Lyr.Rel] at hr
    | tile => simp [Lyr.Rel] at hr
  | .tile b i k l, x, vs, hn, hfit, hr, hl, hx => by
    cases x with
    | tile b' i' k' l' =>
      simp only [Lyr.Rel] at hr
      obtain ⟨rfl, rfl, -, hr⟩ := hr
      simp only [Lyr.From] at hx
      simp only [Lyr.Each] at hfit
      obtain ⟨fs, d, h3, h4, rfl, h6⟩ := hx
      simp only [Lyr.item, Item.Named] at hn
      simp only [Lyr.item, Item.name, Item.var] at hl
      rw [show NetFile.label b i = b ++ "_" ++ i.repr from rfl, h3] at hl
      cases hl
      have m1 := putAll_mem _ [] hn (.nvp "m_tiles_count" (.scalar .int32 k)) List.mem_cons_self
      have m2 := putAll_mem _ [] hn l.item (List.mem_cons_of_mem _ List.mem_cons_self)
      simp only [Item.name] at m1
      rw [h4] at m1
      simp only [Item.var, Leaf.var, Option.some.injEq, Var.num.injEq, true_and] at m1
      simp only [Lyr.Rel, true_and]
      refine ⟨by rw [m1], ?_⟩
      simp only [AllNamed, and_true, true_and] at hn
      exact from_same R K l l' _ hn.2.2.1 hfit hr m2 h6
    | plain => simp [Lyr.Rel] at hr
    | fc => simp [Lyr.Rel] at hr
    | pack => simp [Lyr.Rel] at hr
theorem from_same_all {T : Cls} (R : Nat → Nat → Mtx (Elem T) → Bool → Mtx (Elem T) → Bool → Prop) (K : Nat → Nat → Prop) :
    ∀ (a b : List (Lyr T)) (vs : Vars), AllNamed (items a) → EachAll (fun n c w _ => 0 < n ∧ Fits n c w) a → RelAll R K a b →
      (∀ j ∈ items a, fget vs j.name = some j.var) → AllFrom vs b → RelAll SW (· = ·) a b
  | [], b, vs, _, _, hr, _, _ => by cases b <;> simp_all [RelAll]
  | a :: as, b, vs, hn, hfit, hr, hl, hx => by
    cases b with
    | nil => simp [RelAll] at hr
    | cons b bs =>
      simp only [RelAll, EachAll, AllFrom, items, AllNamed] at *
      exact ⟨from_same R K a b vs hn.1 hfit.1 hr.1 (hl _ List.mem_cons_self) hx.1,
        from_same_all R K as bs vs hn.2.2 hfit.2 hr.2 (fun j hj => hl j (List.mem_cons_of_mem _ hj)) hx.2⟩
end

mutual
theorem rel_trans {T : Cls} {R R' : Nat → Nat → Mtx (Elem T) → Bool → Mtx (Elem T) → Bool → Prop} {K K' : Nat → Nat → Prop} :
    ∀ (a b c : Lyr T), a.Rel R K b → b.Rel R' K' c → a.Rel (fun _ _ _ _ _ _ => True) (fun _ _ => True) c
  | .plain _ _, b, c, h1, h2 => by cases b <;> cases c <;> simp_all [Lyr.Rel]
  | .fc _ _ _ _ _ _, b, c, h1, h2 => by cases b <;> cases c <;> simp_all [Lyr.Rel]
  | .pack _ _ l, b, c, h1, h2 => by
    cases b <;> cases c <;> simp only [Lyr.Rel] at *
    exact ⟨h1.1.trans h2.1, h1.2.1.trans h2.2.1, relAll_trans _ _ _ h1.2.2 h2.2.2⟩
  | .tile _ _ _ l, b, c, h1, h2 => by
    cases b <;> cases c <;> simp only [Lyr.Rel] at *
    exact ⟨h1.1.trans h2.1, h1.2.1.trans h2.2.1, trivial, rel_trans _ _ _ h1.2.2.2 h2.2.2.2⟩
theorem relAll_trans {T : Cls} {R R' : Nat → Nat → Mtx (Elem T) → Bool → Mtx (Elem T) → Bool → Prop} {K K' : Nat → Nat → Prop} :
    ∀ (a b c : List (Lyr T)), RelAll R K a b → RelAll R' K' b c → RelAll (fun _ _ _ _ _ _ => True) (fun _ _ => True) a c
  | [], b, c, h1, h2 => by cases b <;> cases c <;> simp_all [RelAll]
  | a :: as, b, c, h1, h2 => by
    cases b <;> cases c <;> simp only [RelAll] at *
    exact ⟨rel_trans _ _ _ h1.1 h2.1, relAll_trans _ _ _ h1.2 h2.2⟩
end

/-! ### Helpers: nothing fails -/

theorem inStruct_total {α : Type} (E : Env) (hE : ∀ k, E.ok k = true) (n : String) (x : α) (body : St → α × St) (s : St)
    (hf : s.file.isSome = true) (he : s.err = .success) (hc : s.cur = none) (fs : Vars) (hl : fget (scope s) n = some (.strct 1 1 fs))
    (hb : ∀ k, (body ⟨s.file, none, fs :: s.stack, .success, k⟩).2.err = .success) : (inStruct E n x body s).2.err = .success := by
  obtain ⟨f, cur, st, e0, t⟩ := s
  obtain ⟨f, rfl⟩ := Option.isSome_iff_exists.1 hf
  simp only at he hc
  subst he hc
  obtain ⟨k, hv⟩ | ⟨s', -, -, -, k, h3⟩ := loadVar_found E ⟨some f, some n, st, .success, t⟩ true n _ rfl rfl
    ((lookup_scope ⟨some f, some n, st, .success, t⟩ rfl n).trans hl) (.inl ⟨1, 1, fs, rfl, rfl, by omega, by omega⟩)
  · have := hb k
    simp only [inStruct, ne_eq, not_true_eq_false, if_false, Option.isSome_none, Bool.false_eq_true, hv, and_self, if_true]
    exact this
  · rw [hE] at h3; cases h3

theorem asNvp_start {α : Type} (n : String) (x : α) (body : St → α × St) (s : St) (hf : s.file.isSome = true) (he : s.err = .success)
    (hc : s.cur = none) : asNvp n x body s = body { s with cur := some n } := by
  rcases asNvp_any n x body s hf with ⟨-, -, -⟩ | ⟨-, -, h⟩
  · obtain ⟨f, hf'⟩ := Option.isSome_iff_exists.1 hf
    simp [asNvp, he, hc, hf']
  · exact h

theorem loadWeights_total {T : Cls} (E : Env) (hE : ∀ k, E.ok k = true) (n c : Nat) (w w0 : Mtx (Elem T)) (ini : Bool) (s : St)
    (hf : s.file.isSome = true) (he : s.err = .success) (hc : s.cur = none) (hn : 0 < n) (hw : Fits n c w0)
    (hl : fget (scope s) "m_weights" = some (.num T w0.rows w0.cols fun k => (w0.data k).bits)) :
    (loadWeights E n c w ini s).2.err = .success := by
  simp only [loadWeights, asNvp_start "m_weights" _ _ s hf he hc]
  obtain ⟨-, b, d⟩ := loadMtx_found E "m_weights" false (Mtx.default (E.elems T s.tick)) { s with cur := some "m_weights" } T w0.rows w0.cols
    (fun k => (w0.data k).bits) _ (element_same E T) rfl hf he ((lookup_scope { s with cur := some "m_weights" } hf _).trans hl)
    (by rw [hw.rows]; exact hn) (by rw [hw.cols]; omega) (fun h => absurd h weights_no_x)
  have d := d hE
  have F := (b d).2
  rw [if_pos d, if_pos]
  · exact d
  · rw [suitable_iff]
    refine ⟨F.rows.trans hw.rows, F.cols.trans hw.cols, ?_, F.bir, ?_⟩
    · cases h : (loadMtx E "m_weights" false (Mtx.default (E.elems T s.tick)) { s with cur := some "m_weights" }).1.emul
      · rfl
      · exact absurd (F.emul.1 h) weights_no_x
    · rw [F.cap, F.rows, F.cols, hw.rows, hw.cols]
      exact Nat.mul_pos hn (by omega)

mutual
theorem loadLyr_total {T : Cls} (E : Env) (hE : ∀ k, E.ok k = true) : ∀ (a b : Lyr T) (s : St), a.item.Named →
    a.Each (fun n c w _ => 0 < n ∧ Fits n c w) → a.Rel (fun _ _ _ _ _ _ => True) (fun _ _ => True) b → s.file.isSome = true → s.err = .success →
    s.cur = none → fget (scope s) a.item.name = some a.item.var → (loadLyr E b s).2.err = .success
  | .plain b i, x, s, _, _, hr, hf, he, hc, hl => by
    cases x <;> simp only [Lyr.Rel] at hr
    obtain ⟨rfl, rfl⟩ := hr
    simp only [loadLyr]
    exact inStruct_total E hE _ _ _ s hf he hc _ hl (fun _ => rfl)
  | .fc b i n c w ini, x, s, hn, hfit, hr, hf, he, hc, hl => by
    cases x <;> simp only [Lyr.Rel] at hr
    obtain ⟨rfl, rfl, rfl, rfl, -⟩ := hr
    simp only [loadLyr]
    simp only [Lyr.Each] at hfit
    refine inStruct_total E hE _ _ _ s hf he hc _ hl (fun k => ?_)
    refine loadWeights_total E hE n c _ w _ _ hf rfl rfl hfit.1 hfit.2 ?_
    simp [scope, putAll, fput, fget, Item.name, Item.var, Leaf.var]
  | .pack b i l, x, s, hn, hfit, hr, hf, he, hc, hl => by
    cases x <;> simp only [Lyr.Rel] at hr
    rename_i l'
    obtain ⟨rfl, rfl, hr⟩ := hr
    simp only [loadLyr]
    simp only [Lyr.Each] at hfit
    simp only [Lyr.item, Item.Named] at hn
    simp only [Lyr.item, Item.var] at hl
    refine inStruct_total E hE _ _ _ s hf he hc _ hl (fun k => ?_)
    exact loadLyrs_total E hE l l' _ hn hfit hr hf rfl rfl (fun j hj => putAll_mem _ _ hn j hj)
  | .tile b i t l, x, s, hn, hfit, hr, hf, he, hc, hl => by
    cases x <;> simp only [Lyr.Rel] at hr
    rename_i t' l'
    obtain ⟨rfl, rfl, -, hr⟩ := hr
    simp only [loadLyr]
    simp only [Lyr.Each] at hfit
    simp only [Lyr.item, Item.Named] at hn
    simp only [Lyr.item, Item.var] at hl
    refine inStruct_total E hE _ _ _ s hf he hc _ hl (fun k => ?_)
    have m1 := putAll_mem _ [] hn (.nvp "m_tiles_count" (.scalar .int32 t)) List.mem_cons_self
    have m2 := putAll_mem _ [] hn l.item (List.mem_cons_of_mem _ List.mem_cons_self)
    simp only [Item.name, Item.var, Leaf.var] at m1
    simp only [AllNamed, and_true, true_and] at hn
    rw [asNvp_start "m_tiles_count" t' (loadScalar E .int32 t')
      ⟨s.file, none, putAll [] [.nvp "m_tiles_count" (.scalar .int32 t), l.item] :: s.stack, .success, k⟩ hf rfl rfl]
    obtain ⟨p, q, r⟩ := loadScalar_found E "m_tiles_count" .int32 t' t
      ⟨s.file, some "m_tiles_count", putAll [] [.nvp "m_tiles_count" (.scalar .int32 t), l.item] :: s.stack, .success, k⟩ rfl hf rfl
      (by simp only [lookup]; exact m1)
    have r := r hE
    refine loadLyr_total E hE l l' _ hn.2.2.1 hfit hr (by rw [p.1]; exact hf) r (q r).1 ?_
    rw [kept_scope p]
    exact m2
theorem loadLyrs_total {T : Cls} (E : Env) (hE : ∀ k, E.ok k = true) : ∀ (a b : List (Lyr T)) (s : St), AllNamed (items a) →
    EachAll (fun n c w _ => 0 < n ∧ Fits n c w) a → RelAll (fun _ _ _ _ _ _ => True) (fun _ _ => True) a b → s.file.isSome = true → s.err = .success →
    s.cur = none → (∀ j ∈ items a, fget (scope s) j.name = some j.var) → (loadLyrs E b s).2.err = .success
  | [], b, s, _, _, hr, _, he, _, _ => by
    cases b with
    | nil => simpa [loadLyrs] using he
    | cons => simp [RelAll] at hr
  | a :: as, b, s, hn, hfit, hr, hf, he, hc, hl => by
    cases b with
    | nil => simp [RelAll] at hr
    | cons b bs =>
      simp only [RelAll, EachAll, items, AllNamed, loadLyrs] at *
      have h1 := loadLyr_total E hE a b s hn.1 hfit.1 hr.1 hf he hc (hl _ List.mem_cons_self)
      obtain ⟨p1, -, p3⟩ := loadLyr_any E b s hf
      refine loadLyrs_total E hE as bs _ hn.2.2 hfit.2 hr.2 (by rw [p1.1]; exact hf) h1 (p3 h1).2.2.1 (fun j hj => ?_)
      rw [kept_scope p1]
      exact hl j (List.mem_cons_of_mem _ hj)
end

/-! ### C146 -/

theorem open_write (E : Env) (disk : Option Vars) (h : (St.open E true .writeDelete disk .init).1.err = .success) :
    Idle [] (St.open E true .writeDelete disk .init).1 := by
  by_cases hk : E.ok 0 = true
  · simp only [St.open, St.init, hk]
    exact ⟨rfl, rfl, rfl, rfl⟩
  · simp [St.open, St.init, hk, St.next, St.setErr] at h

theorem open_read (E : Env) (f : Vars) (h : (St.open E false .read (some f) .init).1.err = .success) :
    Idle f (St.open E false .read (some f) .init).1 := by
  by_cases hk : E.ok 0 = true
  · simp only [St.open, St.init, hk]
    exact ⟨rfl, rfl, rfl, rfl⟩
  · simp [St.open, St.init, hk, St.next, St.setErr] at h

theorem scope_idle {f : Vars} {s : St} (h : Idle f s) : scope s = f := by simp only [scope, h.stack, h.file]

mutual
theorem each_imp {T : Cls} {P Q : Nat → Nat → Mtx (Elem T) → Bool → Prop} (h : ∀ n c w i, P n c w i → Q n c w i) :
    ∀ l : Lyr T, l.Each P → l.Each Q
  | .plain _ _, _ => by simp [Lyr.Each]
  | .fc _ _ _ _ _ _, a => by simp only [Lyr.Each] at *; exact h _ _ _ _ a
  | .pack _ _ l, a => by simp only [Lyr.Each] at *; exact eachAll_imp h l a
  | .tile _ _ _ l, a => by simp only [Lyr.Each] at *; exact each_imp h l a
theorem eachAll_imp {T : Cls} {P Q : Nat → Nat → Mtx (Elem T) → Bool → Prop} (h : ∀ n c w i, P n c w i → Q n c w i) :
    ∀ l : List (Lyr T), EachAll P l → EachAll Q l
  | [], _ => by simp [EachAll]
  | l :: ls, a => by simp only [EachAll] at *; exact ⟨each_imp h l a.1, eachAll_imp h ls a.2⟩
end

theorem written_is {T : Cls} (E : Env) (f : Vars) (lost disk : Option Vars) (net : List (Lyr T))
    (hidx : (indices net).Nodup) (hw : writeWeights E lost disk net = (some f, true, true)) : f = putAll [] (items net) := by
  have hnamed := items_named net hidx
  simp only [writeWeights] at hw
  by_cases ho : (St.open E true .writeDelete disk .init).1.err = .success
  · rw [if_pos ho] at hw
    simp only [Prod.mk.injEq, decide_eq_true_eq] at hw
    obtain ⟨h1, h2, h3⟩ := hw
    have hi := open_write E disk ho
    obtain ⟨⟨-, w⟩, -⟩ := saveAll_ok E (items net) _ hnamed hi.cur (by rw [hi.file]; rfl) h2
    rw [hi.stack, hi.file] at w
    simp only at w
    rw [if_pos h3, w.2] at h1
    exact (Option.some.inj h1).symm
  · rw [if_neg ho] at hw
    simp at hw

/-- **C146.** The weights of a network are written to a file: `write_weights` answers `true`, and the file was closed without an error.
Whenever this file is read into a network of the same architecture, whatever its weights, and `read_weights` answers `true`,
all layers (at any depth of packs) have the weights that were written: dimensions and every element. And it does answer `true`
unless the library or the allocator fails. -/
theorem weights_survive {T : Cls} (E : Env) (f : Vars) (lost disk : Option Vars) (net : List (Lyr T)) (hready : Ready net)
    (hidx : (indices net).Nodup) (hw : writeWeights E lost disk net = (some f, true, true))
    (E' : Env) (net' : List (Lyr T)) (harch : SameArch net net') :
    ((readWeights E' (some f) net').2 = true → SameWeights net (readWeights E' (some f) net').1) ∧
    ((∀ k, E'.ok k = true) → (readWeights E' (some f) net').2 = true) := by
  have hnamed := items_named net hidx
  have hfit : EachAll (fun n c w _ => 0 < n ∧ Fits n c w) net := eachAll_imp (fun _ _ _ _ h => ⟨h.1, h.2.2⟩) net hready
  have hcont : f = putAll [] (items net) := written_is E f lost disk net hidx hw
  have hl : ∀ j ∈ items net, fget f j.name = some j.var := fun j hj => by rw [hcont]; exact putAll_mem _ _ hnamed j hj
  simp only [readWeights, Option.isSome_some, if_true]
  by_cases ho : (St.open E' false .read (some f) .init).1.err = .success
  · rw [if_pos ho]
    have hi := open_read E' f ho
    have hf : (St.open E' false .read (some f) .init).1.file.isSome = true := by rw [hi.file]; rfl
    obtain ⟨-, p2, p3⟩ := loadLyrs_any E' net' _ hf
    simp only [decide_eq_true_eq]
    constructor
    · intro h
      obtain ⟨-, -, q⟩ := p3 h hi.cur
      rw [scope_idle hi] at q
      exact from_same_all _ _ net _ f hnamed hfit (relAll_trans _ _ _ harch p2) hl q
    · intro hE
      exact loadLyrs_total E' hE net net' _ hnamed hfit harch hf ho hi.cur (by rw [scope_idle hi]; exact hl)
  · rw [if_neg ho]
    refine ⟨nofun, fun hE => ?_⟩
    exfalso
    apply ho
    simp [St.open, St.init, hE]

/-- **C146.** Writing fails only if the library or the allocator does, and then the file contains the weights whatever was there before. -/
theorem write_succeeds {T : Cls} (E : Env) (hE : ∀ k, E.ok k = true) (lost disk : Option Vars) (net : List (Lyr T)) (hidx : (indices net).Nodup) :
    ∃ f, writeWeights E lost disk net = (some f, true, true) ∧ ∀ lost' disk', writeWeights E lost' disk' net = (some f, true, true) := by
  have hnamed := items_named net hidx
  have hop : ∀ disk, St.open E true .writeDelete disk .init = (⟨some [], none, [], .success, 1⟩, some []) := by
    intro d
    simp [St.open, St.init, hE, St.next]
  have hs := save_succeeds E hE [] ⟨some [], none, [], .success, 1⟩ ⟨rfl, rfl, rfl, rfl⟩ (items net) hnamed
  obtain ⟨⟨w0, w⟩, -⟩ := saveAll_ok E (items net) ⟨some [], none, [], .success, 1⟩ hnamed rfl rfl hs
  simp only at w
  have hcl : ((saveAll E (items net) ⟨some [], none, [], .success, 1⟩).close E).2 = .success := by
    simp [St.close, w0, w.1, w.2, hE]
  have : ∀ lost disk, writeWeights E lost disk net = (some (putAll [] (items net)), true, true) := by
    intro lost disk
    simp only [writeWeights, hop, if_true, hcl, hs, decide_true, w.2]
  exact ⟨_, this lost disk, this⟩

/-- **C146, the names.** Two layers have the same name in a file only if they have the same index and the same given name. -/
theorem names_differ (b b' : String) (i i' : Nat) (h : b ++ "_" ++ i.repr = b' ++ "_" ++ i'.repr) : b = b' ∧ i = i' := label_inj h

/-! ### C147 -/

/-- **C147.** Reading an arbitrary file (any contents, any failures) into any network: names, indices, numbers of neurons and
nesting stay, every layer with weights is exactly as before or has got weights of the right dimensions; and if the answer is `true`, every layer was found in
the file and has the weights that are there. -/
theorem read_any {T : Cls} (E : Env) (disk : Option Vars) (net : List (Lyr T)) :
    Touched net (readWeights E disk net).1 ∧
    ((readWeights E disk net).2 = true → ∃ f, disk = some f ∧ AllFrom f (readWeights E disk net).1) := by
  cases disk with
  | none => simp only [readWeights, Option.isSome_none, Bool.false_eq_true, if_false]; exact ⟨touchedAll_refl net, nofun⟩
  | some f =>
    simp only [readWeights, Option.isSome_some, if_true]
    by_cases ho : (St.open E false .read (some f) .init).1.err = .success
    · rw [if_pos ho]
      have hi := open_read E f ho
      obtain ⟨-, p2, p3⟩ := loadLyrs_any E net _ (show (St.open E false .read (some f) .init).1.file.isSome = true by rw [hi.file]; rfl)
      refine ⟨p2, fun h => ⟨f, rfl, ?_⟩⟩
      simp only [decide_eq_true_eq] at h
      have := (p3 h hi.cur).2.2
      rwa [scope_idle hi] at this
    · rw [if_neg ho]
      exact ⟨touchedAll_refl net, nofun⟩

mutual
theorem from_each {T : Cls} (vs : Vars) : ∀ l : Lyr T, l.From vs → l.Each (fun n c w ini => ini = true ∧ Fits n c w)
  | .plain _ _, _ => by simp [Lyr.Each]
  | .fc _ _ _ _ _ _, h => by simp only [Lyr.Each, Lyr.From] at *; exact ⟨h.1, h.2.1⟩
  | .pack _ _ l, h => by
    simp only [Lyr.Each, Lyr.From] at *
    obtain ⟨fs, -, h⟩ := h
    exact allFrom_each fs l h
  | .tile _ _ _ l, h => by
    simp only [Lyr.Each, Lyr.From] at *
    obtain ⟨fs, d, -, -, -, h⟩ := h
    exact from_each fs l h
theorem allFrom_each {T : Cls} (vs : Vars) : ∀ l : List (Lyr T), AllFrom vs l → EachAll (fun n c w ini => ini = true ∧ Fits n c w) l
  | [], _ => by simp [EachAll]
  | l :: ls, h => by simp only [EachAll, AllFrom] at *; exact ⟨from_each vs l h.1, allFrom_each vs ls h.2⟩
end

mutual
theorem touched_each {T : Cls} : ∀ a b : Lyr T, a.Each (fun n c w ini => 0 < n ∧ ini = true ∧ Fits n c w) → a.Rel TR (fun _ _ => True) b →
    b.Each (fun n c w ini => 0 < n ∧ ini = true ∧ Fits n c w)
  | .plain _ _, b, _, hr => by cases b <;> simp_all [Lyr.Rel, Lyr.Each]
  | .fc _ _ _ _ _ _, b, h, hr => by
    cases b <;> simp only [Lyr.Rel, Lyr.Each] at *
    obtain ⟨-, -, rfl, rfl, ⟨rfl, rfl⟩ | hr⟩ := hr
    · exact h
    · exact ⟨h.1, hr⟩
  | .pack _ _ l, b, h, hr => by
    cases b <;> simp only [Lyr.Rel, Lyr.Each] at *
    exact touchedAll_each l _ h hr.2.2
  | .tile _ _ _ l, b, h, hr => by
    cases b <;> simp only [Lyr.Rel, Lyr.Each] at *
    exact touched_each l _ h hr.2.2.2
theorem touchedAll_each {T : Cls} : ∀ a b : List (Lyr T), EachAll (fun n c w ini => 0 < n ∧ ini = true ∧ Fits n c w) a →
    RelAll TR (fun _ _ => True) a b → EachAll (fun n c w ini => 0 < n ∧ ini = true ∧ Fits n c w) b
  | [], b, _, hr => by cases b <;> simp_all [RelAll, EachAll]
  | a :: as, b, h, hr => by
    cases b <;> simp only [RelAll, EachAll] at *
    exact ⟨touched_each a _ h.1 hr.1, touchedAll_each as _ h.2 hr.2⟩
end

/-- **C147.** A network that can be used stays usable whatever file is read and whatever the answer; and after the answer `true` all layers are initialised
and have weights of the right dimensions, whatever they were before. -/
theorem stays_usable {T : Cls} (E : Env) (disk : Option Vars) (net : List (Lyr T)) :
    (Ready net → Ready (readWeights E disk net).1) ∧
    ((readWeights E disk net).2 = true → EachAll (fun n c w ini => ini = true ∧ Fits n c w) (readWeights E disk net).1) := by
  obtain ⟨h1, h2⟩ := read_any E disk net
  refine ⟨fun h => touchedAll_each net _ h h1, fun h => ?_⟩
  obtain ⟨f, -, h3⟩ := h2 h
  exact allFrom_each f _ h3

theorem loadWeights_failed {T : Cls} (E : Env) (n c : Nat) (w : Mtx (Elem T)) (ini : Bool) (s : St)
    (h : (loadWeights E n c w ini s).2.err ≠ .success) : (loadWeights E n c w ini s).1 = (w, ini) := by
  simp only [loadWeights] at h ⊢
  split at h
  · split at h
    · exact absurd ‹_› h
    · rename_i h1 h2; rw [if_pos h1, if_neg h2]
  · rename_i h1; rw [if_neg h1]

/-- The leaves before some point have been loaded, those after it are untouched. -/
def UpTo {T : Cls} (ok : Prop) (x y : List (Weighted T)) : Prop :=
  ∃ a b c, x = a ++ c ∧ y = b ++ c ∧ a.length = b.length ∧ (∀ l ∈ b, l.ini = true ∧ Fits l.neurons l.incoming l.w) ∧ (ok → c = [])

theorem UpTo.none {T : Cls} {ok : Prop} (h : ¬ ok) (x : List (Weighted T)) : UpTo ok x x := ⟨[], [], x, rfl, rfl, rfl, nofun, fun q => absurd q h⟩

mutual
theorem loadLyr_upTo {T : Cls} (E : Env) : ∀ (l : Lyr T) (s : St), s.file.isSome = true →
    UpTo ((loadLyr E l s).2.err = .success) l.leaves (loadLyr E l s).1.leaves
  | .plain b i, s, hf => by
    simp only [loadLyr, Lyr.leaves]
    exact ⟨[], [], [], rfl, rfl, rfl, nofun, fun _ => rfl⟩
  | .fc b i n c w ini, s, hf => by
    obtain ⟨-, h2⟩ := inStruct_any E (NetFile.label b i) (w, ini) (fun s => loadWeights E n c w ini s) s hf
      (fun s1 h => (loadWeights_any E n c w ini s1 h).1)
    simp only [loadLyr, Lyr.leaves]
    rcases h2 with ⟨h3, h2⟩ | ⟨fs, k, -, -, -, d⟩
    · rw [h3]; exact .none h2 _
    · rw [d]
      by_cases he : (loadWeights E n c w ini ⟨s.file, none, fs :: s.stack, .success, k⟩).2.err = .success
      · obtain ⟨-, -, -, r2, r3, -⟩ := (loadWeights_any E n c w ini ⟨s.file, none, fs :: s.stack, .success, k⟩ hf).2.2 he
        refine ⟨[_], [_], [], rfl, rfl, rfl, ?_, fun _ => rfl⟩
        intro x hx
        rw [List.mem_singleton] at hx
        subst hx
        exact ⟨r2, r3⟩
      · simp only [loadWeights_failed E n c w ini _ he]
        exact .none he _
  | .pack b i l, s, hf => by
    obtain ⟨-, h2⟩ := inStruct_any E (NetFile.label b i) l (fun s => loadLyrs E l s) s hf (fun s1 h => (loadLyrs_any E l s1 h).1)
    simp only [loadLyr, Lyr.leaves]
    rcases h2 with ⟨h3, h2⟩ | ⟨fs, k, -, -, -, d⟩
    · rw [h3]; exact .none h2 _
    · rw [d]
      exact loadLyrs_upTo E l _ hf
  | .tile b i k l, s, hf => by
    have hk : ∀ s1 : St, s1.file.isSome = true → Kept s1 (asNvp "m_tiles_count" k (loadScalar E .int32 k) s1).2 := by
      intro s1 h
      rcases asNvp_any "m_tiles_count" k (loadScalar E .int32 k) s1 h with ⟨-, -, h3⟩ | ⟨-, -, h3⟩
      · exact h3
      · rw [h3]; exact (loadScalar_any E "m_tiles_count" .int32 k { s1 with cur := some "m_tiles_count" } rfl h).1
    obtain ⟨-, h2⟩ := inStruct_any E (NetFile.label b i) (k, l) (fun s =>
      let p := asNvp "m_tiles_count" k (loadScalar E .int32 k) s
      let q := loadLyr E l p.2
      ((p.1, q.1), q.2)) s hf
      (fun s1 h => (hk s1 h).trans (loadLyr_any E l _ (by rw [(hk s1 h).1]; exact h)).1)
    simp only [loadLyr, Lyr.leaves]
    rcases h2 with ⟨h3, h2⟩ | ⟨fs, t, -, -, -, d⟩
    · rw [h3]; exact .none h2 _
    · rw [d]
      exact loadLyr_upTo E l _ (by rw [(hk ⟨s.file, none, fs :: s.stack, .success, t⟩ hf).1]; exact hf)
theorem loadLyrs_upTo {T : Cls} (E : Env) : ∀ (ls : List (Lyr T)) (s : St), s.file.isSome = true →
    UpTo ((loadLyrs E ls s).2.err = .success) (leaves ls) (leaves (loadLyrs E ls s).1)
  | [], s, _ => by
    simp only [loadLyrs, leaves]
    exact ⟨[], [], [], rfl, rfl, rfl, nofun, fun _ => rfl⟩
  | l :: ls, s, hf => by
    have h1 := loadLyr_upTo E l s hf
    simp only [loadLyrs, leaves]
    by_cases he : (loadLyr E l s).2.err = .success
    · obtain ⟨a, b, c, x1, x2, x3, x4, x5⟩ := h1
      obtain ⟨a', b', c', y1, y2, y3, y4, y5⟩ := loadLyrs_upTo E ls (loadLyr E l s).2 (by rw [(loadLyr_any E l s hf).1.1]; exact hf)
      have hc := x5 he
      subst hc
      refine ⟨a ++ a', b ++ b', c', by simp [x1, y1], by simp [x2, y2], by simp [x3, y3], ?_, y5⟩
      intro z hz
      rcases List.mem_append.1 hz with hz | hz
      · exact x4 z hz
      · exact y4 z hz
    · obtain ⟨a, b, c, x1, x2, x3, x4, -⟩ := h1
      rw [loadLyrs_latched E ls _ he]
      exact ⟨a, b, c ++ leaves ls, by simp [x1], by simp [x2], x3, x4, fun q => absurd q he⟩
end

/-- **C147.** Where reading stops. The layers with weights (in their order, through all packs) up to some point have got weights from the file,
those after it are exactly as before; after the answer `true` there are none of the latter. -/
theorem read_up_to {T : Cls} (E : Env) (disk : Option Vars) (net : List (Lyr T)) :
    ∃ a b c, leaves net = a ++ c ∧ leaves (readWeights E disk net).1 = b ++ c ∧ a.length = b.length ∧
      (∀ l ∈ b, l.ini = true ∧ Fits l.neurons l.incoming l.w) ∧ ((readWeights E disk net).2 = true → c = []) := by
  cases disk with
  | none =>
    simp only [readWeights, Option.isSome_none, Bool.false_eq_true, if_false]
    exact ⟨[], [], _, rfl, rfl, rfl, nofun, nofun⟩
  | some f =>
    simp only [readWeights, Option.isSome_some, if_true]
    by_cases ho : (St.open E false .read (some f) .init).1.err = .success
    · rw [if_pos ho]
      have hi := open_read E f ho
      obtain ⟨a, b, c, x1, x2, x3, x4, x5⟩ := loadLyrs_upTo E net _ (show (St.open E false .read (some f) .init).1.file.isSome = true by rw [hi.file]; rfl)
      exact ⟨a, b, c, x1, x2, x3, x4, fun h => x5 (by simpa using h)⟩
    · rw [if_neg ho]
      exact ⟨[], [], _, rfl, rfl, rfl, nofun, nofun⟩

end Nntl.NetFile
