import Verif.NetState.Spec
import Verif.NetFile.Lemmas
/-! Helper lemmas: names, and what is written. -/
namespace Nntl.NetState
open Nntl.Matrix Nntl.MatFile Nntl.NetFile
set_option linter.unusedSimpArgs false

/-! ### Names of variables are not names of layers -/

/-- The characters after the last underscore (all of them if there is none) are not all digits. -/
def PlainName (n : String) : Prop := (n.toList.reverse.takeWhile (· ≠ '_')).all Char.isDigit = false

theorem takeWhile_append_cons {α : Type} (p : α → Bool) : ∀ (a : List α) (x : α) (b : List α), (∀ y ∈ a, p y = true) → p x = false →
    (a ++ x :: b).takeWhile p = a
  | [], x, b, _, hx => by simp [hx]
  | y :: a, x, b, ha, hx => by
    simp only [List.cons_append, List.takeWhile_cons, ha y List.mem_cons_self, if_true]
    rw [takeWhile_append_cons p a x b (fun z hz => ha z (List.mem_cons_of_mem _ hz)) hx]

theorem plain_ne_label {n : String} (h : PlainName n) (b : String) (i : Nat) : NetFile.label b i ≠ n := by
  rintro rfl
  unfold PlainName at h
  simp only [label, String.toList_append, Nat.toList_repr] at h
  have e : "_".toList = ['_'] := rfl
  rw [e, List.append_assoc, List.reverse_append, List.singleton_append, List.reverse_cons, List.append_assoc, List.singleton_append,
    takeWhile_append_cons] at h
  · have : (Nat.toDigits 10 i).reverse.all Char.isDigit = true := by
      rw [List.all_eq_true]
      intro c hc
      exact Nat.isDigit_of_mem_toDigits (by omega) (by omega) (List.mem_reverse.1 hc)
    rw [this] at h
    cases h
  · intro y hy
    simp only [decide_eq_true_eq]
    rintro rfl
    exact Nat.underscore_not_in_toDigits (List.mem_reverse.1 hy)
  · simp

/-! ### Items of a layer's own -/

/-- All names a layer with weights may use. -/
def fcNames : List String := ["m_activations", "m_weights", "m_learningRate", "m_LRDropoutPercActive", "m_momentum", "m_optBeta1",
  "m_optBeta2", "m_numericStabilizerEps", "m_WeightVecNormSqared", "typ", "m_optBeta1t", "m_optBeta2t", "m_optMtxA", "m_optMtxB", "m_Vw",
  "mulDecr", "mulIncr", "capLow", "capHigh", "m_ILRGain", "m_prevdLdW", "m_bRestrictdLdZ", "m_dLdZRestrictLowerBnd",
  "m_dLdZRestrictUpperBnd", "m_a", "m_b", "m_dropoutPercentActive", "m_dropoutMask", "m_origActivations"]

theorem fcNames_nodup : fcNames.Nodup := by decide +kernel

/-- The names of all. -/
def allNames : List String := "data_x" :: "m_innerLowerLayerActivations" :: "m_tiles_count" :: fcNames

theorem allNames_plain : ∀ n ∈ allNames, PlainName n := by
  unfold PlainName
  decide +kernel

theorem opt_map (b : Bool) (is : List Item) : (opt b is).map Item.name = if b then is.map Item.name else [] := by
  cases b <;> rfl

theorem opt_sub (b : Bool) {is : List Item} {ns : List String} (h : (is.map Item.name).Sublist ns) : ((opt b is).map Item.name).Sublist ns := by
  cases b
  · exact List.nil_sublist _
  · exact h

theorem app_sub {a b : List Item} {m n : List String} (h : (a.map Item.name).Sublist m) (k : (b.map Item.name).Sublist n) :
    ((a ++ b).map Item.name).Sublist (m ++ n) := by
  rw [List.map_append]; exact h.append k

theorem cons_sub {a : Item} {b : List Item} {m : String} {n : List String} (h : a.name = m) (k : (b.map Item.name).Sublist n) :
    ((a :: b).map Item.name).Sublist (m :: n) := by
  rw [List.map_cons, h]; exact k.cons_cons m

theorem ilr_sub {T : Cls} (o : Opts) (m : Bool) (i : Option (Ilr T)) :
    ((ilrItems o m i).map Item.name).Sublist ["mulDecr", "mulIncr", "capLow", "capHigh", "m_ILRGain", "m_prevdLdW"] := by
  cases i with
  | none => exact List.nil_sublist _
  | some i =>
    exact app_sub (m := ["mulDecr", "mulIncr", "capLow", "capHigh"]) (n := ["m_ILRGain", "m_prevdLdW"]) (opt_sub _ (List.Sublist.refl _))
      (opt_sub _ (cons_sub rfl (opt_sub _ (List.Sublist.refl _))))

theorem gw_sub {T : Cls} (o : Opts) (g : Gw T) : ((gwItems o g).map Item.name).Sublist
    (["m_learningRate", "m_LRDropoutPercActive", "m_momentum", "m_optBeta1", "m_optBeta2", "m_numericStabilizerEps", "m_WeightVecNormSqared",
      "typ", "m_optBeta1t", "m_optBeta2t"] ++ (["m_optMtxA"] ++ ["m_optMtxB"] ++ ["m_Vw"]) ++
      ["mulDecr", "mulIncr", "capLow", "capHigh", "m_ILRGain", "m_prevdLdW"]) :=
  app_sub (app_sub (opt_sub _ (List.Sublist.refl _)) (opt_sub _ (app_sub (app_sub (opt_sub _ (List.Sublist.refl _)) (opt_sub _ (List.Sublist.refl _)))
    (opt_sub _ (List.Sublist.refl _))))) (ilr_sub _ _ _)

theorem drop_sub {T : Cls} (lt1 : Nat → Bool) (o : Opts) (d : Drop T) : ((dropItems lt1 o d).map Item.name).Sublist
    (["m_a", "m_b"] ++ ["m_dropoutPercentActive"] ++ ["m_dropoutMask", "m_origActivations"]) := by
  refine app_sub (app_sub ?_ (opt_sub _ (List.Sublist.refl _))) (opt_sub _ (List.Sublist.refl _))
  cases d.alpha with
  | none => exact List.nil_sublist _
  | some p => exact opt_sub _ (List.Sublist.refl _)

theorem fc_sub {T : Cls} (lt1 : Nat → Bool) (o : Opts) (l : Fc T) : ((fcItems lt1 o l).map Item.name).Sublist fcNames := by
  refine app_sub (n := ["m_a", "m_b"] ++ ["m_dropoutPercentActive"] ++ ["m_dropoutMask", "m_origActivations"])
    (app_sub (n := ["m_bRestrictdLdZ", "m_dLdZRestrictLowerBnd", "m_dLdZRestrictUpperBnd"])
    (app_sub (app_sub (m := ["m_activations"]) (n := ["m_weights"]) (opt_sub _ (List.Sublist.refl _)) (opt_sub _ (List.Sublist.refl _)))
      (n := (["m_learningRate", "m_LRDropoutPercActive", "m_momentum", "m_optBeta1", "m_optBeta2", "m_numericStabilizerEps", "m_WeightVecNormSqared",
      "typ", "m_optBeta1t", "m_optBeta2t"] ++ (["m_optMtxA"] ++ ["m_optMtxB"] ++ ["m_Vw"]) ++
      ["mulDecr", "mulIncr", "capLow", "capHigh", "m_ILRGain", "m_prevdLdW"])) ?_) ?_) ?_
  · cases l.gw with
    | none => exact List.nil_sublist _
    | some g => exact opt_sub _ (gw_sub o g)
  · cases l.bounds with
    | none => exact List.nil_sublist _
    | some b => exact opt_sub _ (List.Sublist.refl _)
  · cases l.drop with
    | none => exact List.nil_sublist _
    | some d => exact drop_sub lt1 o d

theorem own_names {T : Cls} (lt1 : Nat → Bool) (o : Opts) (own : Own T) :
    ((ownItems lt1 o own).map Item.name).Nodup ∧ ∀ n ∈ (ownItems lt1 o own).map Item.name, n ∈ allNames := by
  have fin : ∀ ns : List String, ((ownItems lt1 o own).map Item.name).Sublist ns → ns.Nodup → (∀ n ∈ ns, n ∈ allNames) →
      ((ownItems lt1 o own).map Item.name).Nodup ∧ ∀ n ∈ (ownItems lt1 o own).map Item.name, n ∈ allNames :=
    fun ns h1 h2 h3 => ⟨h2.sublist h1, fun n hn => h3 n (h1.subset hn)⟩
  cases own with
  | input x =>
    cases x with
    | none => exact fin [] (List.Sublist.refl _) (by simp) (by simp)
    | some x => exact fin ["data_x"] (opt_sub _ (List.Sublist.refl _)) (by simp) (by simp [allNames])
  | ident a => exact fin ["m_activations"] (opt_sub _ (List.Sublist.refl _)) (by simp) (by simp [allNames, fcNames])
  | fc l => exact fin fcNames (fc_sub lt1 o l) fcNames_nodup (fun n hn => by simp only [allNames, List.mem_cons]; exact .inr (.inr (.inr hn)))
  | pack => exact fin [] (List.Sublist.refl _) (by simp) (by simp)
  | tile a i k =>
    exact fin (["m_activations"] ++ ["m_innerLowerLayerActivations"] ++ ["m_tiles_count"])
      (app_sub (app_sub (opt_sub _ (List.Sublist.refl _)) (opt_sub _ (List.Sublist.refl _))) (List.Sublist.refl _)) (by decide +kernel)
      (by simp [allNames, fcNames])

/-- An item that is a name-value pair of a leaf. -/
def IsNvp : Item → Prop
  | .nvp _ _ => True
  | _ => False

theorem opt_nvp {b : Bool} {is : List Item} (h : ∀ i ∈ is, IsNvp i) : ∀ i ∈ opt b is, IsNvp i := by
  cases b
  · intro i hi; cases hi
  · exact h

theorem app_nvp {a b : List Item} (h : ∀ i ∈ a, IsNvp i) (k : ∀ i ∈ b, IsNvp i) : ∀ i ∈ a ++ b, IsNvp i := by
  intro i hi
  rcases List.mem_append.1 hi with q | q
  · exact h i q
  · exact k i q

theorem own_nvp {T : Cls} (lt1 : Nat → Bool) (o : Opts) (own : Own T) : ∀ i ∈ ownItems lt1 o own, IsNvp i := by
  cases own with
  | input x =>
    cases x with
    | none => intro i hi; cases hi
    | some x => exact opt_nvp (by simp [IsNvp, mItem])
  | ident a => exact opt_nvp (by simp [IsNvp, mItem])
  | pack => intro i hi; cases hi
  | tile a i k =>
    exact app_nvp (app_nvp (opt_nvp (by simp [IsNvp, mItem])) (opt_nvp (by simp [IsNvp, mItem]))) (by simp [IsNvp, sItem])
  | fc l =>
    refine app_nvp (app_nvp (app_nvp (app_nvp (opt_nvp (by simp [IsNvp, mItem])) (opt_nvp (by simp [IsNvp, mItem]))) ?_) ?_) ?_
    · cases l.gw with
      | none => intro i hi; cases hi
      | some g =>
        refine opt_nvp (app_nvp (app_nvp (opt_nvp (by simp [IsNvp, sItem])) (opt_nvp (app_nvp (app_nvp (opt_nvp (by simp [IsNvp, mItem]))
          (opt_nvp (by simp [IsNvp, mItem]))) (opt_nvp (by simp [IsNvp, mItem]))))) ?_)
        cases g.ilr with
        | none => intro i hi; cases hi
        | some i =>
          refine app_nvp (opt_nvp (by simp [IsNvp, sItem])) (opt_nvp ?_)
          intro x hx
          rcases List.mem_cons.1 hx with rfl | hx
          · trivial
          · exact opt_nvp (b := !i.useMomentum g.useMomentum) (is := [mItem "m_prevdLdW" false i.prev]) (by simp [IsNvp, mItem]) x hx
    · cases l.bounds with
      | none => intro i hi; cases hi
      | some b => exact opt_nvp (by simp [IsNvp, sItem])
    · cases l.drop with
      | none => intro i hi; cases hi
      | some d =>
        refine app_nvp (app_nvp ?_ (opt_nvp (by simp [IsNvp, sItem]))) (opt_nvp (by simp [IsNvp, mItem]))
        cases d.alpha with
        | none => intro i hi; cases hi
        | some p => exact opt_nvp (by simp [IsNvp, sItem])

/-! ### Items of layers -/

def Lyr.base {T : Cls} : Lyr T → String
  | .node b _ _ _ => b
def Lyr.idx {T : Cls} : Lyr T → Nat
  | .node _ i _ _ => i

theorem name_label {T : Cls} (l : Lyr T) : l.name = NetFile.label l.base l.idx := by cases l; rfl

theorem item_name {T : Cls} (lt1 : Nat → Bool) (o : Opts) (l : Lyr T) : (l.item lt1 o).name = l.name := by
  cases l; simp [Lyr.item, Item.name, Lyr.name, NetFile.label]

theorem mem_items {T : Cls} (lt1 : Nat → Bool) (o : Opts) : ∀ (ls : List (Lyr T)) (j : Item), j ∈ items lt1 o ls ↔ ∃ l ∈ ls, j = l.item lt1 o
  | [], j => by simp [items]
  | l :: ls, j => by simp [items, mem_items lt1 o ls j]

theorem idx_mem {T : Cls} (l : Lyr T) : l.idx ∈ l.indices := by cases l; simp [Lyr.idx, Lyr.indices]

theorem indices_mem {T : Cls} : ∀ (ls : List (Lyr T)) (l : Lyr T), l ∈ ls → l.idx ∈ indices ls
  | [], _, h => by cases h
  | x :: ls, l, h => by
    simp only [indices, List.mem_append]
    rcases List.mem_cons.1 h with rfl | h
    · exact .inl (idx_mem l)
    · exact .inr (indices_mem ls l h)

theorem allNamed_append : ∀ (a b : List Item), (∀ i ∈ a, IsNvp i) → (a.map Item.name).Nodup → AllNamed b →
    (∀ i ∈ a, ∀ j ∈ b, j.name ≠ i.name) → AllNamed (a ++ b)
  | [], b, _, _, hb, _ => hb
  | i :: a, b, h1, h2, hb, h3 => by
    simp only [List.cons_append, AllNamed]
    simp only [List.map_cons, List.nodup_cons] at h2
    refine ⟨?_, fun j hj => ?_, allNamed_append a b (fun x hx => h1 x (List.mem_cons_of_mem _ hx)) h2.2 hb
      (fun x hx => h3 x (List.mem_cons_of_mem _ hx))⟩
    · have := h1 i List.mem_cons_self
      cases i <;> simp_all [IsNvp, Item.Named]
    · rcases List.mem_append.1 hj with q | q
      · intro e
        exact h2.1 (e ▸ List.mem_map_of_mem q)
      · exact h3 i List.mem_cons_self j q

mutual
theorem item_named {T : Cls} (lt1 : Nat → Bool) (o : Opts) : ∀ (l : Lyr T), l.indices.Nodup → (l.item lt1 o).Named
  | .node b i own sub, h => by
    simp only [Lyr.indices, List.nodup_cons] at h
    simp only [Lyr.item, Item.Named]
    refine allNamed_append _ _ (own_nvp lt1 o own) (own_names lt1 o own).1 (items_named lt1 o sub h.2) ?_
    intro x hx y hy
    obtain ⟨l, -, rfl⟩ := (mem_items lt1 o sub y).1 hy
    rw [item_name, name_label]
    exact plain_ne_label (allNames_plain _ ((own_names lt1 o own).2 _ (List.mem_map_of_mem hx))) _ _
theorem items_named {T : Cls} (lt1 : Nat → Bool) (o : Opts) : ∀ (ls : List (Lyr T)), (indices ls).Nodup → AllNamed (items lt1 o ls)
  | [], _ => by simp [items, AllNamed]
  | l :: ls, h => by
    simp only [indices, List.nodup_append] at h
    simp only [items, AllNamed]
    refine ⟨item_named lt1 o l h.1, ?_, items_named lt1 o ls h.2.1⟩
    intro j hj e
    obtain ⟨l', h1, rfl⟩ := (mem_items lt1 o ls j).1 hj
    rw [item_name, item_name, name_label, name_label] at e
    exact h.2.2 _ (idx_mem l) _ (indices_mem ls l' h1) (label_inj e).2.symm
end

/-! ### The table -/

/-- The rows of the table that are stored and the items correspond. -/
def Tab (tb : List (String × Bool × Var)) (is : List Item) : Prop :=
  ∀ n v, (n, true, v) ∈ tb ↔ ∃ i ∈ is, i.name = n ∧ i.var = v

theorem tab_nil : Tab [] [] := by intro n v; simp

theorem tab_app {a b : List (String × Bool × Var)} {x y : List Item} (h : Tab a x) (k : Tab b y) : Tab (a ++ b) (x ++ y) := by
  intro n v
  rw [List.mem_append, h n v, k n v]
  constructor
  · rintro (⟨i, hi, q⟩ | ⟨i, hi, q⟩)
    · exact ⟨i, List.mem_append.2 (.inl hi), q⟩
    · exact ⟨i, List.mem_append.2 (.inr hi), q⟩
  · rintro ⟨i, hi, q⟩
    rcases List.mem_append.1 hi with hi | hi
    · exact .inl ⟨i, hi, q⟩
    · exact .inr ⟨i, hi, q⟩

theorem opt_app (b : Bool) (x y : List Item) : opt b (x ++ y) = opt b x ++ opt b y := by cases b <;> simp [opt]

theorem opt_opt (b c : Bool) (x : List Item) : opt b (opt c x) = opt (b && c) x := by cases b <;> cases c <;> simp [opt]

/-- One row, one item. -/
theorem tab_one (n : String) (b : Bool) (i : Item) (hn : i.name = n) : Tab [(n, b, i.var)] (opt b [i]) := by
  intro m v
  cases b <;> simp [opt, hn]
  exact ⟨fun h => ⟨h.1.symm, h.2.symm⟩, fun h => ⟨h.1.symm, h.2.symm⟩⟩

/-- Several rows under one condition. -/
theorem tab_cons {n : String} {b : Bool} {i : Item} {tb : List (String × Bool × Var)} {is : List Item} (hn : i.name = n) (h : Tab tb (opt b is)) :
    Tab ((n, b, i.var) :: tb) (opt b (i :: is)) := by
  have := tab_app (tab_one n b i hn) h
  rwa [← opt_app] at this

theorem tab_consS {n : String} {b : Bool} {C : Cls} {v : Nat} {tb : List (String × Bool × Var)} {is : List Item} (h : Tab tb (opt b is)) :
    Tab ((n, b, numVar C v) :: tb) (opt b (sItem n C v :: is)) := tab_cons (i := sItem n C v) rfl h

theorem tab_oneS {n : String} {b : Bool} {C : Cls} {v : Nat} : Tab [(n, b, numVar C v)] (opt b [sItem n C v]) := tab_one n b (sItem n C v) rfl

theorem ilr_tab {T : Cls} (o : Opts) (g : Gw T) : Tab (ilrTable o g) (opt o.gw (ilrItems o g.useMomentum g.ilr)) := by
  cases h : g.ilr with
  | none => rw [ilrTable, h]; cases o.gw <;> exact tab_nil
  | some i =>
    rw [ilrTable, h]
    simp only [ilrItems]
    rw [opt_app, opt_opt, opt_opt]
    refine tab_app (a := [_, _, _, _]) (tab_consS (tab_consS (tab_consS tab_oneS))) ?_
    have e : ∀ b c : Bool, opt b (mItem "m_ILRGain" false i.gain :: opt c [mItem "m_prevdLdW" false i.prev]) =
        opt b [mItem "m_ILRGain" false i.gain] ++ opt (b && c) [mItem "m_prevdLdW" false i.prev] := by
      intro b c; cases b <;> cases c <;> rfl
    rw [e, ← Bool.and_assoc]
    exact tab_app (a := [_]) (b := [_]) (tab_one _ _ (mItem "m_ILRGain" false i.gain) rfl) (tab_one _ _ (mItem "m_prevdLdW" false i.prev) rfl)

theorem gw_tab {T : Cls} (o : Opts) (g : Gw T) : Tab (gwTable o g) (opt o.gw (gwItems o g)) := by
  unfold gwTable gwItems
  rw [opt_app, opt_app, opt_opt, opt_app, opt_app]
  simp only [opt_app, opt_opt, ← Bool.and_assoc]
  have hA : g.type.needsA = !(decide (g.type = .classical) || decide (g.type = .rprop)) := by cases g.type <;> rfl
  have hB : g.type.needsB = (decide (g.type = .rmsGraves) || decide (g.type = .adam) || decide (g.type = .adamax) ||
    decide (g.type = .nadam) || decide (g.type = .radam)) := by cases g.type <;> rfl
  have hT : typeNo g.type = g.type.code := by cases g.type <;> rfl
  rw [hT]
  refine tab_app (tab_app (a := [_, _, _, _, _, _, _, _, _, _]) ?_ (tab_app (a := [_, _]) (tab_app (a := [_]) ?_ ?_) ?_)) (ilr_tab o g)
  · exact tab_consS (tab_consS (tab_consS (tab_consS (tab_consS (tab_consS (tab_consS (tab_consS (tab_consS tab_oneS))))))))
  · rw [← hA]; exact tab_one _ _ (mItem "m_optMtxA" false g.A) rfl
  · rw [← hB]; exact tab_one _ _ (mItem "m_optMtxB" false g.B) rfl
  · exact tab_one _ _ (mItem "m_Vw" false g.Vw) rfl

theorem drop_tab {T : Cls} (lt1 : Nat → Bool) (o : Opts) (d : Drop T) : Tab (dropTable lt1 o d) (dropItems lt1 o d) := by
  unfold dropTable dropItems
  rw [List.append_assoc]
  refine tab_app ?_ (tab_app (a := [_]) (tab_one _ _ (sItem "m_dropoutPercentActive" T d.keep) rfl) ?_)
  · cases d.alpha with
    | none => exact tab_nil
    | some p =>
      simp only [Bool.and_comm]
      exact tab_cons (i := sItem "m_a" T p.1) rfl (tab_one _ _ (sItem "m_b" T p.2.1) rfl)
  · rw [Bool.and_comm]
    exact tab_cons (i := mItem "m_dropoutMask" true d.mask) rfl (tab_one _ _ (mItem "m_origActivations" true d.orig) rfl)

theorem own_tab {T : Cls} (lt1 : Nat → Bool) (o : Opts) (own : Own T) : Tab (table lt1 o own) (ownItems lt1 o own) := by
  cases own with
  | input x =>
    cases x with
    | none => exact tab_nil
    | some x => exact tab_one _ _ (mItem "data_x" false x) rfl
  | ident a => exact tab_one _ _ (mItem "m_activations" true a) rfl
  | pack => exact tab_nil
  | tile a i k =>
    exact tab_app (a := [_, _]) (tab_app (a := [_]) (tab_one _ _ (mItem "m_activations" true a) rfl)
      (tab_one _ _ (mItem "m_innerLowerLayerActivations" true i) rfl)) (tab_one _ true (sItem "m_tiles_count" .int32 k) rfl)
  | fc l =>
    refine tab_app (tab_app (tab_app (tab_app (a := [_]) (b := [_]) (tab_one _ _ (mItem "m_activations" true l.act) rfl)
      (tab_one _ _ (mItem "m_weights" true l.w) rfl)) ?_) ?_) ?_
    · cases l.gw with
      | none => exact tab_nil
      | some g => exact gw_tab o g
    · cases l.bounds with
      | none => exact tab_nil
      | some b =>
        exact tab_cons (i := sItem "m_bRestrictdLdZ" .logical b.1.toNat) rfl (tab_cons (i := sItem "m_dLdZRestrictLowerBnd" T b.2.1) rfl
          (tab_one _ _ (sItem "m_dLdZRestrictUpperBnd" T b.2.2) rfl))
    · cases l.drop with
      | none => exact tab_nil
      | some d => exact drop_tab lt1 o d

/-- No name twice in the table. -/
theorem table_names {T : Cls} (lt1 : Nat → Bool) (o : Opts) (own : Own T) :
    ((table lt1 o own).map (·.1)).Nodup ∧ ∀ n ∈ (table lt1 o own).map (·.1), n ∈ allNames := by
  have fin : ∀ ns : List String, ((table lt1 o own).map (·.1)).Sublist ns → ns.Nodup → (∀ n ∈ ns, n ∈ allNames) →
      ((table lt1 o own).map (·.1)).Nodup ∧ ∀ n ∈ (table lt1 o own).map (·.1), n ∈ allNames :=
    fun ns h1 h2 h3 => ⟨h2.sublist h1, fun n hn => h3 n (h1.subset hn)⟩
  cases own with
  | input x =>
    cases x with
    | none => exact fin [] (List.Sublist.refl _) (by simp) (by simp)
    | some x => exact fin ["data_x"] (List.Sublist.refl _) (by simp) (by simp [allNames])
  | ident a => exact fin ["m_activations"] (List.Sublist.refl _) (by simp) (by simp [allNames, fcNames])
  | pack => exact fin [] (List.Sublist.refl _) (by simp) (by simp)
  | tile a i k =>
    exact fin ["m_activations", "m_innerLowerLayerActivations", "m_tiles_count"] (List.Sublist.refl _) (by decide +kernel)
      (by simp [allNames, fcNames])
  | fc l =>
    refine fin fcNames ?_ fcNames_nodup (fun n hn => by simp only [allNames, List.mem_cons]; exact .inr (.inr (.inr hn)))
    have app : ∀ {a b : List (String × Bool × Var)} {m n : List String}, (a.map (·.1)).Sublist m → (b.map (·.1)).Sublist n →
        ((a ++ b).map (·.1)).Sublist (m ++ n) := fun h k => by rw [List.map_append]; exact h.append k
    refine app (n := ["m_a", "m_b"] ++ ["m_dropoutPercentActive", "m_dropoutMask", "m_origActivations"])
      (app (n := ["m_bRestrictdLdZ", "m_dLdZRestrictLowerBnd", "m_dLdZRestrictUpperBnd"])
      (app (m := ["m_activations", "m_weights"]) (List.Sublist.refl _)
        (n := (["m_learningRate", "m_LRDropoutPercActive", "m_momentum", "m_optBeta1", "m_optBeta2", "m_numericStabilizerEps", "m_WeightVecNormSqared",
        "typ", "m_optBeta1t", "m_optBeta2t", "m_optMtxA", "m_optMtxB", "m_Vw"] ++
        ["mulDecr", "mulIncr", "capLow", "capHigh", "m_ILRGain", "m_prevdLdW"])) ?_) ?_) ?_
    · cases l.gw with
      | none => exact List.nil_sublist _
      | some g =>
        refine app (List.Sublist.refl _) ?_
        rw [ilrTable]
        cases g.ilr with
        | none => exact List.nil_sublist _
        | some i => exact List.Sublist.refl _
    · cases l.bounds with
      | none => exact List.nil_sublist _
      | some b => exact List.Sublist.refl _
    · cases l.drop with
      | none => exact List.nil_sublist _
      | some d =>
        refine app ?_ (List.Sublist.refl _)
        cases d.alpha with
        | none => exact List.nil_sublist _
        | some p => exact List.Sublist.refl _

theorem nodup_row {tb : List (String × Bool × Var)} (h : (tb.map (·.1)).Nodup) {n : String} {c c' : Bool} {v v' : Var}
    (h1 : (n, c, v) ∈ tb) (h2 : (n, c', v') ∈ tb) : c = c' := by
  induction tb with
  | nil => cases h1
  | cons r tb ih =>
    simp only [List.map_cons, List.nodup_cons] at h
    rcases List.mem_cons.1 h1 with e1 | h1 <;> rcases List.mem_cons.1 h2 with e2 | h2
    · rw [← e1] at e2; cases e2; rfl
    · exact absurd (List.mem_map_of_mem (f := (·.1)) h2) (by rw [← e1] at h; exact h.1)
    · exact absurd (List.mem_map_of_mem (f := (·.1)) h1) (by rw [← e2] at h; exact h.1)
    · exact ih h.2 h1 h2

/-! ### What is in the scope after writing -/

theorem putAll_none (is : List Item) : ∀ (fs : Vars) (k : String), fget (putAll fs is) k ≠ none → (∃ i ∈ is, i.name = k) ∨ fget fs k ≠ none := by
  intro fs k h
  by_cases hk : ∃ i ∈ is, i.name = k
  · exact .inl hk
  · rw [putAll_other is fs k (fun i hi e => hk ⟨i, hi, e⟩)] at h
    exact .inr h

mutual
theorem item_stored {T : Cls} (lt1 : Nat → Bool) (o : Opts) : ∀ (l : Lyr T) (vs : Vars), l.indices.Nodup →
    fget vs l.name = some (l.item lt1 o).var → l.Stored lt1 o vs
  | .node b i own sub, vs, h, hl => by
    have hn := item_named lt1 o (.node b i own sub) h
    simp only [Lyr.item, Item.Named] at hn
    simp only [Lyr.indices, List.nodup_cons] at h
    simp only [Lyr.item, Item.var, Lyr.name] at hl
    simp only [Lyr.Stored]
    refine ⟨_, hl, ?_, ?_, ?_⟩
    · intro n c v hr
      cases c with
      | true =>
        obtain ⟨j, hj, hj1, hj2⟩ := (own_tab lt1 o own n v).1 hr
        rw [if_pos rfl, ← hj1, ← hj2]
        exact putAll_mem _ [] hn j (List.mem_append.2 (.inl hj))
      | false =>
        rw [if_neg (by simp)]
        refine putAll_other _ [] n (fun j hj e => ?_)
        rcases List.mem_append.1 hj with q | q
        · have := (own_tab lt1 o own j.name j.var).2 ⟨j, q, rfl, rfl⟩
          rw [e] at this
          exact absurd (nodup_row (table_names lt1 o own).1 hr this) (by simp)
        · obtain ⟨l, -, rfl⟩ := (mem_items lt1 o sub j).1 q
          rw [item_name, name_label] at e
          refine plain_ne_label (allNames_plain n ((table_names lt1 o own).2 n ?_)) _ _ e
          exact List.mem_map.2 ⟨_, hr, rfl⟩
    · intro n hne
      rcases putAll_none _ _ _ hne with ⟨j, hj, rfl⟩ | q
      · rcases List.mem_append.1 hj with q | q
        · exact .inl ⟨j.var, (own_tab lt1 o own j.name j.var).2 ⟨j, q, rfl, rfl⟩⟩
        · obtain ⟨l, hl, rfl⟩ := (mem_items lt1 o sub j).1 q
          exact .inr ⟨l, hl, item_name lt1 o l⟩
      · exact absurd rfl q
    · exact items_stored lt1 o sub _ h.2 (fun l hl => by
        rw [← item_name lt1 o l]
        exact putAll_mem _ [] hn _ (List.mem_append.2 (.inr ((mem_items lt1 o sub _).2 ⟨l, hl, rfl⟩))))
theorem items_stored {T : Cls} (lt1 : Nat → Bool) (o : Opts) : ∀ (ls : List (Lyr T)) (vs : Vars), (indices ls).Nodup →
    (∀ l ∈ ls, fget vs l.name = some (l.item lt1 o).var) → AllStored lt1 o vs ls
  | [], _, _, _ => by simp [AllStored]
  | l :: ls, vs, h, hl => by
    simp only [indices, List.nodup_append] at h
    simp only [AllStored]
    exact ⟨item_stored lt1 o l vs h.1 (hl l List.mem_cons_self), items_stored lt1 o ls vs h.2.1 (fun x hx => hl x (List.mem_cons_of_mem _ hx))⟩
end

end Nntl.NetState
