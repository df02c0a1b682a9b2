import Verif.Text.Props
import Verif.Text.NameProps
/-! Concrete reports and names. -/
namespace Nntl.Text

/-- An epoch of a usual training. -/
example : fragment (fun _ => false) "nan".toList 5 10 1234567890 (.fin false 123456 1000000) (.fin false 23449 100000) ⟨60000, 59100⟩ ⟨10000, 9801⟩ =
    some "  6/10  1.2s trL=0.123, trErr=1.50% (900), vL=0.234, vErr=1.99% (199)".toList := by decide +kernel

example : fragmentSimple (fun _ => true) (-1) 10 50000000 (.fin false 5 10) (.odd "-nan(ind)".toList) =
    some "  0/10  0.1s trL= 0.50000, vL=-nan(ind)".toList := by decide +kernel

/-- The hypotheses of `report_printed_partial` hold for it. -/
example : ∃ t, fragment (fun _ => false) "nan".toList 5 10 1234567890 (.fin false 123456 1000000) (.fin false 23449 100000) ⟨60000, 59100⟩ ⟨10000, 9801⟩ = some t :=
  report_printed_partial _ _ (by decide) _ _ _ _ _ _ _ (by decide) (by decide) (by decide) (by decide) (by decide) ⟨by decide, by decide⟩ ⟨by decide, by decide⟩
    (by decide) (by decide) (by decide) (by decide)

/-- C177. A training of `float`s that diverges in its first epochs: losses of 2 * 10^32, threshold reached. It does not end with `NNDiverged`, the program ends. -/
theorem diverging_training_aborts :
    epochReport (fun _ => false) "nan".toList 2 5 10 1234567890 (.fin false (2 * 10 ^ 32) 1) (.fin false (3 * 10 ^ 32) 1) ⟨60000, 6000⟩ ⟨10000, 1000⟩ true =
      .aborted ∧
    epochReport (fun _ => false) "nan".toList 2 5 10 1234567890 (.fin false (2 * 10 ^ 9) 1) (.fin false (3 * 10 ^ 9) 1) ⟨60000, 6000⟩ ⟨10000, 1000⟩ true =
      .diverged :=
  ⟨exploding_loss_aborts _ _ _ _ _ _ _ _ _ _ _ _ _ _ _ (by decide) (by decide) (by decide) (by decide) (by decide) (by decide), by decide +kernel⟩

/-- C177. Losses of 10^30 need not be printed either. -/
theorem ten_to_thirty_aborts :
    fragment (fun _ => false) "nan".toList 5 10 1234567890 (.fin false (10 ^ 30) 1) (.fin false (10 ^ 30) 1) ⟨60000, 6000⟩ ⟨10000, 1000⟩ = none := by decide +kernel

example : setReport (fun _ => false) "nan".toList "test".toList (.fin false (10 ^ 38) 1) ⟨10000, 9801⟩ =
    some "test: Loss=100000000000000000000000000000000000000.000, Err=1.99% (199)".toList := by decide +kernel

example : start 784 10 1333000 60000 10000 100 600 10000 = some ("Model f:784->10 has 1333000 params. There are 60000 training samples and 10000 for testing. " ++
    "BatchSize=100, batchCnt=600, maxFpropSize=10000").toList := by decide +kernel

example : setName (-5) = some "!Unknown!-5".toList := by decide +kernel

/-- Names of two layers of a network, and a name too long. -/
example : layerName "fcl".toList 12 = some "fcl_12".toList ∧ layerName "first_1".toList 2 = some "first_1_2".toList ∧
    (setCustom true (List.replicate 39 'a')).isSome ∧ setCustom true (List.replicate 40 'a') = none ∧ layerName (List.replicate 48 'a') 1 = none := by
  decide +kernel

/-- C179. The layers of the library have different identifiers. -/
theorem library_type_ids : (["inp", "outp", "fcl", "fclFP", "lex", "li", "lig", "lph", "lpho", "lpt", "lpv"].map (fun s : String => typeId s.toList)).Nodup ∧
    typeId "fcl".toList = some (0x66 + 256 * 0x63 + 65536 * 0x6c) := by decide +kernel

/-- Two names with a character that is not ASCII: one identifier (the sign of the character spoils what follows it). -/
theorem type_ids_collide : typeId ['\xe9', 'a'] = typeId ['\xe9', 'b'] := by decide +kernel

end Nntl.Text
