import Verif.Tools.Props
/-! Concrete uses of the small tools. -/
namespace Nntl.Tools
open Nntl.Text Nntl.Threads

/-- A timer used three times after a reset. -/
theorem demo_timer : (Timer.new.run [.store 7, .reset, .tic 100, .toc 5100, .tic 6000, .toc 9000, .store 4000]).map (fun t => (t.first, t.best, t.all, t.repeats)) =
      some (5000, 3000, 12000, 3) ∧
    measured 0 [] [.store 7, .reset, .tic 100, .toc 5100, .tic 6000, .toc 9000, .store 4000] = [5000, 3000, 4000] ∧
    (Timer.new.run [.store 7, .reset, .tic 100, .toc 5100, .tic 6000, .toc 9000, .store 4000]).map (·.toText fun _ => false) =
      some "   5.000 us     3.000 us     4.000 us".toList := by decide +kernel

/-- C181. An hour in seconds is shown as three seconds and a half. -/
theorem hour_shown_wrong : readable (fun _ => false) .s 3600 1 = "   3.600 s ".toList ∧ readable (fun _ => false) .ns 3600000000000 1 = "3600.000 s ".toList ∧
    readable (fun _ => false) .ms 3600000 1 = "   3.600 s ".toList ∧ readable (fun _ => false) .other 2 1 = "   2.000 ??".toList := by decide +kernel

/-- The hypotheses of `mul_div` and `div_exact_partial`: a pack of 3 tiles, batches of 100 and 40. -/
example : (BS.make 100 40).bind (·.mul 3) = some ⟨300, 120⟩ ∧ (BS.make 300 120).bind (·.div 3) = some ⟨100, 40⟩ ∧ (BS.make 4 1).bind (·.div 2) = some ⟨2, 0⟩ := by
  decide

/-- Loops over a tuple of three. -/
example : forEachUp [1, 2, 3] (fun x s => s ++ [x]) [] = some [1, 2, 3] ∧ forEachDown [1, 2, 3] (fun x s => s ++ [x]) [] = some [3, 2, 1] ∧
    forEachExcLastUp [1, 2, 3] (fun x s => s ++ [x]) [] = some [1, 2] ∧ forEachExcFirstDown [1, 2, 3] (fun x s => s ++ [x]) [] = some [3, 2] ∧
    forEachWpUp [1, 2, 3] (fun x y b s => s ++ [(x, y, b)]) [] = some [(2, 1, true), (3, 2, false)] := by decide

/-- Four threads, thread 2 uses denormalized numbers; and none. -/
example : anyThread 3 (threadsUsed 3 4 4) (runCalls (initRanges 3) 4 4).reverse (fun t => t == 2) = true ∧
    anyThread 3 (threadsUsed 3 4 4) (runCalls (initRanges 3) 4 4) (fun _ => false) = false := by decide

end Nntl.Tools
