import Verif.Proofs.ParserSafeDefs
/-!
# Checking the states of the parser, part 3
-/
namespace FastBer.Parser

theorem safe_20 : (List.range' 440 22).all stateSafe = true := by decide +kernel
theorem safe_21 : (List.range' 462 22).all stateSafe = true := by decide +kernel
theorem safe_22 : (List.range' 484 22).all stateSafe = true := by decide +kernel
theorem safe_23 : (List.range' 506 22).all stateSafe = true := by decide +kernel
theorem safe_24 : (List.range' 528 22).all stateSafe = true := by decide +kernel
theorem safe_25 : (List.range' 550 22).all stateSafe = true := by decide +kernel
theorem safe_26 : (List.range' 572 22).all stateSafe = true := by decide +kernel
theorem safe_27 : (List.range' 594 22).all stateSafe = true := by decide +kernel
theorem safe_28 : (List.range' 616 22).all stateSafe = true := by decide +kernel
theorem safe_29 : (List.range' 638 22).all stateSafe = true := by decide +kernel

end FastBer.Parser
