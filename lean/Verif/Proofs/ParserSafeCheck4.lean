import Verif.Proofs.ParserSafeDefs
/-!
# Checking the states of the parser, part 4
-/
namespace FastBer.Parser

theorem safe_30 : (List.range' 660 22).all stateSafe = true := by decide +kernel
theorem safe_31 : (List.range' 682 22).all stateSafe = true := by decide +kernel
theorem safe_32 : (List.range' 704 22).all stateSafe = true := by decide +kernel
theorem safe_33 : (List.range' 726 22).all stateSafe = true := by decide +kernel
theorem safe_34 : (List.range' 748 22).all stateSafe = true := by decide +kernel
theorem safe_35 : (List.range' 770 22).all stateSafe = true := by decide +kernel
theorem safe_36 : (List.range' 792 22).all stateSafe = true := by decide +kernel
theorem safe_37 : (List.range' 814 22).all stateSafe = true := by decide +kernel
theorem safe_38 : (List.range' 836 22).all stateSafe = true := by decide +kernel
theorem safe_39 : (List.range' 858 18).all stateSafe = true := by decide +kernel

end FastBer.Parser
