import Verif.Proofs.ParserSafeDefs
/-!
# Checking the states of the parser, part 1
-/
namespace FastBer.Parser

theorem safe_0 : (List.range' 0 22).all stateSafe = true := by decide +kernel
theorem safe_1 : (List.range' 22 22).all stateSafe = true := by decide +kernel
theorem safe_2 : (List.range' 44 22).all stateSafe = true := by decide +kernel
theorem safe_3 : (List.range' 66 22).all stateSafe = true := by decide +kernel
theorem safe_4 : (List.range' 88 22).all stateSafe = true := by decide +kernel
theorem safe_5 : (List.range' 110 22).all stateSafe = true := by decide +kernel
theorem safe_6 : (List.range' 132 22).all stateSafe = true := by decide +kernel
theorem safe_7 : (List.range' 154 22).all stateSafe = true := by decide +kernel
theorem safe_8 : (List.range' 176 22).all stateSafe = true := by decide +kernel
theorem safe_9 : (List.range' 198 22).all stateSafe = true := by decide +kernel

end FastBer.Parser
