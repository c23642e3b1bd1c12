import Verif.Proofs.ParserSafeDefs
/-!
# Checking the states of the parser, part 2
-/
namespace FastBer.Parser

theorem safe_10 : (List.range' 220 22).all stateSafe = true := by decide +kernel
theorem safe_11 : (List.range' 242 22).all stateSafe = true := by decide +kernel
theorem safe_12 : (List.range' 264 22).all stateSafe = true := by decide +kernel
theorem safe_13 : (List.range' 286 22).all stateSafe = true := by decide +kernel
theorem safe_14 : (List.range' 308 22).all stateSafe = true := by decide +kernel
theorem safe_15 : (List.range' 330 22).all stateSafe = true := by decide +kernel
theorem safe_16 : (List.range' 352 22).all stateSafe = true := by decide +kernel
theorem safe_17 : (List.range' 374 22).all stateSafe = true := by decide +kernel
theorem safe_18 : (List.range' 396 22).all stateSafe = true := by decide +kernel
theorem safe_19 : (List.range' 418 22).all stateSafe = true := by decide +kernel

end FastBer.Parser
