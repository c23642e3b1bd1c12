import Verif.Proofs.ParserSafeCheck1
import Verif.Proofs.ParserSafeCheck2
import Verif.Proofs.ParserSafeCheck3
import Verif.Proofs.ParserSafeCheck4
/-!
# All states of the parser are checked
-/
namespace FastBer.Parser

theorem states_safe {s : Nat} (h : s < 876) : stateSafe s = true := by
  have key : ∀ a n, (List.range' a n).all stateSafe = true → a ≤ s → s < a + n → stateSafe s = true := by
    intro a n ha h1 h2
    refine List.all_eq_true.mp ha s ?_
    rw [List.mem_range'_1]; exact ⟨h1, h2⟩
  rcases Nat.lt_or_ge s 22 with h0 | h0
  · exact key _ _ safe_0 (by omega) (by omega)
  rcases Nat.lt_or_ge s 44 with h1 | h1
  · exact key _ _ safe_1 (by omega) (by omega)
  rcases Nat.lt_or_ge s 66 with h2 | h2
  · exact key _ _ safe_2 (by omega) (by omega)
  rcases Nat.lt_or_ge s 88 with h3 | h3
  · exact key _ _ safe_3 (by omega) (by omega)
  rcases Nat.lt_or_ge s 110 with h4 | h4
  · exact key _ _ safe_4 (by omega) (by omega)
  rcases Nat.lt_or_ge s 132 with h5 | h5
  · exact key _ _ safe_5 (by omega) (by omega)
  rcases Nat.lt_or_ge s 154 with h6 | h6
  · exact key _ _ safe_6 (by omega) (by omega)
  rcases Nat.lt_or_ge s 176 with h7 | h7
  · exact key _ _ safe_7 (by omega) (by omega)
  rcases Nat.lt_or_ge s 198 with h8 | h8
  · exact key _ _ safe_8 (by omega) (by omega)
  rcases Nat.lt_or_ge s 220 with h9 | h9
  · exact key _ _ safe_9 (by omega) (by omega)
  rcases Nat.lt_or_ge s 242 with h10 | h10
  · exact key _ _ safe_10 (by omega) (by omega)
  rcases Nat.lt_or_ge s 264 with h11 | h11
  · exact key _ _ safe_11 (by omega) (by omega)
  rcases Nat.lt_or_ge s 286 with h12 | h12
  · exact key _ _ safe_12 (by omega) (by omega)
  rcases Nat.lt_or_ge s 308 with h13 | h13
  · exact key _ _ safe_13 (by omega) (by omega)
  rcases Nat.lt_or_ge s 330 with h14 | h14
  · exact key _ _ safe_14 (by omega) (by omega)
  rcases Nat.lt_or_ge s 352 with h15 | h15
  · exact key _ _ safe_15 (by omega) (by omega)
  rcases Nat.lt_or_ge s 374 with h16 | h16
  · exact key _ _ safe_16 (by omega) (by omega)
  rcases Nat.lt_or_ge s 396 with h17 | h17
  · exact key _ _ safe_17 (by omega) (by omega)
  rcases Nat.lt_or_ge s 418 with h18 | h18
  · exact key _ _ safe_18 (by omega) (by omega)
  rcases Nat.lt_or_ge s 440 with h19 | h19
  · exact key _ _ safe_19 (by omega) (by omega)
  rcases Nat.lt_or_ge s 462 with h20 | h20
  · exact key _ _ safe_20 (by omega) (by omega)
  rcases Nat.lt_or_ge s 484 with h21 | h21
  · exact key _ _ safe_21 (by omega) (by omega)
  rcases Nat.lt_or_ge s 506 with h22 | h22
  · exact key _ _ safe_22 (by omega) (by omega)
  rcases Nat.lt_or_ge s 528 with h23 | h23
  · exact key _ _ safe_23 (by omega) (by omega)
  rcases Nat.lt_or_ge s 550 with h24 | h24
  · exact key _ _ safe_24 (by omega) (by omega)
  rcases Nat.lt_or_ge s 572 with h25 | h25
  · exact key _ _ safe_25 (by omega) (by omega)
  rcases Nat.lt_or_ge s 594 with h26 | h26
  · exact key _ _ safe_26 (by omega) (by omega)
  rcases Nat.lt_or_ge s 616 with h27 | h27
  · exact key _ _ safe_27 (by omega) (by omega)
  rcases Nat.lt_or_ge s 638 with h28 | h28
  · exact key _ _ safe_28 (by omega) (by omega)
  rcases Nat.lt_or_ge s 660 with h29 | h29
  · exact key _ _ safe_29 (by omega) (by omega)
  rcases Nat.lt_or_ge s 682 with h30 | h30
  · exact key _ _ safe_30 (by omega) (by omega)
  rcases Nat.lt_or_ge s 704 with h31 | h31
  · exact key _ _ safe_31 (by omega) (by omega)
  rcases Nat.lt_or_ge s 726 with h32 | h32
  · exact key _ _ safe_32 (by omega) (by omega)
  rcases Nat.lt_or_ge s 748 with h33 | h33
  · exact key _ _ safe_33 (by omega) (by omega)
  rcases Nat.lt_or_ge s 770 with h34 | h34
  · exact key _ _ safe_34 (by omega) (by omega)
  rcases Nat.lt_or_ge s 792 with h35 | h35
  · exact key _ _ safe_35 (by omega) (by omega)
  rcases Nat.lt_or_ge s 814 with h36 | h36
  · exact key _ _ safe_36 (by omega) (by omega)
  rcases Nat.lt_or_ge s 836 with h37 | h37
  · exact key _ _ safe_37 (by omega) (by omega)
  rcases Nat.lt_or_ge s 858 with h38 | h38
  · exact key _ _ safe_38 (by omega) (by omega)
  exact key _ _ safe_39 (by omega) (by omega)

end FastBer.Parser
