import Verif.Props.RecursiveSource
/-!
# C96 of a file of the repository: testfiles/circular.asn
-/
namespace FastBer.Props
open FastBer FastBer.Ast FastBer.Ast.Spec FastBer.Spec Lexer Lexer.Spec Notation Parser Names Names.Spec

/-! ## A check that a text consists of given items -/

/-- A piece of a text: an item, white space, or a comment without the hyphens before it and the line feed behind it. -/
inductive Piece
  | item (t : Tok) (x : List Char)
  | gap (x : List Char)
  | comment (x : List Char)

namespace Piece

def text : Piece → Bytes
  | .item _ x => nameText x
  | .gap x => nameText x
  | .comment x => 0x2D :: 0x2D :: (nameText x ++ [10])

def tok : Piece → List Tok
  | .item t _ => [t]
  | _ => []

def texts (l : List Piece) : Bytes := l.flatMap text
def toks (l : List Piece) : List Tok := l.flatMap tok

def upperB (c : Char) : Bool := Nat.ble 65 c.toNat && Nat.ble c.toNat 90
def lowerB (c : Char) : Bool := Nat.ble 97 c.toNat && Nat.ble c.toNat 122
def digitB (c : Char) : Bool := Nat.ble 48 c.toNat && Nat.ble c.toNat 57

theorem upperB_iff {c : Char} : upperB c = true ↔ 'A' ≤ c ∧ c ≤ 'Z' := by
  unfold upperB
  rw [Bool.and_eq_true, Nat.ble_eq, Nat.ble_eq]
  exact Iff.rfl
theorem lowerB_iff {c : Char} : lowerB c = true ↔ 'a' ≤ c ∧ c ≤ 'z' := by
  unfold lowerB
  rw [Bool.and_eq_true, Nat.ble_eq, Nat.ble_eq]
  exact Iff.rfl
theorem digitB_iff {c : Char} : digitB c = true ↔ '0' ≤ c ∧ c ≤ '9' := by
  unfold digitB
  rw [Bool.and_eq_true, Nat.ble_eq, Nat.ble_eq]
  exact Iff.rfl

/-- A name without hyphens. -/
def nameB (n : List Char) : Bool :=
  (match n with | [] => false | c :: _ => upperB c || lowerB c) && n.all fun c => upperB c || lowerB c || digitB c

theorem nameB_sound {n : List Char} (h : nameB n = true) : AsnName n := by
  unfold nameB at h
  rw [Bool.and_eq_true] at h
  obtain ⟨h1, h2⟩ := h
  have hc : ∀ c ∈ n, letter c ∨ digit c := fun c hc => by
    have := List.all_eq_true.1 h2 c hc
    rw [Bool.or_eq_true, Bool.or_eq_true, upperB_iff, lowerB_iff, digitB_iff] at this
    exact this
  have hh : ∀ c ∈ n, c ≠ '-' := by
    rintro c hm rfl
    exact absurd (hc _ hm) (by simp [letter, digit])
  refine ⟨?_, fun c hm => (hc c hm).elim .inl fun h => .inr (.inl h), ?_, ?_⟩
  · cases n with
    | nil => cases h1
    | cons c cs => exact ⟨c, cs, rfl, by dsimp only at h1; rw [Bool.or_eq_true, upperB_iff, lowerB_iff] at h1; exact h1⟩
  · exact fun he => hh _ (List.mem_of_getLast? he) rfl
  · rintro p q rfl
    exact hh '-' (by simp) rfl

/-- `Names.reservedKeywords`, spelt out. -/
def keywordChars : List (List Char) := [['a', 'l', 'i', 'g', 'n', 'a', 's'], ['a', 'l', 'i', 'g', 'n', 'o', 'f'], ['a', 'n', 'd'], ['a', 'n', 'd', '_', 'e', 'q'], ['a', 's', 'm'], ['a', 't', 'o', 'm', 'i', 'c', '_', 'c', 'a', 'n', 'c', 'e', 'l'],
  ['a', 't', 'o', 'm', 'i', 'c', '_', 'c', 'o', 'm', 'm', 'i', 't'], ['a', 't', 'o', 'm', 'i', 'c', '_', 'n', 'o', 'e', 'x', 'c', 'e', 'p', 't'], ['a', 'u', 't', 'o'], ['b', 'i', 't', 'a', 'n', 'd'], ['b', 'i', 't', 'o', 'r'], ['b', 'o', 'o', 'l'],
  ['b', 'r', 'e', 'a', 'k'], ['c', 'a', 's', 'e'], ['c', 'a', 't', 'c', 'h'], ['c', 'h', 'a', 'r'], ['c', 'h', 'a', 'r', '8', '_', 't'], ['c', 'h', 'a', 'r', '1', '6', '_', 't'],
  ['c', 'h', 'a', 'r', '3', '2', '_', 't'], ['c', 'l', 'a', 's', 's'], ['c', 'o', 'm', 'p', 'l'], ['c', 'o', 'n', 'c', 'e', 'p', 't'], ['c', 'o', 'n', 's', 't'], ['c', 'o', 'n', 's', 't', 'e', 'v', 'a', 'l'],
  ['c', 'o', 'n', 's', 't', 'e', 'x', 'p', 'r'], ['c', 'o', 'n', 's', 't', '_', 'c', 'a', 's', 't'], ['c', 'o', 'n', 't', 'i', 'n', 'u', 'e'], ['c', 'o', '_', 'a', 'w', 'a', 'i', 't'], ['c', 'o', '_', 'r', 'e', 't', 'u', 'r', 'n'], ['c', 'o', '_', 'y', 'i', 'e', 'l', 'd'],
  ['d', 'e', 'c', 'l', 't', 'y', 'p', 'e'], ['d', 'e', 'f', 'a', 'u', 'l', 't'], ['d', 'e', 'l', 'e', 't', 'e'], ['d', 'o'], ['d', 'o', 'u', 'b', 'l', 'e'], ['d', 'y', 'n', 'a', 'm', 'i', 'c', '_', 'c', 'a', 's', 't'],
  ['e', 'l', 's', 'e'], ['e', 'n', 'u', 'm'], ['e', 'x', 'p', 'l', 'i', 'c', 'i', 't'], ['e', 'x', 'p', 'o', 'r', 't'], ['e', 'x', 't', 'e', 'r', 'n'], ['f', 'a', 'l', 's', 'e'],
  ['f', 'l', 'o', 'a', 't'], ['f', 'o', 'r'], ['f', 'r', 'i', 'e', 'n', 'd'], ['g', 'o', 't', 'o'], ['i', 'f'], ['i', 'm', 'p', 'o', 'r', 't'],
  ['i', 'n', 'l', 'i', 'n', 'e'], ['i', 'n', 't'], ['l', 'o', 'n', 'g'], ['m', 'o', 'd', 'u', 'l', 'e'], ['m', 'u', 't', 'a', 'b', 'l', 'e'], ['n', 'a', 'm', 'e', 's', 'p', 'a', 'c', 'e'],
  ['n', 'e', 'w'], ['n', 'o', 'e', 'x', 'c', 'e', 'p', 't'], ['n', 'o', 't'], ['n', 'o', 't', '_', 'e', 'q'], ['n', 'u', 'l', 'l', 'p', 't', 'r'], ['o', 'p', 'e', 'r', 'a', 't', 'o', 'r'],
  ['o', 'r'], ['o', 'r', '_', 'e', 'q'], ['p', 'r', 'i', 'v', 'a', 't', 'e'], ['p', 'r', 'o', 't', 'e', 'c', 't', 'e', 'd'], ['p', 'u', 'b', 'l', 'i', 'c'], ['r', 'e', 'f', 'l', 'e', 'x', 'p', 'r'],
  ['r', 'e', 'g', 'i', 's', 't', 'e', 'r'], ['r', 'e', 'i', 'n', 't', 'e', 'r', 'p', 'r', 'e', 't', '_', 'c', 'a', 's', 't'], ['r', 'e', 'q', 'u', 'i', 'r', 'e', 's'], ['r', 'e', 't', 'u', 'r', 'n'], ['s', 'h', 'o', 'r', 't'], ['s', 'i', 'g', 'n', 'e', 'd'],
  ['s', 'i', 'z', 'e', 'o', 'f'], ['s', 't', 'a', 't', 'i', 'c'], ['s', 't', 'a', 't', 'i', 'c', '_', 'a', 's', 's', 'e', 'r', 't'], ['s', 't', 'a', 't', 'i', 'c', '_', 'c', 'a', 's', 't'], ['s', 't', 'r', 'u', 'c', 't'], ['s', 'w', 'i', 't', 'c', 'h'],
  ['s', 'y', 'n', 'c', 'h', 'r', 'o', 'n', 'i', 'z', 'e', 'd'], ['t', 'e', 'm', 'p', 'l', 'a', 't', 'e'], ['t', 'h', 'i', 's'], ['t', 'h', 'r', 'e', 'a', 'd', '_', 'l', 'o', 'c', 'a', 'l'], ['t', 'h', 'r', 'o', 'w'], ['t', 'r', 'u', 'e'],
  ['t', 'r', 'y'], ['t', 'y', 'p', 'e', 'd', 'e', 'f'], ['t', 'y', 'p', 'e', 'i', 'd'], ['t', 'y', 'p', 'e', 'n', 'a', 'm', 'e'], ['u', 'n', 'i', 'o', 'n'], ['u', 'n', 's', 'i', 'g', 'n', 'e', 'd'],
  ['u', 's', 'i', 'n', 'g'], ['v', 'i', 'r', 't', 'u', 'a', 'l'], ['v', 'o', 'i', 'd'], ['v', 'o', 'l', 'a', 't', 'i', 'l', 'e'], ['w', 'c', 'h', 'a', 'r', '_', 't'], ['w', 'h', 'i', 'l', 'e'],
  ['x', 'o', 'r'], ['x', 'o', 'r', '_', 'e', 'q', 'B', 'M', 'P', 'S', 't', 'r', 'i', 'n', 'g'], ['B', 'i', 't', 'S', 't', 'r', 'i', 'n', 'g'], ['B', 'o', 'o', 'l', 'e', 'a', 'n'], ['C', 'h', 'a', 'r', 'a', 'c', 't', 'e', 'r', 'S', 't', 'r', 'i', 'n', 'g'], ['C', 'h', 'o', 'i', 'c', 'e'],
  ['D', 'a', 't', 'e'], ['D', 'a', 't', 'e', 'T', 'i', 'm', 'e'], ['D', 'u', 'r', 'a', 't', 'i', 'o', 'n'], ['E', 'm', 'b', 'e', 'd', 'd', 'e', 'd', 'P', 'D', 'V'], ['E', 'n', 'u', 'm', 'e', 'r', 'a', 't', 'e', 'd'], ['E', 'x', 't', 'e', 'r', 'n', 'a', 'l'],
  ['G', 'e', 'n', 'e', 'r', 'a', 'l', 'S', 't', 'r', 'i', 'n', 'g'], ['G', 'e', 'n', 'e', 'r', 'a', 'l', 'i', 'z', 'e', 'd', 'T', 'i', 'm', 'e'], ['G', 'r', 'a', 'p', 'h', 'i', 'c', 'S', 't', 'r', 'i', 'n', 'g'], ['I', 'A', '5', 'S', 't', 'r', 'i', 'n', 'g'], ['I', 'R', 'I'], ['I', 'S', 'O', '6', '4', '6', 'S', 't', 'r', 'i', 'n', 'g'],
  ['I', 'd'], ['I', 'd', 'e', 'n', 't', 'i', 'f', 'i', 'e', 'r'], ['I', 'n', 's', 't', 'a', 'n', 'c', 'e', 'O', 'f'], ['I', 'n', 't', 'e', 'g', 'e', 'r'], ['N', 'u', 'l', 'l'], ['N', 'u', 'm', 'e', 'r', 'i', 'c', 'S', 't', 'r', 'i', 'n', 'g'],
  ['O', 'b', 'j', 'e', 'c', 't', 'I', 'd', 'e', 'n', 't', 'i', 'f', 'i', 'e', 'r'], ['O', 'c', 't', 'e', 't', 'S', 't', 'r', 'i', 'n', 'g'], ['O', 'p', 't', 'i', 'o', 'n', 'a', 'l'], ['P', 'r', 'e', 'f', 'i', 'x', 'e', 'd'], ['P', 'r', 'i', 'n', 't', 'a', 'b', 'l', 'e', 'S', 't', 'r', 'i', 'n', 'g'], ['R', 'e', 'a', 'l'],
  ['R', 'e', 'l', 'a', 't', 'i', 'v', 'e', 'I', 'R', 'I'], ['R', 'e', 'l', 'a', 't', 'i', 'v', 'e', 'O', 'I', 'D'], ['S', 'e', 'q', 'u', 'e', 'n', 'c', 'e'], ['S', 'e', 'q', 'u', 'e', 'n', 'c', 'e', 'O', 'f'], ['S', 'e', 't'], ['S', 'e', 't', 'O', 'f'],
  ['T', 'a', 'g', 'g', 'e', 'd', 'T', 'y', 'p', 'e'], ['T', 'e', 'l', 'e', 't', 'e', 'x', 'S', 't', 'r', 'i', 'n', 'g'], ['T', 'i', 'm', 'e'], ['T', 'i', 'm', 'e', 'O', 'f', 'D', 'a', 'y'], ['U', 'T', 'C', 'T', 'i', 'm', 'e'], ['U', 'T', 'F', '8', 'S', 't', 'r', 'i', 'n', 'g'],
  ['U', 'n', 'i', 'v', 'e', 'r', 's', 'a', 'l', 'S', 't', 'r', 'i', 'n', 'g'], ['V', 'i', 'd', 'e', 'o', 't', 'e', 'x', 'S', 't', 'r', 'i', 'n', 'g'], ['V', 'i', 's', 'i', 'b', 'l', 'e', 'S', 't', 'r', 'i', 'n', 'g'], ['d', 'e', 'c', 'o', 'd', 'e'], ['e', 'n', 'c', 'o', 'd', 'e'], ['e', 'n', 'c', 'o', 'd', 'e', 'd', '_', 'l', 'e', 'n', 'g', 't', 'h']]

theorem keywordChars_eq : reservedKeywords = keywordChars := by decide +kernel

def sanitize (n : List Char) : List Char :=
  if keywordChars.contains (hyphens n) then hyphens n ++ ['_'] else hyphens n

theorem sanitize_eq (n : List Char) : sanitize n = santizeName n := by
  unfold sanitize santizeName
  rw [keywordChars_eq]

def reservedChars : List (List Char) := [['A', 'N', 'Y'], ['A', 'B', 'S', 'E', 'N', 'T'], ['A', 'B', 'S', 'T', 'R', 'A', 'C', 'T', '-', 'S', 'Y', 'N', 'T', 'A', 'X'], ['A', 'L', 'L'], ['A', 'P', 'P', 'L', 'I', 'C', 'A', 'T', 'I', 'O', 'N'], ['A', 'U', 'T', 'O', 'M', 'A', 'T', 'I', 'C'],
  ['B', 'E', 'G', 'I', 'N'], ['B', 'I', 'T'], ['B', 'M', 'P', 'S', 't', 'r', 'i', 'n', 'g'], ['B', 'O', 'O', 'L', 'E', 'A', 'N'], ['B', 'Y'], ['C', 'H', 'A', 'R', 'A', 'C', 'T', 'E', 'R'],
  ['C', 'H', 'O', 'I', 'C', 'E'], ['C', 'L', 'A', 'S', 'S'], ['C', 'O', 'M', 'P', 'O', 'N', 'E', 'N', 'T'], ['C', 'O', 'M', 'P', 'O', 'N', 'E', 'N', 'T', 'S'], ['C', 'O', 'N', 'S', 'T', 'R', 'A', 'I', 'N', 'E', 'D'], ['C', 'O', 'N', 'T', 'A', 'I', 'N', 'I', 'N', 'G'],
  ['D', 'A', 'T', 'E'], ['D', 'A', 'T', 'E', '-', 'T', 'I', 'M', 'E'], ['D', 'E', 'F', 'A', 'U', 'L', 'T'], ['D', 'E', 'F', 'I', 'N', 'I', 'T', 'I', 'O', 'N', 'S'], ['D', 'U', 'R', 'A', 'T', 'I', 'O', 'N'], ['E', 'M', 'B', 'E', 'D', 'D', 'E', 'D'],
  ['E', 'N', 'C', 'O', 'D', 'E', 'D'], ['E', 'N', 'C', 'O', 'D', 'I', 'N', 'G', '-', 'C', 'O', 'N', 'T', 'R', 'O', 'L'], ['E', 'N', 'D'], ['E', 'N', 'U', 'M', 'E', 'R', 'A', 'T', 'E', 'D'], ['E', 'X', 'C', 'E', 'P', 'T'], ['E', 'X', 'P', 'L', 'I', 'C', 'I', 'T'],
  ['E', 'X', 'P', 'O', 'R', 'T', 'S'], ['E', 'X', 'T', 'E', 'N', 'S', 'I', 'B', 'I', 'L', 'I', 'T', 'Y'], ['E', 'X', 'T', 'E', 'R', 'N', 'A', 'L'], ['F', 'A', 'L', 'S', 'E'], ['F', 'R', 'O', 'M'], ['G', 'e', 'n', 'e', 'r', 'a', 'l', 'i', 'z', 'e', 'd', 'T', 'i', 'm', 'e'],
  ['G', 'e', 'n', 'e', 'r', 'a', 'l', 'S', 't', 'r', 'i', 'n', 'g'], ['G', 'r', 'a', 'p', 'h', 'i', 'c', 'S', 't', 'r', 'i', 'n', 'g'], ['I', 'A', '5', 'S', 't', 'r', 'i', 'n', 'g'], ['I', 'D', 'E', 'N', 'T', 'I', 'F', 'I', 'E', 'R'], ['I', 'M', 'P', 'L', 'I', 'C', 'I', 'T'], ['I', 'M', 'P', 'L', 'I', 'E', 'D'],
  ['I', 'M', 'P', 'O', 'R', 'T', 'S'], ['I', 'N', 'C', 'L', 'U', 'D', 'E', 'S'], ['I', 'N', 'S', 'T', 'A', 'N', 'C', 'E'], ['I', 'N', 'S', 'T', 'R', 'U', 'C', 'T', 'I', 'O', 'N', 'S'], ['I', 'N', 'T', 'E', 'G', 'E', 'R'], ['I', 'N', 'T', 'E', 'R', 'S', 'E', 'C', 'T', 'I', 'O', 'N'],
  ['I', 'S', 'O', '6', '4', '6', 'S', 't', 'r', 'i', 'n', 'g'], ['M', 'A', 'X'], ['M', 'I', 'N'], ['M', 'I', 'N', 'U', 'S', '-', 'I', 'N', 'F', 'I', 'N', 'I', 'T', 'Y'], ['N', 'O', 'T', '-', 'A', '-', 'N', 'U', 'M', 'B', 'E', 'R'], ['N', 'U', 'L', 'L'],
  ['N', 'u', 'm', 'e', 'r', 'i', 'c', 'S', 't', 'r', 'i', 'n', 'g'], ['O', 'B', 'J', 'E', 'C', 'T'], ['O', 'b', 'j', 'e', 'c', 't', 'D', 'e', 's', 'c', 'r', 'i', 'p', 't', 'o', 'r'], ['O', 'C', 'T', 'E', 'T'], ['O', 'F'], ['O', 'I', 'D', '-', 'I', 'R', 'I'],
  ['O', 'P', 'T', 'I', 'O', 'N', 'A', 'L'], ['P', 'A', 'T', 'T', 'E', 'R', 'N'], ['P', 'D', 'V'], ['P', 'L', 'U', 'S', '-', 'I', 'N', 'F', 'I', 'N', 'I', 'T', 'Y'], ['P', 'R', 'E', 'S', 'E', 'N', 'T'], ['P', 'r', 'i', 'n', 't', 'a', 'b', 'l', 'e', 'S', 't', 'r', 'i', 'n', 'g'],
  ['P', 'R', 'I', 'V', 'A', 'T', 'E'], ['R', 'E', 'A', 'L'], ['R', 'E', 'L', 'A', 'T', 'I', 'V', 'E', '-', 'O', 'I', 'D'], ['R', 'E', 'L', 'A', 'T', 'I', 'V', 'E', '-', 'O', 'I', 'D', '-', 'I', 'R', 'I'], ['S', 'E', 'Q', 'U', 'E', 'N', 'C', 'E'], ['S', 'E', 'T'],
  ['S', 'E', 'T', 'T', 'I', 'N', 'G', 'S'], ['S', 'I', 'Z', 'E'], ['S', 'T', 'R', 'I', 'N', 'G'], ['S', 'Y', 'N', 'T', 'A', 'X'], ['T', '6', '1', 'S', 't', 'r', 'i', 'n', 'g'], ['T', 'A', 'G', 'S'],
  ['T', 'e', 'l', 'e', 't', 'e', 'x', 'S', 't', 'r', 'i', 'n', 'g'], ['T', 'I', 'M', 'E'], ['T', 'I', 'M', 'E', '-', 'O', 'F', '-', 'D', 'A', 'Y'], ['T', 'R', 'U', 'E'], ['T', 'Y', 'P', 'E', '-', 'I', 'D', 'E', 'N', 'T', 'I', 'F', 'I', 'E', 'R'], ['U', 'N', 'I', 'O', 'N'],
  ['U', 'N', 'I', 'Q', 'U', 'E'], ['U', 'N', 'I', 'V', 'E', 'R', 'S', 'A', 'L'], ['U', 'n', 'i', 'v', 'e', 'r', 's', 'a', 'l', 'S', 't', 'r', 'i', 'n', 'g'], ['U', 'T', 'C', 'T', 'i', 'm', 'e'], ['U', 'T', 'F', '8', 'S', 't', 'r', 'i', 'n', 'g'], ['V', 'i', 'd', 'e', 'o', 't', 'e', 'x', 'S', 't', 'r', 'i', 'n', 'g'],
  ['V', 'i', 's', 'i', 'b', 'l', 'e', 'S', 't', 'r', 'i', 'n', 'g'], ['W', 'I', 'T', 'H']]

theorem reservedChars_eq : ("ANY" :: reservedWords).map String.toList = reservedChars := by decide +kernel

def itemB : Tok → List Char → Bool
  | .sym k, x => decide (x = k.toList) && decide (k ∈ itemSymbols ∨ (k ∈ reservedWords ∧ k ∉ misspelt))
  | .upper m, x => nameB x && (match x with | [] => false | c :: _ => upperB c) && !(reservedChars.contains x) && decide (m = sanitize x)
  | .lower m, x => nameB x && (match x with | [] => false | c :: _ => lowerB c) && decide (m = sanitize x)
  | .number (.ofNat n), x => decide (n < 10) && decide (nameText x = [UInt8.ofNat (0x30 + n)])
  | _, _ => false

theorem itemB_sound {t : Tok} {x : List Char} (h : itemB t x = true) : Item t (nameText x) := by
  unfold itemB at h
  split at h
  · simp only [Bool.and_eq_true, decide_eq_true_eq] at h
    obtain ⟨rfl, h⟩ := h
    rcases h with h | h
    · exact .symbol h
    · exact .word h.1 h.2
  · simp only [Bool.and_eq_true, decide_eq_true_eq] at h
    obtain ⟨⟨⟨h1, h2⟩, h3⟩, rfl⟩ := h
    rw [sanitize_eq]
    refine .typeReference (nameB_sound h1) ?_ (by
      rintro k hk rfl
      rw [← reservedChars_eq] at h3
      simp only [Bool.not_eq_true', ← Bool.not_eq_true, List.contains_iff_mem] at h3
      exact h3 (List.mem_map_of_mem hk))
    split at h2
    · cases h2
    · exact ⟨_, _, rfl, upperB_iff.1 h2⟩
  · simp only [Bool.and_eq_true, decide_eq_true_eq] at h
    obtain ⟨⟨h1, h2⟩, rfl⟩ := h
    rw [sanitize_eq]
    refine .identifier (nameB_sound h1) ?_
    split at h2
    · cases h2
    · exact ⟨_, _, rfl, lowerB_iff.1 h2⟩
  · rename_i x n
    simp only [Bool.and_eq_true, decide_eq_true_eq] at h
    obtain ⟨hn, hx⟩ := h
    rw [hx]
    have hd : ∀ n < 10, FastBer.Spec.decimal [UInt8.ofNat (0x30 + n)] = n ∧ ((48 ≤ (UInt8.ofNat (0x30 + n)).toNat ∧ (UInt8.ofNat (0x30 + n)).toNat ≤ 57)) := by decide
    have := Item.number (s := [UInt8.ofNat (0x30 + n)]) (by intro b hb; rw [List.mem_singleton.1 hb]; exact (hd n hn).2) (by simp) (by rw [(hd n hn).1]; omega)
    rw [(hd n hn).1] at this
    exact this
  · cases h

/-- What follows cannot be taken for a part of the item: it starts with white space, a bracket, a comma or with two hyphens behind a word. -/
def endsB (t : Tok) (r : Bytes) : Bool :=
  match r with
  | [] => true
  | 0x2D :: 0x2D :: _ => match t with | .sym k => !(itemSymbols.contains k) | _ => false
  | b :: _ => [0x20, 0x0A, 0x2C, 0x7B, 0x7D, 0x5B, 0x5D].contains b || (match t with | .sym k => ["[", "{"].contains k | _ => false)

theorem endsB_sound {t : Tok} {x : List Char} {r : Bytes} (hi : itemB t x = true) (h : endsB t r = true) : Ends t r := by
  have word : ∀ b s, [0x20, 0x0A, 0x2C, 0x7B, 0x7D, 0x5B, 0x5D].contains b = true → WordEnds (b :: s) := by
    intro b s hb
    rw [List.contains_iff_mem] at hb
    have hw : ∀ b : UInt8, b ∈ ([0x20, 0x0A, 0x2C, 0x7B, 0x7D, 0x5B, 0x5D] : List UInt8) → ¬ Word b ∧ b ≠ 0x2D := by unfold Word; decide
    refine ⟨?_, ?_⟩
    · intro c s' he
      cases he
      exact (hw _ hb).1
    · intro s' he
      cases he
      exact absurd rfl (hw _ hb).2
  have nil : WordEnds [] := ⟨fun _ _ h => (by cases h), fun _ h => (by cases h)⟩
  have comment : ∀ s, WordEnds (0x2D :: 0x2D :: s) := by
    intro s
    refine ⟨?_, ?_⟩
    · intro c s' he
      cases he
      unfold Word; decide
    · intro s' he
      cases he
      intro c s' he
      cases he
      unfold Word; decide
  have plain : ∀ b s, [0x20, 0x0A, 0x2C, 0x7B, 0x7D, 0x5B, 0x5D].contains b = true → ∀ P : UInt8 → Prop, (∀ c ∈ ([0x20, 0x0A, 0x2C, 0x7B, 0x7D, 0x5B, 0x5D] : List UInt8), ¬ P c) → NotNext P (b :: s) := by
    intro b s hb P hP c s' he
    cases he
    exact hP _ (List.contains_iff_mem.1 hb)
  have colon : ∀ (b : UInt8) (s : Bytes), [0x20, 0x0A, 0x2C, 0x7B, 0x7D, 0x5B, 0x5D].contains b = true → ∀ s', b :: s ≠ 0x3A :: 0x3D :: s' := by
    intro b s hb s' he
    cases he
    exact absurd hb (by decide)
  unfold endsB at h
  split at h
  · unfold Ends
    split
    · split
      · exact ⟨fun _ s h => (by cases h), fun _ _ _ h => (by cases h), fun _ _ _ h => (by cases h)⟩
      · exact nil
    all_goals first | exact nil | trivial | exact ⟨fun _ _ h => (by cases h), fun _ h => (by cases h)⟩ | exact fun _ _ h => by cases h
  · split at h
    · dsimp only [Ends]
      rw [if_neg (by simpa [List.contains_iff_mem] using h)]
      exact comment _
    · cases h
  · rename_i b s hne
    rw [Bool.or_eq_true] at h
    rcases h with h | h
    · unfold Ends
      split
      · split
        · exact ⟨fun _ => colon _ _ h, fun _ => plain _ _ h _ (by decide), fun _ => plain _ _ h _ (by unfold Digit; decide)⟩
        · exact word _ _ h
      · exact word _ _ h
      · exact word _ _ h
      · exact word _ _ h
      · exact word _ _ h
      · exact ⟨plain _ _ h _ (by unfold Digit; decide), fun s' he => by cases he; exact absurd h (by decide)⟩
      · exact plain _ _ h _ (by unfold Digit; decide)
      · exact plain _ _ h _ (by unfold Digit; decide)
      · exact plain _ _ h _ (by decide)
      · trivial
      · trivial
    · split at h
      · rename_i k
        rw [List.contains_iff_mem] at h
        have hk : k ∈ itemSymbols ∧ k ≠ ":" ∧ k ≠ "." ∧ k ≠ ".." ∧ k ≠ "-" := by
          have : ∀ k ∈ ["[", "{"], k ∈ itemSymbols ∧ k ≠ ":" ∧ k ≠ "." ∧ k ≠ ".." ∧ k ≠ "-" := by decide
          exact this k h
        dsimp only [Ends]
        rw [if_pos hk.1]
        exact ⟨fun e => absurd e hk.2.1, fun e => e.elim (fun e => absurd e hk.2.2.1) fun e => absurd e hk.2.2.2.1, fun e => absurd e hk.2.2.2.2⟩
      · cases h

/-- No two hyphens in a row. -/
def noPairB : Bytes → Bool
  | 0x2D :: 0x2D :: _ => false
  | [] => true
  | _ :: s => noPairB s

theorem noPairB_sound : ∀ {s : Bytes}, noPairB s = true → ¬ Occurs [0x2D, 0x2D] s
  | [], _, h => by
    obtain ⟨p, q, h⟩ := h
    cases p <;> cases h
  | b :: s, hb, h => by
    obtain ⟨p, q, h⟩ := h
    cases p with
    | nil =>
      cases h
      cases hb
    | cons c p =>
      cases h
      have : noPairB (p ++ [0x2D, 0x2D] ++ q) = true := by
        unfold noPairB at hb
        split at hb
        · cases hb
        · rename_i he; cases he
        · rename_i he; cases he; exact hb
      exact noPairB_sound this ⟨p, q, rfl⟩

def check : List Piece → Bool
  | [] => true
  | .item t x :: l => itemB t x && endsB t (texts l) && check l
  | .gap x :: l => ((nameText x).all fun b => b == 0x20 || b == 0x0A) && check l
  | .comment x :: l => ((nameText x).all fun b => decide (¬ (10 ≤ b.toNat ∧ b.toNat ≤ 13))) && noPairB (nameText x) && check l

theorem gap_text {ts : List Tok} {s : Bytes} : ∀ {b : Bytes}, (b.all fun b => b == 0x20 || b == 0x0A) = true → Text ts s → Text ts (b ++ s)
  | [], _, h => h
  | c :: b, hb, h => by
    rw [List.all_cons, Bool.and_eq_true] at hb
    refine .blank (b := [c]) (.space ?_) (gap_text hb.2 h)
    simp only [Bool.or_eq_true, beq_iff_eq] at hb
    rcases hb.1 with rfl | rfl
    · exact .inr rfl
    · exact .inl (by decide)

theorem check_sound : ∀ {l : List Piece}, check l = true → Text (toks l) (texts l)
  | [], _ => .nil
  | .item t x :: l, h => by
    unfold check at h
    rw [Bool.and_eq_true, Bool.and_eq_true] at h
    exact .item (itemB_sound h.1.1) (endsB_sound h.1.1 h.1.2) (check_sound h.2)
  | .gap x :: l, h => by
    unfold check at h
    rw [Bool.and_eq_true] at h
    exact gap_text h.1 (check_sound h.2)
  | .comment x :: l, h => by
    unfold check at h
    rw [Bool.and_eq_true, Bool.and_eq_true] at h
    exact .blank (.line (fun b hb => of_decide_eq_true (List.all_eq_true.1 h.1.1 b hb)) (noPairB_sound h.1.2) (.inl rfl)) (check_sound h.2)

end Piece

/-! ## The file -/

/-- /repo/testfiles/circular.asn. -/
def circleFile : Bytes := [
  "Circular DEFINITIONS IMPLICIT TAGS ::= BEGIN\n",
  "\n",
  "CircularSequence1 ::= SEQUENCE {\n",
  "    name OCTET STRING,\n",
  "    cs2 CircularSequence2 OPTIONAL\n",
  "}\n",
  "\n",
  "CircularSequence2 ::= SEQUENCE {\n",
  "    cs1 CircularSequence1\n",
  "}\n",
  "\n",
  "CircularSequenceOf1 ::= SEQUENCE {\n",
  "    sequence CircularSequenceOf2\n",
  "}\n",
  "\n",
  "CircularSequenceOf2 ::= SEQUENCE OF CircularSequenceOf1\n",
  "\n",
  "CircularChoice1 ::= CHOICE {\n",
  "    int INTEGER,\n",
  "    choice [1] EXPLICIT CircularChoice2,\n",
  "    seq SEQUENCE { inner SEQUENCE { number MyInt } },\n",
  "    enum ENUMERATED { one, two }\n",
  "}\n",
  "\n",
  "CircularChoice2 ::= SEQUENCE {\n",
  "    str OCTET STRING,\n",
  "    choice CircularChoice1\n",
  "}\n",
  "\n",
  "MyInt ::= INTEGER\n",
  "\n",
  "SelfReference ::= CHOICE {\n",
  "    str [0] OCTET STRING,\n",
  "    self [1] SelfReference\n",
  "}\n",
  "\n",
  "END-- Comment at end\n"].flatMap bytes

/-- The same, in pieces. -/
def circlePieces : List Piece := [
  .item (.upper ['C', 'i', 'r', 'c', 'u', 'l', 'a', 'r']) ['C', 'i', 'r', 'c', 'u', 'l', 'a', 'r'], .gap [' '], .item (kw "DEFINITIONS") ['D', 'E', 'F', 'I', 'N', 'I', 'T', 'I', 'O', 'N', 'S'], .gap [' '], .item (kw "IMPLICIT") ['I', 'M', 'P', 'L', 'I', 'C', 'I', 'T'], .gap [' '],
  .item (kw "TAGS") ['T', 'A', 'G', 'S'], .gap [' '], .item (kw "::=") [':', ':', '='], .gap [' '], .item (kw "BEGIN") ['B', 'E', 'G', 'I', 'N'], .gap ['\n', '\n'],
  .item (.upper ['C', 'i', 'r', 'c', 'u', 'l', 'a', 'r', 'S', 'e', 'q', 'u', 'e', 'n', 'c', 'e', '1']) ['C', 'i', 'r', 'c', 'u', 'l', 'a', 'r', 'S', 'e', 'q', 'u', 'e', 'n', 'c', 'e', '1'], .gap [' '], .item (kw "::=") [':', ':', '='], .gap [' '], .item (kw "SEQUENCE") ['S', 'E', 'Q', 'U', 'E', 'N', 'C', 'E'], .gap [' '],
  .item (kw "{") ['{'], .gap ['\n', ' ', ' ', ' ', ' '], .item (.lower ['n', 'a', 'm', 'e']) ['n', 'a', 'm', 'e'], .gap [' '], .item (kw "OCTET") ['O', 'C', 'T', 'E', 'T'], .gap [' '],
  .item (kw "STRING") ['S', 'T', 'R', 'I', 'N', 'G'], .item (kw ",") [','], .gap ['\n', ' ', ' ', ' ', ' '], .item (.lower ['c', 's', '2']) ['c', 's', '2'], .gap [' '], .item (.upper ['C', 'i', 'r', 'c', 'u', 'l', 'a', 'r', 'S', 'e', 'q', 'u', 'e', 'n', 'c', 'e', '2']) ['C', 'i', 'r', 'c', 'u', 'l', 'a', 'r', 'S', 'e', 'q', 'u', 'e', 'n', 'c', 'e', '2'],
  .gap [' '], .item (kw "OPTIONAL") ['O', 'P', 'T', 'I', 'O', 'N', 'A', 'L'], .gap ['\n'], .item (kw "}") ['}'], .gap ['\n', '\n'], .item (.upper ['C', 'i', 'r', 'c', 'u', 'l', 'a', 'r', 'S', 'e', 'q', 'u', 'e', 'n', 'c', 'e', '2']) ['C', 'i', 'r', 'c', 'u', 'l', 'a', 'r', 'S', 'e', 'q', 'u', 'e', 'n', 'c', 'e', '2'],
  .gap [' '], .item (kw "::=") [':', ':', '='], .gap [' '], .item (kw "SEQUENCE") ['S', 'E', 'Q', 'U', 'E', 'N', 'C', 'E'], .gap [' '], .item (kw "{") ['{'],
  .gap ['\n', ' ', ' ', ' ', ' '], .item (.lower ['c', 's', '1']) ['c', 's', '1'], .gap [' '], .item (.upper ['C', 'i', 'r', 'c', 'u', 'l', 'a', 'r', 'S', 'e', 'q', 'u', 'e', 'n', 'c', 'e', '1']) ['C', 'i', 'r', 'c', 'u', 'l', 'a', 'r', 'S', 'e', 'q', 'u', 'e', 'n', 'c', 'e', '1'], .gap ['\n'], .item (kw "}") ['}'],
  .gap ['\n', '\n'], .item (.upper ['C', 'i', 'r', 'c', 'u', 'l', 'a', 'r', 'S', 'e', 'q', 'u', 'e', 'n', 'c', 'e', 'O', 'f', '1']) ['C', 'i', 'r', 'c', 'u', 'l', 'a', 'r', 'S', 'e', 'q', 'u', 'e', 'n', 'c', 'e', 'O', 'f', '1'], .gap [' '], .item (kw "::=") [':', ':', '='], .gap [' '], .item (kw "SEQUENCE") ['S', 'E', 'Q', 'U', 'E', 'N', 'C', 'E'],
  .gap [' '], .item (kw "{") ['{'], .gap ['\n', ' ', ' ', ' ', ' '], .item (.lower ['s', 'e', 'q', 'u', 'e', 'n', 'c', 'e']) ['s', 'e', 'q', 'u', 'e', 'n', 'c', 'e'], .gap [' '], .item (.upper ['C', 'i', 'r', 'c', 'u', 'l', 'a', 'r', 'S', 'e', 'q', 'u', 'e', 'n', 'c', 'e', 'O', 'f', '2']) ['C', 'i', 'r', 'c', 'u', 'l', 'a', 'r', 'S', 'e', 'q', 'u', 'e', 'n', 'c', 'e', 'O', 'f', '2'],
  .gap ['\n'], .item (kw "}") ['}'], .gap ['\n', '\n'], .item (.upper ['C', 'i', 'r', 'c', 'u', 'l', 'a', 'r', 'S', 'e', 'q', 'u', 'e', 'n', 'c', 'e', 'O', 'f', '2']) ['C', 'i', 'r', 'c', 'u', 'l', 'a', 'r', 'S', 'e', 'q', 'u', 'e', 'n', 'c', 'e', 'O', 'f', '2'], .gap [' '], .item (kw "::=") [':', ':', '='],
  .gap [' '], .item (kw "SEQUENCE") ['S', 'E', 'Q', 'U', 'E', 'N', 'C', 'E'], .gap [' '], .item (kw "OF") ['O', 'F'], .gap [' '], .item (.upper ['C', 'i', 'r', 'c', 'u', 'l', 'a', 'r', 'S', 'e', 'q', 'u', 'e', 'n', 'c', 'e', 'O', 'f', '1']) ['C', 'i', 'r', 'c', 'u', 'l', 'a', 'r', 'S', 'e', 'q', 'u', 'e', 'n', 'c', 'e', 'O', 'f', '1'],
  .gap ['\n', '\n'], .item (.upper ['C', 'i', 'r', 'c', 'u', 'l', 'a', 'r', 'C', 'h', 'o', 'i', 'c', 'e', '1']) ['C', 'i', 'r', 'c', 'u', 'l', 'a', 'r', 'C', 'h', 'o', 'i', 'c', 'e', '1'], .gap [' '], .item (kw "::=") [':', ':', '='], .gap [' '], .item (kw "CHOICE") ['C', 'H', 'O', 'I', 'C', 'E'],
  .gap [' '], .item (kw "{") ['{'], .gap ['\n', ' ', ' ', ' ', ' '], .item (.lower ['i', 'n', 't', '_']) ['i', 'n', 't'], .gap [' '], .item (kw "INTEGER") ['I', 'N', 'T', 'E', 'G', 'E', 'R'],
  .item (kw ",") [','], .gap ['\n', ' ', ' ', ' ', ' '], .item (.lower ['c', 'h', 'o', 'i', 'c', 'e']) ['c', 'h', 'o', 'i', 'c', 'e'], .gap [' '], .item (kw "[") ['['], .item (.number 1) ['1'],
  .item (kw "]") [']'], .gap [' '], .item (kw "EXPLICIT") ['E', 'X', 'P', 'L', 'I', 'C', 'I', 'T'], .gap [' '], .item (.upper ['C', 'i', 'r', 'c', 'u', 'l', 'a', 'r', 'C', 'h', 'o', 'i', 'c', 'e', '2']) ['C', 'i', 'r', 'c', 'u', 'l', 'a', 'r', 'C', 'h', 'o', 'i', 'c', 'e', '2'], .item (kw ",") [','],
  .gap ['\n', ' ', ' ', ' ', ' '], .item (.lower ['s', 'e', 'q']) ['s', 'e', 'q'], .gap [' '], .item (kw "SEQUENCE") ['S', 'E', 'Q', 'U', 'E', 'N', 'C', 'E'], .gap [' '], .item (kw "{") ['{'],
  .gap [' '], .item (.lower ['i', 'n', 'n', 'e', 'r']) ['i', 'n', 'n', 'e', 'r'], .gap [' '], .item (kw "SEQUENCE") ['S', 'E', 'Q', 'U', 'E', 'N', 'C', 'E'], .gap [' '], .item (kw "{") ['{'],
  .gap [' '], .item (.lower ['n', 'u', 'm', 'b', 'e', 'r']) ['n', 'u', 'm', 'b', 'e', 'r'], .gap [' '], .item (.upper ['M', 'y', 'I', 'n', 't']) ['M', 'y', 'I', 'n', 't'], .gap [' '], .item (kw "}") ['}'],
  .gap [' '], .item (kw "}") ['}'], .item (kw ",") [','], .gap ['\n', ' ', ' ', ' ', ' '], .item (.lower ['e', 'n', 'u', 'm', '_']) ['e', 'n', 'u', 'm'], .gap [' '],
  .item (kw "ENUMERATED") ['E', 'N', 'U', 'M', 'E', 'R', 'A', 'T', 'E', 'D'], .gap [' '], .item (kw "{") ['{'], .gap [' '], .item (.lower ['o', 'n', 'e']) ['o', 'n', 'e'], .item (kw ",") [','],
  .gap [' '], .item (.lower ['t', 'w', 'o']) ['t', 'w', 'o'], .gap [' '], .item (kw "}") ['}'], .gap ['\n'], .item (kw "}") ['}'],
  .gap ['\n', '\n'], .item (.upper ['C', 'i', 'r', 'c', 'u', 'l', 'a', 'r', 'C', 'h', 'o', 'i', 'c', 'e', '2']) ['C', 'i', 'r', 'c', 'u', 'l', 'a', 'r', 'C', 'h', 'o', 'i', 'c', 'e', '2'], .gap [' '], .item (kw "::=") [':', ':', '='], .gap [' '], .item (kw "SEQUENCE") ['S', 'E', 'Q', 'U', 'E', 'N', 'C', 'E'],
  .gap [' '], .item (kw "{") ['{'], .gap ['\n', ' ', ' ', ' ', ' '], .item (.lower ['s', 't', 'r']) ['s', 't', 'r'], .gap [' '], .item (kw "OCTET") ['O', 'C', 'T', 'E', 'T'],
  .gap [' '], .item (kw "STRING") ['S', 'T', 'R', 'I', 'N', 'G'], .item (kw ",") [','], .gap ['\n', ' ', ' ', ' ', ' '], .item (.lower ['c', 'h', 'o', 'i', 'c', 'e']) ['c', 'h', 'o', 'i', 'c', 'e'], .gap [' '],
  .item (.upper ['C', 'i', 'r', 'c', 'u', 'l', 'a', 'r', 'C', 'h', 'o', 'i', 'c', 'e', '1']) ['C', 'i', 'r', 'c', 'u', 'l', 'a', 'r', 'C', 'h', 'o', 'i', 'c', 'e', '1'], .gap ['\n'], .item (kw "}") ['}'], .gap ['\n', '\n'], .item (.upper ['M', 'y', 'I', 'n', 't']) ['M', 'y', 'I', 'n', 't'], .gap [' '],
  .item (kw "::=") [':', ':', '='], .gap [' '], .item (kw "INTEGER") ['I', 'N', 'T', 'E', 'G', 'E', 'R'], .gap ['\n', '\n'], .item (.upper ['S', 'e', 'l', 'f', 'R', 'e', 'f', 'e', 'r', 'e', 'n', 'c', 'e']) ['S', 'e', 'l', 'f', 'R', 'e', 'f', 'e', 'r', 'e', 'n', 'c', 'e'], .gap [' '],
  .item (kw "::=") [':', ':', '='], .gap [' '], .item (kw "CHOICE") ['C', 'H', 'O', 'I', 'C', 'E'], .gap [' '], .item (kw "{") ['{'], .gap ['\n', ' ', ' ', ' ', ' '],
  .item (.lower ['s', 't', 'r']) ['s', 't', 'r'], .gap [' '], .item (kw "[") ['['], .item (.number 0) ['0'], .item (kw "]") [']'], .gap [' '],
  .item (kw "OCTET") ['O', 'C', 'T', 'E', 'T'], .gap [' '], .item (kw "STRING") ['S', 'T', 'R', 'I', 'N', 'G'], .item (kw ",") [','], .gap ['\n', ' ', ' ', ' ', ' '], .item (.lower ['s', 'e', 'l', 'f']) ['s', 'e', 'l', 'f'],
  .gap [' '], .item (kw "[") ['['], .item (.number 1) ['1'], .item (kw "]") [']'], .gap [' '], .item (.upper ['S', 'e', 'l', 'f', 'R', 'e', 'f', 'e', 'r', 'e', 'n', 'c', 'e']) ['S', 'e', 'l', 'f', 'R', 'e', 'f', 'e', 'r', 'e', 'n', 'c', 'e'],
  .gap ['\n'], .item (kw "}") ['}'], .gap ['\n', '\n'], .item (kw "END") ['E', 'N', 'D'], .comment [' ', 'C', 'o', 'm', 'm', 'e', 'n', 't', ' ', 'a', 't', ' ', 'e', 'n', 'd']]

theorem circle_text : Text (Piece.toks circlePieces) (circleFile) := by
  have e : circleFile = Piece.texts circlePieces := by decide +kernel
  rw [e]
  exact Piece.check_sound (by decide +kernel)

/-- The type `CircularSequence1`. -/
def circleSeq : AType := .sequence [required "name" (.leaf .octetString), optional "cs2" (.defined none "CircularSequence2" [])] false

/-- The module written in it. -/
def circleModule : Module := ⟨"Circular", .implicit, [], [
  ⟨"CircularSequence1", .type circleSeq, []⟩,
  ⟨"CircularSequence2", .type (.sequence [required "cs1" (.defined none "CircularSequence1" [])] false), []⟩,
  ⟨"CircularSequenceOf1", .type (.sequence [required "sequence" (.defined none "CircularSequenceOf2" [])] false), []⟩,
  ⟨"CircularSequenceOf2", .type (.seqOf none (.defined none "CircularSequenceOf1" []) .smallBuffer), []⟩,
  ⟨"CircularChoice1", .type (.choice [
    .mk "int_" (.leaf .integer),
    .mk "choice" (.prefixed .contextSpecific 1 .explicit_ (.defined none "CircularChoice2" [])),
    .mk "seq" (.sequence [required "inner" (.sequence [required "number" (.defined none "MyInt" [])] false)] false),
    .mk "enum_" (.leaf .enumerated)] .static_), []⟩,
  ⟨"CircularChoice2", .type (.sequence [required "str" (.leaf .octetString), required "choice" (.defined none "CircularChoice1" [])] false), []⟩,
  ⟨"MyInt", .type (.leaf .integer), []⟩,
  ⟨"SelfReference", .type (.choice [
    .mk "str" (.prefixed .contextSpecific 0 .automatic (.leaf .octetString)),
    .mk "self" (.prefixed .contextSpecific 1 .automatic (.defined none "SelfReference" []))] .static_), []⟩]⟩

set_option maxRecDepth 20000 in
theorem circle_written (stod : Bytes → UInt64) : Written stod [circleFile] [circleModule] := by
  have ref (n : List Char) : TypeN stod true [.upper n] (.defined none (nm n) []) := .reference n
  have octets : TypeN stod true [kw "OCTET", kw "STRING"] (.leaf .octetString) := .simple (ks := ["OCTET", "STRING"]) (by simp [simpleTypes])
  have int : TypeN stod true [kw "INTEGER"] (.leaf .integer) := .simple (ks := ["INTEGER"]) (by simp [simpleTypes])
  have a1 := AssignmentN.type (real := stod) ['C', 'i', 'r', 'c', 'u', 'l', 'a', 'r', 'S', 'e', 'q', 'u', 'e', 'n', 'c', 'e', '1']
    (.sequence (.root (.more (.one (.required ['n', 'a', 'm', 'e'] octets)) (.optional ['c', 's', '2'] (ref ['C', 'i', 'r', 'c', 'u', 'l', 'a', 'r', 'S', 'e', 'q', 'u', 'e', 'n', 'c', 'e', '2'])))))
  have a2 := AssignmentN.type (real := stod) ['C', 'i', 'r', 'c', 'u', 'l', 'a', 'r', 'S', 'e', 'q', 'u', 'e', 'n', 'c', 'e', '2'] (.sequence (.root (.one (.required ['c', 's', '1'] (ref ['C', 'i', 'r', 'c', 'u', 'l', 'a', 'r', 'S', 'e', 'q', 'u', 'e', 'n', 'c', 'e', '1'])))))
  have a3 := AssignmentN.type (real := stod) ['C', 'i', 'r', 'c', 'u', 'l', 'a', 'r', 'S', 'e', 'q', 'u', 'e', 'n', 'c', 'e', 'O', 'f', '1'] (.sequence (.root (.one (.required ['s', 'e', 'q', 'u', 'e', 'n', 'c', 'e'] (ref ['C', 'i', 'r', 'c', 'u', 'l', 'a', 'r', 'S', 'e', 'q', 'u', 'e', 'n', 'c', 'e', 'O', 'f', '2'])))))
  have a4 := AssignmentN.type (real := stod) ['C', 'i', 'r', 'c', 'u', 'l', 'a', 'r', 'S', 'e', 'q', 'u', 'e', 'n', 'c', 'e', 'O', 'f', '2'] (.sequenceOf .nothing (.plain (ref ['C', 'i', 'r', 'c', 'u', 'l', 'a', 'r', 'S', 'e', 'q', 'u', 'e', 'n', 'c', 'e', 'O', 'f', '1'])))
  have inner := TypeN.sequence (.root (.one (.required ['i', 'n', 'n', 'e', 'r'] (.sequence (.root (.one (.required ['n', 'u', 'm', 'b', 'e', 'r'] (ref ['M', 'y', 'I', 'n', 't']))))))))
  have enum := TypeN.enumerated (real := stod) (.root (.more (.one (.plain ['o', 'n', 'e'])) (.plain ['t', 'w', 'o'])))
  have a5 := AssignmentN.type (real := stod) ['C', 'i', 'r', 'c', 'u', 'l', 'a', 'r', 'C', 'h', 'o', 'i', 'c', 'e', '1']
    (.choice (.more ['e', 'n', 'u', 'm', '_'] (.more ['s', 'e', 'q'] (.more ['c', 'h', 'o', 'i', 'c', 'e'] (.one ['i', 'n', 't', '_'] int) (.tagged 1 .context (by decide) .explicit_ (ref ['C', 'i', 'r', 'c', 'u', 'l', 'a', 'r', 'C', 'h', 'o', 'i', 'c', 'e', '2']))) inner) enum))
  have a6 := AssignmentN.type (real := stod) ['C', 'i', 'r', 'c', 'u', 'l', 'a', 'r', 'C', 'h', 'o', 'i', 'c', 'e', '2']
    (.sequence (.root (.more (.one (.required ['s', 't', 'r'] octets)) (.required ['c', 'h', 'o', 'i', 'c', 'e'] (ref ['C', 'i', 'r', 'c', 'u', 'l', 'a', 'r', 'C', 'h', 'o', 'i', 'c', 'e', '1'])))))
  have a7 := AssignmentN.type (real := stod) ['M', 'y', 'I', 'n', 't'] int
  have a8 := AssignmentN.type (real := stod) ['S', 'e', 'l', 'f', 'R', 'e', 'f', 'e', 'r', 'e', 'n', 'c', 'e']
    (.choice (.more ['s', 'e', 'l', 'f'] (.one ['s', 't', 'r'] (.tagged 0 .context (by decide) .default octets)) (.tagged 1 .context (by decide) .default (ref ['S', 'e', 'l', 'f', 'R', 'e', 'f', 'e', 'r', 'e', 'n', 'c', 'e']))))
  have hm := FileN.one (.full (o := []) (e := []) (i := []) ['C', 'i', 'r', 'c', 'u', 'l', 'a', 'r'] .nothing .implicit .nothing .nothing
    (.more a1 (.more a2 (.more a3 (.more a4 (.more a5 (.more a6 (.more a7 (.one a8)))))))))
  exact .cons circle_text hm .nil

/-- What the passes make of it. -/
def circleOut : Tree := ⟨[⟨"Circular", .implicit, [], [
  ⟨"SelfReference", .type (.choice [
    .mk "str" (.prefixed .contextSpecific 0 .automatic (.leaf .octetString)),
    .mk "self" (.prefixed .contextSpecific 1 .automatic (.defined none "SelfReference" []))] .dynamic), []⟩,
  ⟨"MyInt", .type (.leaf .integer), []⟩,
  ⟨"CircularChoice1", .type (.choice [
    .mk "int_" (.leaf .integer),
    .mk "choice" (.prefixed .contextSpecific 1 .explicit_ (.defined none "CircularChoice2" [])),
    .mk "seq" (.sequence [required "inner" (.sequence [required "number" (.defined none "MyInt" [])] false)] false),
    .mk "enum_" (.leaf .enumerated)] .dynamic), []⟩,
  ⟨"CircularChoice2", .type (.sequence [required "str" (.leaf .octetString), required "choice" (.defined none "CircularChoice1" [])] false), []⟩,
  ⟨"CircularSequenceOf2", .type (.seqOf none (.defined none "CircularSequenceOf1" []) .dynamic), []⟩,
  ⟨"CircularSequenceOf1", .type (.sequence [required "sequence" (.defined none "CircularSequenceOf2" [])] false), []⟩,
  ⟨"CircularSequence1", .type (.sequence [required "name" (.leaf .octetString), .mk "cs2" (.defined none "CircularSequence2" []) true none none .dynamic] false), []⟩,
  ⟨"CircularSequence2", .type (.sequence [required "cs1" (.defined none "CircularSequence1" [])] false), []⟩]⟩]⟩

theorem circle_frontEnd : frontEnd 20 (backT ⟨[circleModule]⟩) = .ok circleOut := by rfl

theorem circle_generate : ∃ env, Fwd.generate demoLib 20 circleOut = .ok env ∧ constructs env 5 = true := by
  refine ⟨⟨[
  (("Circular", "CircularSequence2"), .type (.seq (univ 16) (.cons .mandatory [] cycleSeq .nil))),
  (("Circular", "CircularSequence1"), .type cycleSeq),
  (("Circular", "CircularSequenceOf1"), .type (.seq (univ 16) (.cons .mandatory [] (.seqOf (univ 16) (.ref ⟨"Circular", "CircularSequenceOf1", none⟩)) .nil))),
  (("Circular", "CircularSequenceOf2"), .type (.seqOf (univ 16) (.ref ⟨"Circular", "CircularSequenceOf1", none⟩))),
  (("Circular", "CircularSequenceOf2Contained"), .type (.ref ⟨"Circular", "CircularSequenceOf1", none⟩)),
  (("Circular", "CircularChoice2"), .type (.seq (univ 16) (.cons .mandatory [] (.leaf .str (univ 4)) (.cons .mandatory [] cycleChoice .nil)))),
  (("Circular", "CircularChoice1"), .type cycleChoice),
  (("Circular", "MyInt"), .type (.leaf .int (univ 2))),
  (("Circular", "SelfReference"), .type (.choice (.untagged [⟨.contextSpecific, 0⟩, ⟨.contextSpecific, 1⟩]) <|
    .cons [⟨.contextSpecific, 0⟩] (.leaf .str (ctx 0)) <|
    .cons [⟨.contextSpecific, 1⟩] (.ref ⟨"Circular", "SelfReference", some (.single (.ofTag .contextSpecific 1))⟩) .nil))], []⟩, rfl, ?_⟩
  decide +kernel

/-- The compiler, from the text of the file to the types of its output. -/
theorem circle_compiles (stod : Bytes → UInt64) : ∃ env, RTextCompiled stod demoLib [circleFile] [circleModule] env := by
  obtain ⟨env, h2, h3⟩ := circle_generate
  refine ⟨env, ⟨circle_written stod, by decide +kernel, Check.plainSource_sound (by decide +kernel), Check.supportedSource_sound (fuel := 20) (by decide +kernel),
    Check.legal_sound (fuel := 20) (by decide +kernel), demoLib_defaults, ⟨20, ?_⟩, constructs_sound h3⟩⟩
  rw [C96_compile_recursive (circle_written stod)]
  exact Res.bind_eq_ok.2 ⟨circleOut, circle_frontEnd, h2⟩

theorem circle_assigned : SourceAssigned ⟨[circleModule]⟩ circleModule "CircularSequence1" circleSeq where
  module := List.mem_cons_self
  assignment := ⟨_, List.mem_cons_self, rfl, rfl⟩
  tags := Check.taggedStruct_sound 5 _ _ rfl

/-- What C96 says of it: values of any depth can be held, and are read back after they were encoded. -/
example (stod : Bytes → UInt64) : ∃ env : Fwd.Env, ∀ x, Ast.Spec.Value storable (qualify ⟨[circleModule]⟩) (qualifyModule ⟨[circleModule]⟩ circleModule) (qualifyType ⟨[circleModule]⟩ "Circular" circleSeq) x →
    ∃ o e, env.program.RepFresh ⟨"Circular", "CircularSequence1", none⟩ o x e := by
  obtain ⟨env, h1⟩ := circle_compiles stod
  exact ⟨env, (C96_encodes_recursive_partial h1 circle_assigned).2.2⟩

end FastBer.Props
