import Verif.Props.EndToEndText
/-!
# A checker for the items of a text

Used for concrete files: `Check.textOf` gives the text of items with the white space behind each, `Check.items_sound` that it is a text of these items.
-/
namespace FastBer.Check
open FastBer FastBer.Spec Names Names.Spec Lexer Lexer.Spec

def letter (c : Char) : Bool := ('A' ≤ c && c ≤ 'Z') || ('a' ≤ c && c ≤ 'z')
def nameChar (c : Char) : Bool := letter c || ('0' ≤ c && c ≤ '9') || c == '-'

/-- No two hyphens, none at the end. -/
def hyphensOk : List Char → Bool
  | [] => true
  | '-' :: [] => false
  | '-' :: '-' :: _ => false
  | _ :: cs => hyphensOk cs

def name (n : List Char) : Bool := n.all nameChar && hyphensOk n

/-- An item as written and the white space behind it. -/
structure Piece where
  item : List Char
  space : Bytes

/-- The token of an item. -/
def tokOf (n : List Char) : Tok :=
  match itemSymbols.find? (fun k => k.toList == n) with
  | some k => .sym k
  | none =>
    match reservedWords.find? (fun k => k.toList == n) with
    | some k => .sym k
    | none =>
      match n with
      | [] => .sym ""
      | c :: _ =>
        if 'A' ≤ c ∧ c ≤ 'Z' then .upper (santizeName n)
        else if 'a' ≤ c ∧ c ≤ 'z' then .lower (santizeName n)
        else .number (FastBer.Spec.decimal (nameText n))

def item (n : List Char) : Bool :=
  match itemSymbols.find? (fun k => k.toList == n) with
  | some k => k ∈ ["::=", "...", "{", "}", "(", ")", "[", "]", ";", ",", "|", "..", "."]
  | none =>
    match reservedWords.find? (fun k => k.toList == n) with
    | some k => k ∉ misspelt
    | none =>
      match n with
      | [] => false
      | c :: _ =>
        if 'A' ≤ c ∧ c ≤ 'Z' then name n && n != "ANY".toList
        else if 'a' ≤ c ∧ c ≤ 'z' then name n
        else (nameText n).all (fun b => 0x30 ≤ b.toNat && b.toNat ≤ 0x39) && FastBer.Spec.decimal (nameText n) < 2 ^ 63

def isWord (b : UInt8) : Bool :=
  (0x41 ≤ b.toNat && b.toNat ≤ 0x5A) || (0x61 ≤ b.toNat && b.toNat ≤ 0x7A) || b.toNat == 0x5F || (0x30 ≤ b.toNat && b.toNat ≤ 0x39)

/-- What follows an item: nothing that would make a word, a number or dots longer. -/
def ends : Bytes → Bool
  | [] => true
  | b :: s => !isWord b && b != 0x2D && (b != 0x2E || match s with
    | [] => true
    | c :: _ => !(0x30 ≤ c.toNat && c.toNat ≤ 0x39))

def endsDots : Bytes → Bool
  | [] => true
  | b :: _ => b != 0x2E

def isSpace (b : UInt8) : Bool := (9 ≤ b.toNat && b.toNat ≤ 13) || b.toNat == 32

/-- The text. -/
def textOf : List Piece → Bytes
  | [] => []
  | p :: ps => nameText p.item ++ (p.space ++ textOf ps)

/-- The pieces are items, and can be told apart. -/
def pieces : List Piece → Bool
  | [] => true
  | p :: ps =>
    item p.item && p.space.all isSpace && pieces ps &&
    (match itemSymbols.find? (fun k => k.toList == p.item) with
      | some k => if k = "." ∨ k = ".." then endsDots (p.space ++ textOf ps) else true
      | none => ends (p.space ++ textOf ps))

theorem name_sound {n : List Char} (h : name n = true) {c : Char} {cs : List Char} (hn : n = c :: cs) (hc : letter c = true) : AsnName n := by
  have hl : ∀ c, letter c = true → Names.Spec.letter c := by
    intro c h
    simp only [letter, Bool.or_eq_true, Bool.and_eq_true, decide_eq_true_eq] at h
    exact h
  have hy : ∀ n : List Char, hyphensOk n = true → n.getLast? ≠ some '-' ∧ ∀ p q, n ≠ p ++ '-' :: '-' :: q := by
    intro n
    induction n using hyphensOk.induct with
    | case1 => simp
    | case2 => simp [hyphensOk]
    | case3 => simp [hyphensOk]
    | case4 c cs h1 h2 ih =>
      intro h
      have h' : hyphensOk cs = true := by
        unfold hyphensOk at h
        split at h
        · rename_i e; cases e
        · rename_i e; exact absurd h (by simp)
        · exact absurd h (by simp)
        · rename_i e; cases e; exact h
      obtain ⟨g1, g2⟩ := ih h'
      refine ⟨?_, ?_⟩
      · cases cs with
        | nil => intro e; simp at e; exact h1 (by rw [e]) rfl
        | cons d ds => rw [List.getLast?_cons_cons]; exact g1
      · intro p q e
        cases p with
        | nil => simp only [List.nil_append, List.cons.injEq] at e; exact h2 _ e.1 e.2
        | cons a p => simp only [List.cons_append, List.cons.injEq] at e; exact g2 p q e.2
  simp only [name, Bool.and_eq_true] at h
  obtain ⟨h1, h2⟩ := h
  obtain ⟨g1, g2⟩ := hy n h2
  refine ⟨⟨c, cs, hn, hl c hc⟩, fun d hd => ?_, g1, g2⟩
  have := List.all_eq_true.1 h1 d hd
  simp only [nameChar, Bool.or_eq_true, Bool.and_eq_true, decide_eq_true_eq, beq_iff_eq] at this
  rcases this with (h | h) | h
  · exact .inl (hl d h)
  · exact .inr (.inl h)
  · exact .inr (.inr h)

theorem item_sound {n : List Char} (h : item n = true) : Item (tokOf n) (nameText n) := by
  unfold item at h
  unfold tokOf
  split at h
  · rename_i k hk
    have e : k.toList = n := by simpa using List.find?_some hk
    rw [← e]
    exact .symbol (List.mem_of_find?_eq_some hk)
  · split at h
    · rename_i k hk
      have e : k.toList = n := by simpa using List.find?_some hk
      rw [← e]
      exact .word (List.mem_of_find?_eq_some hk) (by simpa using h)
    · rename_i hno
      split at h
      · cases h
      · rename_i c cs _
        split at h
        · rename_i hc
          simp only [Bool.and_eq_true, bne_iff_ne, ne_eq] at h
          rw [if_pos hc]
          refine .typeReference (name_sound h.1 rfl (by simp [letter, hc.1, hc.2])) ⟨c, cs, rfl, hc⟩ fun k hk e => ?_
          rcases List.mem_cons.1 hk with rfl | hk
          · exact h.2 e
          · exact absurd (List.find?_eq_none.1 hno k hk) (by simp [e])
        · split at h
          · rename_i hc
            rw [if_neg (by assumption), if_pos hc]
            exact .identifier (name_sound h rfl (by simp [letter, hc.1, hc.2])) ⟨c, cs, rfl, hc⟩
          · simp only [Bool.and_eq_true, decide_eq_true_eq] at h
            rw [if_neg (by assumption), if_neg (by assumption)]
            refine .number (fun b hb => ?_) (by simp [nameText]) h.2
            simpa using List.all_eq_true.1 h.1 b hb

theorem word_iff {b : UInt8} : isWord b = true ↔ Word b := by
  simp [isWord, Word, or_assoc]

theorem ends_word {r : Bytes} (h : ends r = true) : WordEnds r := by
  cases r with
  | nil => exact ⟨fun b s e => (by cases e), fun s e => (by cases e)⟩
  | cons b s =>
    simp only [ends, Bool.and_eq_true, Bool.not_eq_true', bne_iff_ne, ne_eq] at h
    refine ⟨fun b' s' e hw => ?_, fun s' e => ?_⟩
    · cases e
      rw [← word_iff, h.1.1] at hw
      cases hw
    · cases e
      exact absurd rfl h.1.2

theorem ends_number {r : Bytes} (h : ends r = true) : NotNext Digit r ∧ ∀ s, r = 0x2E :: s → NotNext Digit s := by
  refine ⟨fun b s e hd => (ends_word h).1 b s e (.inr (.inr (.inr hd))), fun s e b s' e' hd => ?_⟩
  subst e e'
  simp only [ends, Bool.and_eq_true] at h
  have := h.2
  simp only [bne_self_eq_false, Bool.false_or, Bool.not_eq_true', Bool.and_eq_false_iff, decide_eq_false_iff_not] at this
  unfold Digit at hd
  omega

theorem space_blank {s r : Bytes} {ts : List Tok} (h : s.all isSpace = true) (ht : Text ts r) : Text ts (s ++ r) := by
  induction s with
  | nil => exact ht
  | cons b s ih =>
    simp only [List.all_cons, Bool.and_eq_true] at h
    have hb : (9 ≤ b.toNat ∧ b.toNat ≤ 13) ∨ b.toNat = 32 := by simpa [isSpace] using h.1
    exact .blank (b := [b]) (.space hb) (ih h.2)

theorem items_sound : ∀ {ps : List Piece}, pieces ps = true → Text (ps.map fun p => tokOf p.item) (textOf ps)
  | [], _ => .nil
  | p :: ps, h => by
    simp only [pieces, Bool.and_eq_true] at h
    obtain ⟨⟨⟨h1, h2⟩, h3⟩, h4⟩ := h
    refine .item (item_sound h1) ?_ (space_blank h2 (items_sound h3))
    show Ends (tokOf p.item) _
    unfold item at h1
    unfold tokOf
    split at h4
    · rename_i k hk
      rw [hk] at h1
      have hm : k ∈ itemSymbols := List.mem_of_find?_eq_some hk
      rw [Ends, if_pos hm]
      simp only [decide_eq_true_eq] at h1
      refine ⟨fun e => ?_, fun e => ?_, fun e => ?_⟩
      · subst e; exact absurd h1 (by decide)
      · rw [if_pos e] at h4
        intro b s e'
        rw [e'] at h4
        simpa [endsDots] using h4
      · subst e; exact absurd h1 (by decide)
    · rename_i hk
      rw [hk] at h1
      have hno : ∀ k, reservedWords.find? (fun k => k.toList == p.item) = some k → k ∉ itemSymbols := by
        intro k hk' hm
        have e : k.toList = p.item := by simpa using List.find?_some hk'
        exact absurd (List.find?_eq_none.1 hk k hm) (by simp [e])
      simp only at h1
      split
      · rename_i k hk'
        rw [Ends, if_neg (hno k hk')]
        exact ends_word h4
      · rename_i hk'
        rw [hk'] at h1
        simp only at h1
        split
        · rename_i e; rw [e] at h1; cases h1
        · split
          · exact ends_word h4
          · split
            · exact ends_word h4
            · exact ends_number h4

/-- The characters of the text. -/
def charsOf : List Piece → List Char
  | [] => []
  | p :: ps => p.item ++ (p.space.map (fun b => Char.ofNat b.toNat) ++ charsOf ps)

theorem octet_char (b : UInt8) : UInt8.ofNat (Char.ofNat b.toNat).toNat = b := by
  have h : b.toNat.isValidChar := .inl (Nat.lt_trans b.toNat_lt (by decide))
  simp only [Char.ofNat, h, dif_pos]
  show UInt8.ofNat (Char.ofNatAux _ _).toNat = b
  simp [Char.ofNatAux, Char.toNat]

/-- How to compare the text with a literal: the kernel expands the literal to its characters. -/
theorem textOf_chars {s : String} {ps : List Piece} (h : s = String.ofList (charsOf ps)) : bytes s = textOf ps := by
  rw [h, bytes, String.toList_ofList]
  clear h
  induction ps with
  | nil => rfl
  | cons p ps ih =>
    rw [charsOf, textOf, List.map_append, List.map_append, ih, List.map_map]
    congr 2
    conv => rhs; rw [← List.map_id p.space]
    exact List.map_congr_left fun b _ => octet_char b

end FastBer.Check
