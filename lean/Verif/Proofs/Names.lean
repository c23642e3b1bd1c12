import Verif.Model.Names
import Verif.Spec.Names
/-! # Proofs about names and literals -/
namespace FastBer.Names
open Spec

/-! ## Names -/

theorem lexTail_chars : ∀ n, lexTail n = true → ∀ c ∈ n, isAlnum c ∨ c = '_' ∨ c = '-' := by
  intro n
  fun_induction lexTail n with
  | case1 => intro _ c h; cases h
  | case2 x xs ih =>
    intro h c hc
    simp only [Bool.and_eq_true, Bool.or_eq_true, decide_eq_true_eq] at h
    simp only [List.mem_cons] at hc
    rcases hc with rfl | rfl | hc
    · simp
    · rcases h.1 with h | h
      · exact .inl h
      · exact .inr (.inl h)
    · exact ih h.2 c hc
  | case3 x xs _ ih =>
    intro h c hc
    simp only [Bool.and_eq_true, Bool.or_eq_true, decide_eq_true_eq] at h
    simp only [List.mem_cons] at hc
    rcases hc with rfl | hc
    · rcases h.1 with h | h
      · exact .inl h
      · exact .inr (.inl h)
    · exact ih h.2 c hc

theorem isAlnum_spec {c : Char} (h : isAlnum c = true) : letter c ∨ digit c := by
  simp only [isAlnum, isUpper, isLower, isDigit, Bool.or_eq_true, Bool.and_eq_true,
    decide_eq_true_eq] at h
  rcases h with (h | h) | h
  · exact .inl (.inl h)
  · exact .inl (.inr h)
  · exact .inr h

theorem hyphens_chars {n : List Char} (h : ∀ c ∈ n, isAlnum c ∨ c = '_' ∨ c = '-') :
    ∀ c ∈ hyphens n, letter c ∨ digit c ∨ c = '_' := by
  intro c hc
  obtain ⟨d, hd, e⟩ := List.mem_map.mp hc
  split at e
  · subst e; simp
  · rename_i hne
    subst e
    rcases h d hd with h | h | h
    · rcases isAlnum_spec h with h | h
      · exact .inl h
      · exact .inr (.inl h)
    · exact .inr (.inr h)
    · exact absurd h hne

theorem santize_identifier {n : List Char} (h : isLexedName n = true) :
    CppIdentifier (santizeName n) ∧ '-' ∉ santizeName n := by
  cases n with
  | nil => simp [isLexedName] at h
  | cons c cs =>
    simp only [isLexedName, Bool.and_eq_true, Bool.or_eq_true] at h
    have hc : letter c := by
      rcases h.1 with h | h <;> simp only [isUpper, isLower, Bool.and_eq_true, decide_eq_true_eq] at h
      · exact .inl h
      · exact .inr h
    have hcne : c ≠ '-' := by
      rintro rfl
      rcases hc with h | h <;> revert h <;> decide
    have hall := lexTail_chars cs h.2
    have hchars : ∀ d ∈ hyphens (c :: cs), letter d ∨ digit d ∨ d = '_' := by
      intro d hd
      simp only [hyphens, List.map_cons, List.mem_cons, hcne, if_false] at hd
      rcases hd with rfl | hd
      · exact .inl hc
      · exact hyphens_chars hall d hd
    have hstart : ∃ d ds, hyphens (c :: cs) = d :: ds ∧ (letter d ∨ d = '_') :=
      ⟨c, hyphens cs, by simp [hyphens, hcne], .inl hc⟩
    have hid : CppIdentifier (santizeName (c :: cs)) := by
      unfold santizeName
      simp only
      split
      · obtain ⟨d, ds, e, hd⟩ := hstart
        refine ⟨⟨d, ds ++ ['_'], by rw [e]; rfl, hd⟩, ?_⟩
        intro x hx
        rcases List.mem_append.mp hx with hx | hx
        · exact hchars x hx
        · simp at hx; exact .inr (.inr hx)
      · exact ⟨hstart, hchars⟩
    refine ⟨hid, ?_⟩
    intro hm
    rcases hid.chars _ hm with h | h | h
    · rcases h with h | h <;> revert h <;> decide
    · revert h; unfold digit; decide
    · exact absurd h (by decide)

theorem keywords_covered : ∀ k ∈ cppKeywords, k ∈ reservedKeywords ∨ k = "xor_eq".toList := by
  decide +kernel

theorem keywords_last : ∀ k ∈ cppKeywords, k.getLast? ≠ some '_' := by decide +kernel

theorem reserved_last : ∀ k ∈ reservedKeywords, k.getLast? ≠ some '_' := by decide +kernel

theorem santize_keyword (n : List Char) :
    santizeName n ∈ cppKeywords ↔ hyphens n = "xor_eq".toList := by
  unfold santizeName
  simp only
  constructor
  · intro h
    split at h
    · have := keywords_last _ h
      simp at this
    · rename_i hr
      rcases keywords_covered _ h with h' | h'
      · simp at hr; exact absurd h' hr
      · exact h'
  · intro h
    rw [h]
    decide +kernel

theorem hyphens_inj : ∀ {a b : List Char}, '_' ∉ a → '_' ∉ b → hyphens a = hyphens b → a = b
  | [], [], _, _, _ => rfl
  | [], _ :: _, _, _, h => by simp [hyphens] at h
  | _ :: _, [], _, _, h => by simp [hyphens] at h
  | x :: a, y :: b, ha, hb, h => by
    simp only [hyphens, List.map_cons, List.cons.injEq] at h
    simp only [List.mem_cons, not_or] at ha hb
    rw [hyphens_inj ha.2 hb.2 h.2]
    congr 1
    have h1 := h.1
    split at h1 <;> split at h1
    · simp_all
    · exact absurd h1 hb.1
    · exact absurd h1.symm ha.1
    · exact h1

theorem hyphens_getLast (n : List Char) (hu : '_' ∉ n) (h : n.getLast? ≠ some '-') :
    (hyphens n).getLast? ≠ some '_' := by
  unfold hyphens
  rw [List.getLast?_map]
  intro e
  rcases hl : n.getLast? with _ | c
  · rw [hl] at e; simp at e
  · rw [hl] at e h
    simp only [Option.map_some, Option.some.injEq] at e
    have hm : c ∈ n := List.mem_of_getLast? hl
    split at e
    · rename_i hc; subst hc; exact h rfl
    · subst e; exact hu hm

theorem asnName_no_underscore {n : List Char} (h : AsnName n) : '_' ∉ n := by
  intro hm
  rcases h.chars _ hm with h | h | h
  · rcases h with h | h <;> revert h <;> decide
  · revert h; unfold digit; decide
  · exact absurd h (by decide)

theorem santize_inj {a b : List Char} (ha : AsnName a) (hb : AsnName b)
    (h : santizeName a = santizeName b) : a = b := by
  have ua := asnName_no_underscore ha
  have ub := asnName_no_underscore hb
  have la := hyphens_getLast a ua ha.last
  have lb := hyphens_getLast b ub hb.last
  unfold santizeName at h
  simp only at h
  split at h <;> split at h
  · exact hyphens_inj ua ub (List.append_cancel_right h)
  · rw [← h] at lb; simp at lb
  · rw [h] at la; simp at la
  · exact hyphens_inj ua ub h

/-! ## Hexadecimal strings -/

theorem hexDigit_eq {c : Char} (h : isHex c = true) : hexDigit c = hexValue c ∧ hexValue c < 16 := by
  have hle : ∀ a b : Char, a ≤ b ↔ a.toNat ≤ b.toNat := fun a b => Iff.rfl
  simp only [isHex, isDigit, Bool.or_eq_true, Bool.and_eq_true, decide_eq_true_eq, hle] at h
  unfold hexDigit hexValue isDigit isUpper
  simp only [Bool.and_eq_true, decide_eq_true_eq, hle]
  have e0 : '0'.toNat = 48 := rfl
  have e9 : '9'.toNat = 57 := rfl
  have eA : 'A'.toNat = 65 := rfl
  have eF : 'F'.toNat = 70 := rfl
  have eZ : 'Z'.toNat = 90 := rfl
  have ea : 'a'.toNat = 97 := rfl
  have ef : 'f'.toNat = 102 := rfl
  rw [e0, e9, eA, eF, ea, ef] at h
  rw [e0, e9, eA, eF, eZ, ea]
  generalize c.toNat = k at *
  rcases h with (h | h) | h
  · rw [if_pos h, if_pos h]; omega
  · rw [if_neg (by omega), if_pos (by omega), if_neg (by omega), if_pos h]; omega
  · rw [if_neg (by omega), if_neg (by omega), if_neg (by omega), if_neg (by omega)]; omega

/-- The literal text of a sequence of octets, one decimal escape each. -/
def escapes : List Nat → List Char
  | [] => []
  | b :: bs => '\\' :: (decimal b ++ escapes bs)

theorem hexPairs_even : ∀ (h : List Char), (∀ c ∈ h, isHex c = true) → h.length % 2 = 0 →
    hexPairs h = escapes (hexOctets h)
  | [], _, _ => rfl
  | [_], _, h => by simp at h
  | a :: b :: rest, hh, hl => by
    have ha := hexDigit_eq (hh a (by simp))
    have hb := hexDigit_eq (hh b (by simp))
    simp only [hexPairs, hexOctets, escapes]
    rw [hexPairs_even rest (fun c hc => hh c (by simp [hc])) (by simp at hl; omega), ha.1, hb.1]

theorem hexOctets_lt : ∀ (h : List Char), (∀ c ∈ h, isHex c = true) → ∀ b ∈ hexOctets h, b < 256
  | [], _, b, hb => by cases hb
  | [a], hh, b, hb => by
    have ha := hexDigit_eq (hh a (by simp))
    simp [hexOctets] at hb
    omega
  | x :: y :: rest, hh, b, hb => by
    have ha := hexDigit_eq (hh x (by simp))
    have hb' := hexDigit_eq (hh y (by simp))
    simp only [hexOctets, List.mem_cons] at hb
    rcases hb with rfl | hb
    · omega
    · exact hexOctets_lt rest (fun c hc => hh c (by simp [hc])) b hb

/-- Several steps of reading a literal. -/
def litSteps : Lit → List Char → Option (List Nat × Lit)
  | s, [] => some ([], s)
  | s, c :: cs => (litStep s c).bind fun r => (litSteps r.2 cs).map fun q => (r.1 ++ q.1, q.2)

theorem litRun_append : ∀ (xs : List Char) (s : Lit) (ys : List Char),
    litRun s (xs ++ ys) = (litSteps s xs).bind fun r => (litRun r.2 ys).map fun out => r.1 ++ out
  | [], s, ys => by simp [litSteps]
  | x :: xs, s, ys => by
    simp only [List.cons_append, litRun, litSteps]
    rcases litStep s x with _ | r
    · rfl
    · simp only [Option.bind_some]
      rw [litRun_append xs]
      rcases litSteps r.2 xs with _ | q
      · rfl
      · simp only [Option.bind_some, Option.map_some]
        rcases litRun q.2 ys with _ | o <;> simp

/-- What the decimal escape of `b` denotes in C++. -/
def seg (b : Nat) : List Nat :=
  match litSteps .escape (decimal b ++ ['"']) with
  | some (o, _) => o
  | none => []

theorem seg_steps_fin : ∀ b : Fin 256,
    litSteps .escape (decimal b.val ++ ['"']) = some (seg b.val, .closed) ∧
    litSteps .escape (decimal b.val ++ ['\\']) = some (seg b.val, .escape) := by decide +kernel

theorem seg_steps {b : Nat} (h : b < 256) :
    litSteps .escape (decimal b ++ ['"']) = some (seg b, .closed) ∧
    litSteps .escape (decimal b ++ ['\\']) = some (seg b, .escape) := seg_steps_fin ⟨b, h⟩

theorem seg_good {b : Nat} (h : 1 ≤ b ∧ b ≤ 7) : seg b = [b] := by
  have : ∀ b : Fin 8, 1 ≤ b.val → seg b.val = [b.val] := by decide +kernel
  exact this ⟨b, by omega⟩ h.1

theorem seg_bad {b : Nat} (hb : b < 256) (h : ¬ (1 ≤ b ∧ b ≤ 7)) :
    ∃ x xs, seg b = x :: xs ∧ (x = 0 ∨ x ≠ b) := by
  have : ∀ b : Fin 256, ¬ (1 ≤ b.val ∧ b.val ≤ 7) →
      ∃ x, (seg b.val).head? = some x ∧ (x = 0 ∨ x ≠ b.val) := by
    intro b hb
    have k : ∀ b : Fin 256, ¬ (1 ≤ b.val ∧ b.val ≤ 7) →
      (seg b.val).head? = some 0 ∨ ((seg b.val).head?.isSome ∧ (seg b.val).head? ≠ some b.val) := by
      decide +kernel
    rcases k b hb with h | ⟨h, h'⟩
    · exact ⟨0, h, .inl rfl⟩
    · obtain ⟨x, hx⟩ := Option.isSome_iff_exists.mp h
      rw [hx] at h'
      exact ⟨x, hx, .inr (fun e => h' (by rw [e]))⟩
  obtain ⟨x, hx, h⟩ := this ⟨b, hb⟩ h
  rcases e : seg b with _ | ⟨y, ys⟩
  · rw [e] at hx; cases hx
  · rw [e] at hx; simp at hx; subst hx; exact ⟨_, _, rfl, h⟩

theorem escape_run : ∀ (bs : List Nat), (∀ b ∈ bs, b < 256) → ∀ b, b < 256 →
    litRun .escape (decimal b ++ (escapes bs ++ ['"'])) = some (seg b ++ bs.flatMap seg)
  | [], _, b, hb => by
    simp only [escapes, List.nil_append, List.flatMap_nil, List.append_nil]
    have := litRun_append (decimal b ++ ['"']) .escape []
    rw [List.append_nil, (seg_steps hb).1] at this
    rw [this]
    simp [litRun]
  | c :: cs, hcs, b, hb => by
    have e : decimal b ++ (escapes (c :: cs) ++ ['"']) =
        (decimal b ++ ['\\']) ++ (decimal c ++ (escapes cs ++ ['"'])) := by
      simp [escapes]
    rw [e, litRun_append, (seg_steps hb).2]
    simp only [Option.bind_some]
    rw [escape_run cs (fun x hx => hcs x (by simp [hx])) c (hcs c (by simp))]
    simp

theorem literal_escapes (bs : List Nat) (h : ∀ b ∈ bs, b < 256) :
    literal ('"' :: (escapes bs ++ ['"'])) = some (bs.flatMap seg) := by
  have hq : litStep .closed '"' = some ([], .plain) := by decide
  cases bs with
  | nil => decide
  | cons b bs =>
    have hs : litStep .plain '\\' = some ([], .escape) := by decide
    simp only [literal, escapes, litRun, hq, Option.bind_some, List.nil_append, Option.map_id',
      List.cons_append, hs, List.append_assoc]
    rw [escape_run bs (fun x hx => h x (by simp [hx])) b (h b (by simp))]
    simp

theorem upToNul_segs : ∀ (bs : List Nat), (∀ b ∈ bs, b < 256) →
    (upToNul (bs.flatMap seg) = bs ↔ ∀ b ∈ bs, 1 ≤ b ∧ b ≤ 7)
  | [], _ => by simp [upToNul]
  | b :: bs, h => by
    have ih := upToNul_segs bs (fun x hx => h x (by simp [hx]))
    by_cases hb : 1 ≤ b ∧ b ≤ 7
    · have hne : b ≠ 0 := by omega
      simp only [upToNul, List.flatMap_cons, seg_good hb, List.singleton_append, ne_eq,
        List.takeWhile_cons, hne, not_false_eq_true, decide_true, if_true, List.cons.injEq, true_and,
        List.mem_cons, forall_eq_or_imp, hb, and_self]
      exact ih
    · obtain ⟨x, xs, e, hx⟩ := seg_bad (h b (by simp)) hb
      constructor
      · intro he
        simp only [upToNul, List.flatMap_cons, e, List.cons_append, List.takeWhile_cons] at he
        split at he
        · rename_i hx0
          simp only [List.cons.injEq] at he
          simp at hx0
          rcases hx with hx | hx
          · exact absurd hx hx0
          · exact absurd he.1 hx
        · cases he
      · intro hall
        exact absurd (hall b (by simp)) hb

theorem cppHex_iff (h : List Char) (hh : ∀ c ∈ h, isHex c = true) :
    (literal (cppHex h)).map upToNul = some (hexOctets h) ↔
      h.length % 2 = 0 ∧ ∀ b ∈ hexOctets h, 1 ≤ b ∧ b ≤ 7 := by
  by_cases hl : h.length % 2 = 1
  · cases h with
    | nil => simp at hl
    | cons a rest =>
      have ha := hexDigit_eq (hh a (by simp))
      have hrest : rest.length % 2 = 0 := by simp at hl; omega
      have hhr : ∀ c ∈ rest, isHex c = true := fun c hc => hh c (by simp [hc])
      have e : cppHex (a :: rest) = '"' :: (escapes (hexValue a :: hexOctets rest) ++ ['"']) := by
        simp only [cppHex, hl, if_true, escapes]
        rw [hexPairs_even rest hhr hrest, ha.1]
      have hb : ∀ b ∈ hexValue a :: hexOctets rest, b < 256 := by
        intro b hb
        rcases List.mem_cons.mp hb with rfl | hb
        · omega
        · exact hexOctets_lt rest hhr b hb
      rw [e, literal_escapes _ hb]
      constructor
      · intro he
        exfalso
        simp only [Option.map_some, Option.some.injEq, List.flatMap_cons] at he
        have hne : ∃ y ys, hexOctets (a :: rest) = y :: ys ∧ 16 * hexValue a ≤ y := by
          cases rest with
          | nil => exact ⟨_, _, rfl, Nat.le_refl _⟩
          | cons c cs => exact ⟨_, _, rfl, by omega⟩
        obtain ⟨y, ys, hy, hle⟩ := hne
        rw [hy] at he
        by_cases hz : hexValue a = 0
        · have : seg 0 = [0] := by decide +kernel
          rw [hz, this] at he
          simp [upToNul] at he
        · -- a first octet 1..15 read back through the escape is below 16 * a, or a digit character
          have : ∀ d : Fin 16, d.val ≠ 0 → ∃ x, (seg d.val).head? = some x ∧ x ≠ 0 ∧
              ∀ r : Fin 16, x ≠ 16 * d.val + r.val := by
            intro d hd
            have k : ∀ d : Fin 16, d.val ≠ 0 → (seg d.val).head?.isSome ∧ (seg d.val).head? ≠ some 0 ∧
              ∀ r : Fin 16, (seg d.val).head? ≠ some (16 * d.val + r.val) := by decide +kernel
            obtain ⟨h1, h2, h3⟩ := k d hd
            obtain ⟨x, hx⟩ := Option.isSome_iff_exists.mp h1
            rw [hx] at h2 h3
            exact ⟨x, hx, fun e => h2 (by rw [e]), fun r e => h3 r (by rw [e])⟩
          obtain ⟨x, hx, hx0, hxr⟩ := this ⟨hexValue a, ha.2⟩ hz
          have hyr : ∃ r, r < 16 ∧ y = 16 * hexValue a + r := by
            cases rest with
            | nil => simp [hexOctets] at hy; exact ⟨0, by omega, by omega⟩
            | cons c cs =>
              have hc := hexDigit_eq (hh c (by simp))
              simp [hexOctets] at hy
              exact ⟨hexValue c, hc.2, by omega⟩
          obtain ⟨r, hr, hyr⟩ := hyr
          rcases es : seg (hexValue a) with _ | ⟨z, zs⟩
          · simp only [es] at hx; cases hx
          · simp only [es, List.head?_cons, Option.some.injEq] at hx
            subst hx
            rw [es] at he
            simp only [upToNul, List.cons_append, ne_eq, List.takeWhile_cons, hx0, not_false_eq_true,
              decide_true, if_true, List.cons.injEq] at he
            exact hxr ⟨r, hr⟩ (by rw [he.1]; exact hyr)
      · rintro ⟨h0, _⟩; omega
  · have hl0 : h.length % 2 = 0 := by omega
    have e : cppHex h = '"' :: (escapes (hexOctets h) ++ ['"']) := by
      simp only [cppHex, hl, if_false]
      rw [hexPairs_even h hh hl0]
    rw [e, literal_escapes _ (hexOctets_lt h hh)]
    simp only [Option.map_some, Option.some.injEq, hl0, true_and]
    exact upToNul_segs _ (hexOctets_lt h hh)

/-! ## Character strings -/

/-- Number of characters other than quotes. -/
def nonquote : List Char → Nat
  | [] => 0
  | c :: s => nonquote s + (if c ≠ '"' then 1 else 0)

theorem cstring_length : ∀ (s : List Char) (v : List Nat), cstring s = some v →
    nonquote s ≤ v.length ∧ ('"' ∈ s → nonquote s < v.length) := by
  intro s
  fun_induction cstring s with
  | case1 => intro v h; simp at h; subst h; simp [nonquote]
  | case2 rest ih =>
    intro v h
    obtain ⟨w, hw, rfl⟩ := Option.map_eq_some_iff.mp h
    have := (ih w hw).1
    simp only [nonquote, List.length_cons] at *
    simp
    omega
  | case3 => intro v h; cases h
  | case4 c rest _ _ => intro v h; cases h
  | case5 c rest h1 h2 h3 ih =>
    intro v h
    obtain ⟨w, hw, rfl⟩ := Option.map_eq_some_iff.mp h
    have hc : c ≠ '"' := fun e => by
      subst e
      cases rest with
      | nil => exact h2 rfl
      | cons d ds => exact h2 rfl
    have := ih w hw
    simp only [nonquote, List.length_cons, List.mem_cons] at *
    simp only [ne_eq, hc, not_false_eq_true, if_true]
    refine ⟨by omega, ?_⟩
    rintro (e | e)
    · exact absurd e.symm hc
    · have := this.2 e; omega

/-- Output still owed by a state. -/
def credit : Lit → Nat
  | .closed => 0
  | .plain => 0
  | .escape => 1
  | .octal _ _ => 1
  | .hex _ _ => 1

theorem plainStep_credit {c : Char} {o : List Nat} {t : Lit} (h : plainStep c = some (o, t)) :
    o.length + credit t ≤ (if c ≠ '"' then 1 else 0) := by
  unfold plainStep at h
  split at h
  · rename_i hc; simp at h; obtain ⟨rfl, rfl⟩ := h; simp [credit]
  · split at h
    · rename_i hc hc'; subst hc'; simp at h; obtain ⟨rfl, rfl⟩ := h; simp [credit]
    · split at h
      · cases h
      · rename_i hc _ _
        simp at h; obtain ⟨rfl, rfl⟩ := h; simp [credit, hc]

theorem litStep_credit {s t : Lit} {c : Char} {o : List Nat} (h : litStep s c = some (o, t)) :
    o.length + credit t ≤ (if c ≠ '"' then 1 else 0) + credit s := by
  cases s with
  | closed =>
    simp only [litStep] at h
    split at h
    · simp at h; obtain ⟨rfl, rfl⟩ := h; simp [credit]
    · cases h
  | plain => have := plainStep_credit h; simp [credit] at *; omega
  | escape =>
    simp only [litStep] at h
    repeat' split at h
    all_goals first
      | (simp at h; done)
      | (simp at h; obtain ⟨rfl, rfl⟩ := h; simp [credit])
  | octal k acc =>
    simp only [litStep] at h
    split at h
    · simp at h; obtain ⟨rfl, rfl⟩ := h; simp [credit]
    · obtain ⟨r, hr, e⟩ := Option.map_eq_some_iff.mp h
      simp at e; obtain ⟨rfl, rfl⟩ := e
      have := plainStep_credit hr
      simp [credit] at *; omega
  | hex k acc =>
    simp only [litStep] at h
    split at h
    · simp at h; obtain ⟨rfl, rfl⟩ := h; simp [credit]
    · split at h
      · cases h
      · obtain ⟨r, hr, e⟩ := Option.map_eq_some_iff.mp h
        simp at e; obtain ⟨rfl, rfl⟩ := e
        have := plainStep_credit hr
        simp [credit] at *; omega

theorem litRun_length : ∀ (s : List Char) (st : Lit) (v : List Nat),
    litRun st (s ++ ['"']) = some v → v.length ≤ nonquote s + credit st
  | [], st, v, h => by
    simp only [List.nil_append, litRun] at h
    obtain ⟨⟨o, t⟩, h1, h2⟩ := Option.bind_eq_some_iff.mp h
    obtain ⟨w, h3, rfl⟩ := Option.map_eq_some_iff.mp h2
    have := litStep_credit h1
    have hw : w = [] := by
      cases t <;> simp [litRun] at h3
      exact h3
    subst hw
    simp [nonquote] at *
    omega
  | c :: s, st, v, h => by
    simp only [List.cons_append, litRun] at h
    obtain ⟨⟨o, t⟩, h1, h2⟩ := Option.bind_eq_some_iff.mp h
    obtain ⟨w, h3, rfl⟩ := Option.map_eq_some_iff.mp h2
    have k := litStep_credit h1
    have := litRun_length s t w h3
    simp only [nonquote, List.length_append] at *
    omega

/-- A backslash costs at least one character when there are no quotes. -/
theorem litRun_escape_length {s : List Char} {v : List Nat} (hq : '"' ∉ s)
    (h : litRun .escape (s ++ ['"']) = some v) : v.length ≤ nonquote s := by
  cases s with
  | nil =>
    exfalso
    revert h
    simp only [List.nil_append, litRun]
    have : litStep .escape '"' = some ([34], .plain) := by decide
    rw [this]
    simp [litRun]
  | cons c s =>
    simp only [List.cons_append, litRun] at h
    obtain ⟨⟨o, t⟩, h1, h2⟩ := Option.bind_eq_some_iff.mp h
    obtain ⟨w, h3, rfl⟩ := Option.map_eq_some_iff.mp h2
    have := litRun_length s t w h3
    have hc : c ≠ '"' := fun e => hq (by simp [e])
    have k : o.length + credit t ≤ 1 := by
      simp only [litStep] at h1
      repeat' split at h1
      all_goals first
        | (simp at h1; done)
        | (simp at h1; obtain ⟨rfl, rfl⟩ := h1; simp [credit])
    simp only [nonquote, List.length_append] at *
    simp only [ne_eq, hc, not_false_eq_true, if_true]
    omega

theorem litRun_plain_prefix : ∀ (p : List Char) (rest : List Char), '"' ∉ p → '\\' ∉ p → '\n' ∉ p →
    '\r' ∉ p → litRun .plain (p ++ rest) = (litRun .plain rest).map ((p.map Char.toNat) ++ ·)
  | [], rest, _, _, _, _ => by simp
  | c :: p, rest, h1, h2, h3, h4 => by
    simp only [List.mem_cons, not_or] at h1 h2 h3 h4
    have : litStep .plain c = some ([c.toNat], .plain) := by
      simp [litStep, plainStep, Ne.symm h1.1, Ne.symm h2.1, Ne.symm h3.1, Ne.symm h4.1]
    simp only [List.cons_append, litRun, this, Option.bind_some]
    rw [litRun_plain_prefix p rest h1.2 h2.2 h3.2 h4.2]
    rcases litRun .plain rest with _ | o <;> simp

theorem cstring_plain : ∀ (s : List Char), '"' ∉ s → '\n' ∉ s → '\r' ∉ s →
    cstring s = some (s.map Char.toNat)
  | [], _, _, _ => rfl
  | c :: s, h1, h2, h3 => by
    simp only [List.mem_cons, not_or] at h1 h2 h3
    have ih := cstring_plain s h1.2 h2.2 h3.2
    unfold cstring
    split
    · rename_i he; cases he
    · rename_i he; simp at he; exact absurd he.1.symm h1.1
    · rename_i he; simp at he; exact absurd he.1.symm h1.1
    · rename_i he
      simp only [List.cons.injEq] at he
      obtain ⟨rfl, rfl⟩ := he
      simp [Ne.symm h2.1, Ne.symm h3.1, ih]

theorem cstring_no_newline : ∀ (s : List Char) (v : List Nat), cstring s = some v → '\n' ∉ s ∧ '\r' ∉ s := by
  intro s
  fun_induction cstring s with
  | case1 => intro v _; simp
  | case2 rest ih =>
    intro v h
    obtain ⟨w, hw, rfl⟩ := Option.map_eq_some_iff.mp h
    simpa using ih w hw
  | case3 => intro v h; cases h
  | case4 c rest _ _ => intro v h; cases h
  | case5 c rest h1 h2 h3 ih =>
    intro v h
    obtain ⟨w, hw, rfl⟩ := Option.map_eq_some_iff.mp h
    have := ih w hw
    simp only [not_or] at h3
    simp only [List.mem_cons, not_or]
    exact ⟨⟨Ne.symm h3.1, this.1⟩, Ne.symm h3.2, this.2⟩

theorem literal_quoted (s : List Char) : literal ('"' :: (s ++ ['"'])) = litRun .plain (s ++ ['"']) := by
  have hq : litStep .closed '"' = some ([], .plain) := by decide
  simp [literal, litRun, hq]

theorem cppChars_iff (s : List Char) (v : List Nat) (hv : cstring s = some v) (h0 : '\x00' ∉ s) :
    (literal (cppChars ('"' :: (s ++ ['"'])))).map upToNul = some v ↔ '"' ∉ s ∧ '\\' ∉ s := by
  have hnl := cstring_no_newline s v hv
  have hqq : litRun .plain ['"'] = some [] := by decide
  unfold cppChars
  rw [literal_quoted]
  constructor
  · intro h
    obtain ⟨w, hw, hu⟩ := Option.map_eq_some_iff.mp h
    have hwl : v.length ≤ w.length := by
      rw [← hu]; exact (List.takeWhile_sublist _).length_le
    have hle := litRun_length s .plain w hw
    simp only [credit, Nat.add_zero] at hle
    have hcl := cstring_length s v hv
    have hnq : '"' ∉ s := fun hm => by have := hcl.2 hm; omega
    refine ⟨hnq, ?_⟩
    intro hb
    obtain ⟨p, q, rfl, hp⟩ := List.eq_append_cons_of_mem hb
    simp only [List.mem_append, List.mem_cons, not_or] at hnq hnl
    rw [List.append_assoc, litRun_plain_prefix p _ hnq.1 hp hnl.1.1 hnl.2.1] at hw
    obtain ⟨u, hu', rfl⟩ := Option.map_eq_some_iff.mp hw
    have hs : litStep .plain '\\' = some ([], .escape) := by decide
    simp only [List.cons_append, litRun, hs, Option.bind_some, List.nil_append, Option.map_id'] at hu'
    have hul := litRun_escape_length hnq.2.2 hu'
    have hnp : nonquote (p ++ '\\' :: q) = p.length + 1 + nonquote q := by
      have : ∀ p : List Char, '"' ∉ p → ∀ r, nonquote (p ++ r) = p.length + nonquote r := by
        intro p
        induction p with
        | nil => intro _ r; simp
        | cons c p ih =>
          intro hc r
          simp only [List.mem_cons, not_or] at hc
          simp only [List.cons_append, nonquote, ih hc.2 r, List.length_cons]
          simp only [ne_eq, Ne.symm hc.1, not_false_eq_true, if_true]; omega
      rw [this p hnq.1]
      simp [nonquote]; omega
    simp only [List.length_append, List.length_map] at hwl
    omega
  · rintro ⟨hq, hb⟩
    rw [litRun_plain_prefix s _ hq hb hnl.1 hnl.2, hqq]
    rw [cstring_plain s hq hnl.1 hnl.2] at hv
    simp only [Option.map_some, List.append_nil, Option.some.injEq] at hv ⊢
    subst hv
    unfold upToNul
    have htw : ∀ l : List Nat, (∀ x ∈ l, (decide (x ≠ 0)) = true) → l.takeWhile (· ≠ 0) = l := by
      intro l
      induction l with
      | nil => intro _; rfl
      | cons x l ih =>
        intro h
        rw [List.takeWhile_cons, if_pos (h x (by simp)), ih (fun y hy => h y (by simp [hy]))]
    apply htw
    intro x hx
    obtain ⟨c, hc, rfl⟩ := List.mem_map.mp hx
    simp only [ne_eq, decide_eq_true_eq]
    intro e
    have : c = '\x00' := by
      apply Char.ext
      apply UInt32.toNat_inj.mp
      exact e
    exact h0 (this ▸ hc)

end FastBer.Names
