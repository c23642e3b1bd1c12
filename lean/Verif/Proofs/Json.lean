import Verif.Spec.Json
/-!
# A JSON text stands for one value

`pValue` reads a value; it accepts more than JSON (any characters of numbers for a number), which is enough to show that a text is
not JSON or stands for one value only.
-/
namespace FastBer.Json
open FastBer FastBer.Spec FastBer.Json.Spec

/-- Is white space. -/
def isWs (b : UInt8) : Bool := b == 0x20 || b == 0x09 || b == 0x0A || b == 0x0D

/-- Can be in a number. -/
def isNum (b : UInt8) : Bool := decide (0x30 ≤ b.toNat ∧ b.toNat ≤ 0x39) || b == 0x2B || b == 0x2D || b == 0x2E || b == 0x65 || b == 0x45

/-- Without the white space in front. -/
def skip (s : Bytes) : Bytes := s.dropWhile isWs

/-- The rest of a string, with the quotation mark. -/
def pChars : Bytes → Option (List JChar × Bytes)
  | [] => none
  | b :: r =>
    if b = 0x22 then some ([], r)
    else if b = 0x5C then
      match r with
      | [] => none
      | e :: r =>
        if e = 0x75 then
          match r with
          | a :: b :: c :: d :: r => (pChars r).map fun p => (.unicode [a, b, c, d] :: p.1, p.2)
          | _ => none
        else
          match escapes.lookup e with
          | some x => (pChars r).map fun p => (.octet x :: p.1, p.2)
          | none => none
    else (pChars r).map fun p => (.octet b :: p.1, p.2)

/-- Are all of them digits? -/
def allDigits (d : Bytes) : Bool := d.all fun b => decide (0x30 ≤ b.toNat ∧ b.toNat ≤ 0x39)

/-- The value of a number. -/
def numVal (t : Bytes) : Json :=
  match t with
  | [] => .number []
  | b :: d =>
    if b = 0x2D then (if allDigits d then .int (-(decimal d : Int)) else .number t)
    else if allDigits t then .int (decimal t) else .number t

mutual
/-- A value. -/
def pValue : Nat → Bytes → Option (Json × Bytes)
  | 0, _ => none
  | f + 1, s =>
    match s with
    | [] => none
    | b :: r =>
      if b = 0x22 then (pChars r).map fun p => (.string p.1, p.2)
      else if b = 0x5B then
        match skip r with
        | [] => none
        | c :: r' => if c = 0x5D then some (.array [], r') else (pElements f r).map fun p => (.array p.1, p.2)
      else if b = 0x7B then
        match skip r with
        | [] => none
        | c :: r' => if c = 0x7D then some (.object [], r') else (pMembers f r).map fun p => (.object p.1, p.2)
      else if b = 0x6E then if s.take 4 = [0x6E, 0x75, 0x6C, 0x6C] then some (.null, s.drop 4) else none
      else if b = 0x74 then if s.take 4 = [0x74, 0x72, 0x75, 0x65] then some (.bool true, s.drop 4) else none
      else if b = 0x66 then if s.take 5 = [0x66, 0x61, 0x6C, 0x73, 0x65] then some (.bool false, s.drop 5) else none
      else if isNum b then some (numVal (s.takeWhile isNum), s.dropWhile isNum)
      else none
/-- The rest of an array. -/
def pElements : Nat → Bytes → Option (List Json × Bytes)
  | 0, _ => none
  | f + 1, s =>
    match pValue f (skip s) with
    | none => none
    | some (j, r) =>
      match skip r with
      | [] => none
      | c :: r =>
        if c = 0x2C then (pElements f r).map fun p => (j :: p.1, p.2)
        else if c = 0x5D then some ([j], r) else none
/-- The rest of an object. -/
def pMembers : Nat → Bytes → Option (List (List JChar × Json) × Bytes)
  | 0, _ => none
  | f + 1, s =>
    match skip s with
    | [] => none
    | q :: r =>
      if q = 0x22 then
        match pChars r with
        | none => none
        | some (k, r) =>
          match skip r with
          | [] => none
          | c :: r =>
            if c = 0x3A then
              match pValue f (skip r) with
              | none => none
              | some (j, r) =>
                match skip r with
                | [] => none
                | c :: r =>
                  if c = 0x2C then (pMembers f r).map fun p => ((k, j) :: p.1, p.2)
                  else if c = 0x7D then some ([(k, j)], r) else none
            else none
      else none
end

/-- A whole text. -/
def pDocument (s : Bytes) : Option Json :=
  match pValue (2 * s.length + 1) (skip s) with
  | some (j, r) => if skip r = [] then some j else none
  | none => none

/-! ## Completeness -/

theorem isWs_of {b : UInt8} (h : b = 0x20 ∨ b = 0x09 ∨ b = 0x0A ∨ b = 0x0D) : isWs b = true := by
  rcases h with rfl | rfl | rfl | rfl <;> rfl

theorem skip_ws {w : Bytes} (h : Ws w) {b : UInt8} (hb : isWs b = false) (r : Bytes) : skip (w ++ b :: r) = b :: r := by
  induction w with
  | nil => simp [skip, hb]
  | cons a w ih =>
    have ha := isWs_of (h a (by simp))
    have := ih (fun b hb => h b (by simp [hb]))
    simpa [skip, ha] using this

theorem skip_all {w : Bytes} (h : Ws w) : skip w = [] := by
  induction w with
  | nil => rfl
  | cons a w ih =>
    have ha := isWs_of (h a (by simp))
    have := ih (fun b hb => h b (by simp [hb]))
    simpa [skip, ha] using this

theorem pChars_end (r : Bytes) : pChars (0x22 :: r) = some ([], r) := by rw [pChars.eq_def]; rfl

theorem pChars_plain {b : UInt8} (h1 : b ≠ 0x22) (h2 : b ≠ 0x5C) (r : Bytes) :
    pChars (b :: r) = (pChars r).map fun p => (.octet b :: p.1, p.2) := by
  rw [pChars.eq_def]; simp only [h1, h2, if_false]

theorem pChars_escape {e x : UInt8} (h1 : e ≠ 0x75) (h2 : escapes.lookup e = some x) (r : Bytes) :
    pChars (0x5C :: e :: r) = (pChars r).map fun p => (.octet x :: p.1, p.2) := by
  rw [pChars.eq_def]
  dsimp only
  rw [if_neg (by decide), if_pos rfl, if_neg h1, h2]

theorem pChars_unicode (a b c d : UInt8) (r : Bytes) :
    pChars (0x5C :: 0x75 :: a :: b :: c :: d :: r) = (pChars r).map fun p => (.unicode [a, b, c, d] :: p.1, p.2) := by
  rw [pChars.eq_def]
  dsimp only
  rw [if_neg (by decide), if_pos rfl, if_pos rfl]

theorem pChars_ok {cs : List JChar} {s : Bytes} (h : Chars cs s) (r : Bytes) : pChars (s ++ 0x22 :: r) = some (cs, r) := by
  induction h with
  | nil => exact pChars_end r
  | plain h1 h2 h3 _ ih => rw [List.cons_append, pChars_plain h2 h3, ih]; rfl
  | @escape e b cs s he _ ih =>
    have key : e ≠ 0x75 ∧ escapes.lookup e = some b := by
      simp only [escapes, List.mem_cons, Prod.mk.injEq, List.not_mem_nil, or_false] at he
      rcases he with ⟨rfl, rfl⟩ | ⟨rfl, rfl⟩ | ⟨rfl, rfl⟩ | ⟨rfl, rfl⟩ | ⟨rfl, rfl⟩ | ⟨rfl, rfl⟩ | ⟨rfl, rfl⟩ | ⟨rfl, rfl⟩ <;>
        exact ⟨by decide, by decide⟩
    rw [List.cons_append, List.cons_append, pChars_escape key.1 key.2, ih]; rfl
  | @unicode d cs s hd _ _ ih =>
    match d, hd with
    | [a, b, c, d], _ =>
      simp only [List.cons_append, List.nil_append]
      rw [pChars_unicode, ih]; rfl

/-- What may be behind a number. -/
def Ends (r : Bytes) : Prop := ∀ b ∈ r.head?, isNum b = false

theorem ends_ws {w : Bytes} (h : Ws w) {b : UInt8} (hb : isNum b = false) (r : Bytes) : Ends (w ++ b :: r) := by
  cases w with
  | nil => intro c hc; simp at hc; subst hc; exact hb
  | cons a w =>
    intro c hc
    simp at hc
    subst hc
    rcases h a (by simp) with rfl | rfl | rfl | rfl <;> rfl

theorem ends_all {w : Bytes} (h : Ws w) : Ends w := by
  cases w with
  | nil => intro c hc; simp at hc
  | cons a w =>
    intro c hc
    simp at hc
    subst hc
    rcases h a (by simp) with rfl | rfl | rfl | rfl <;> rfl

theorem takeWhile_num {t r : Bytes} (h : ∀ b ∈ t, isNum b = true) (hr : Ends r) :
    (t ++ r).takeWhile isNum = t ∧ (t ++ r).dropWhile isNum = r := by
  induction t with
  | nil =>
    cases r with
    | nil => exact ⟨rfl, rfl⟩
    | cons b r => have := hr b (by simp); simp [this]
  | cons a t ih =>
    obtain ⟨h1, h2⟩ := ih (fun b hb => h b (by simp [hb]))
    simp only [List.cons_append, List.takeWhile_cons, List.dropWhile_cons, h a (by simp), if_true]
    exact ⟨by rw [h1], h2⟩

theorem digit_num {b : UInt8} (h : 0x30 ≤ b.toNat ∧ b.toNat ≤ 0x39) : isNum b = true := by simp [isNum, h]

/-- The first character of a number. -/
theorem pValue_num {t r : Bytes} {b : UInt8} {d : Bytes} (e : t = b :: d) (hb : (0x30 ≤ b.toNat ∧ b.toNat ≤ 0x39) ∨ b = 0x2D)
    (h : ∀ b ∈ t, isNum b = true) (hr : Ends r) (f : Nat) : pValue (f + 1) (t ++ r) = some (numVal t, r) := by
  obtain ⟨h1, h2⟩ := takeWhile_num h hr
  subst e
  rw [List.cons_append] at h1 h2 ⊢
  have hne : b ≠ 0x22 ∧ b ≠ 0x5B ∧ b ≠ 0x7B ∧ b ≠ 0x6E ∧ b ≠ 0x74 ∧ b ≠ 0x66 := by
    rcases hb with hb | rfl
    · refine ⟨?_, ?_, ?_, ?_, ?_, ?_⟩ <;> rintro rfl <;> simp at hb
    · decide
  rw [pValue]
  simp only [hne.1, hne.2.1, hne.2.2.1, hne.2.2.2.1, hne.2.2.2.2.1, hne.2.2.2.2.2, if_false]
  rw [if_pos (h b (by simp)), h1, h2]

theorem allDigits_of {d : Bytes} (h : Digits d) : allDigits d = true := by
  rw [allDigits, List.all_eq_true]
  intro b hb
  simpa using h b hb

/-- The first character of a value. -/
theorem value_head {j : Json} {s : Bytes} (h : Value j s) : ∃ b r, s = b :: r ∧ isWs b = false ∧ b ≠ 0x5D ∧ b ≠ 0x7D := by
  have dig : ∀ {d : Bytes}, IntDigits d → ∀ r, ∃ b r', d ++ r = b :: r' ∧ isWs b = false ∧ b ≠ 0x5D ∧ b ≠ 0x7D := by
    intro d hd r
    cases d with
    | nil => exact absurd rfl hd.2.1
    | cons b d =>
      have := hd.1 b (by simp)
      refine ⟨b, _, rfl, ?_, ?_, ?_⟩
      · simp only [isWs, Bool.or_eq_false_iff, beq_eq_false_iff_ne, ne_eq]
        refine ⟨⟨⟨?_, ?_⟩, ?_⟩, ?_⟩ <;> rintro rfl <;> simp at this
      all_goals rintro rfl; simp at this
  cases h with
  | nat hd => simpa using dig hd []
  | number hs hd hf he hne =>
    rcases hs with rfl | rfl
    · exact dig hd _
    · exact ⟨_, _, rfl, by decide, by decide, by decide⟩
  | _ => exact ⟨_, _, rfl, by decide, by decide, by decide⟩

theorem frac_num {f : Bytes} (h : Frac f) : ∀ b ∈ f, isNum b = true := by
  cases h with
  | none => simp
  | some hd _ =>
    intro b hb
    rcases List.mem_cons.mp hb with rfl | hb
    · rfl
    · exact digit_num (hd b hb)

theorem expo_num {e : Bytes} (h : Expo e) : ∀ b ∈ e, isNum b = true := by
  cases h with
  | none => simp
  | some he hs hd _ =>
    intro b hb
    rcases List.mem_cons.mp hb with rfl | hb
    · rcases he with rfl | rfl <;> rfl
    · rcases List.mem_append.mp hb with hb | hb
      · cases hs with
        | none => simp at hb
        | plus => simp at hb; subst hb; rfl
        | minus => simp at hb; subst hb; rfl
      · exact digit_num (hd b hb)

theorem not_allDigits {a f e : Bytes} (hf : Frac f) (he : Expo e) (hne : f ++ e ≠ []) : allDigits (a ++ (f ++ e)) = false := by
  rw [Bool.eq_false_iff]
  intro h
  rw [allDigits, List.all_eq_true] at h
  cases hf with
  | some hd _ => have := h 0x2E (by simp); simp at this
  | none =>
    cases he with
    | none => exact hne rfl
    | @some c _ _ _ hc _ _ _ =>
      have := h c (by simp)
      rcases hc with rfl | rfl <;> simp at this

set_option linter.unusedVariables false in
mutual
theorem pValue_ok {j : Json} {s : Bytes} (h : Value j s) (f : Nat) (hf : 2 * s.length + 1 ≤ f) (r : Bytes) (hr : Ends r) :
    pValue f (s ++ r) = some (j, r) := by
  obtain ⟨f, rfl⟩ : ∃ g, f = g + 1 := ⟨f - 1, by omega⟩
  match h with
  | .null => simp [pValue]
  | .true => simp [pValue]
  | .false => simp [pValue]
  | .nat (d := d) hd =>
    match d, hd with
    | b :: d, hd =>
      rw [pValue_num rfl (.inl (hd.1 b (by simp))) (fun c hc => digit_num (hd.1 c hc)) hr]
      have hb := hd.1 b (by simp)
      rw [numVal, if_neg (by rintro rfl; simp at hb), if_pos (allDigits_of hd.1)]
    | [], hd => exact absurd rfl hd.2.1
  | .neg (d := d) hd =>
    rw [pValue_num rfl (.inr rfl) (fun c hc => ?_) hr]
    · rw [numVal, if_pos rfl, if_pos (allDigits_of hd.1)]
    · rcases List.mem_cons.mp hc with rfl | hc
      · rfl
      · exact digit_num (hd.1 c hc)
  | .number (sg := sg) (d := d) (f := fr) (e := ex) hs hd hfr hex hne =>
    have hall : ∀ b ∈ sg ++ (d ++ (fr ++ ex)), isNum b = true := by
      intro b hb
      rcases List.mem_append.mp hb with hb | hb
      · rcases hs with rfl | rfl
        · simp at hb
        · simp at hb; subst hb; rfl
      · rcases List.mem_append.mp hb with hb | hb
        · exact digit_num (hd.1 b hb)
        · rcases List.mem_append.mp hb with hb | hb
          · exact frac_num hfr b hb
          · exact expo_num hex b hb
    rcases hs with rfl | rfl
    · match d, hd with
      | b :: d, hd =>
        have hb := hd.1 b (by simp)
        show pValue (f + 1) ((b :: (d ++ (fr ++ ex))) ++ r) = some (.number (b :: (d ++ (fr ++ ex))), r)
        rw [pValue_num (t := b :: (d ++ (fr ++ ex))) rfl (.inl hb) hall hr]
        rw [numVal, if_neg (by rintro rfl; simp at hb), ← List.cons_append, not_allDigits hfr hex hne]
        rfl
      | [], hd => exact absurd rfl hd.2.1
    · show pValue (f + 1) ((0x2D :: (d ++ (fr ++ ex))) ++ r) = some (.number (0x2D :: (d ++ (fr ++ ex))), r)
      rw [pValue_num (t := 0x2D :: (d ++ (fr ++ ex))) rfl (.inr rfl) hall hr]
      rw [numVal, if_pos rfl, not_allDigits hfr hex hne]
      rfl
  | .string (cs := cs) (s := s) hc =>
    rw [List.cons_append, List.append_assoc, List.singleton_append, pValue, if_pos rfl, pChars_ok hc]
    rfl
  | .emptyArray (w := w) hw =>
    rw [List.cons_append, List.append_assoc, List.singleton_append, pValue, if_neg (by decide), if_pos rfl, skip_ws hw (by decide)]
    simp
  | .array (js := js) (s := s) he =>
    rw [List.cons_append, List.append_assoc, List.singleton_append, pValue, if_neg (by decide), if_pos rfl]
    have hp := pElements_ok he f (by simp at hf; omega) r
    obtain ⟨a, b, t, e, ha, hb, hc⟩ := elements_head he
    have hk : skip (s ++ 0x5D :: r) = b :: (t ++ 0x5D :: r) := by
      rw [e, List.append_assoc, List.cons_append]; exact skip_ws ha hb _
    rw [hk]
    dsimp only
    rw [if_neg hc, hp]
    rfl
  | .emptyObject (w := w) hw =>
    rw [List.cons_append, List.append_assoc, List.singleton_append, pValue, if_neg (by decide), if_neg (by decide), if_pos rfl,
      skip_ws hw (by decide)]
    simp
  | .object (ms := ms) (s := s) he =>
    rw [List.cons_append, List.append_assoc, List.singleton_append, pValue, if_neg (by decide), if_neg (by decide), if_pos rfl]
    have hp := pMembers_ok he f (by simp at hf; omega) r
    obtain ⟨a, t, e, ha⟩ := members_head he
    have hk : skip (s ++ 0x7D :: r) = 0x22 :: (t ++ 0x7D :: r) := by
      rw [e, List.append_assoc, List.cons_append]; exact skip_ws ha (by decide) _
    rw [hk]
    dsimp only
    rw [if_neg (by decide), hp]
    rfl
theorem elements_head {js : List Json} {s : Bytes} (h : Elements js s) :
    ∃ a b t, s = a ++ b :: t ∧ Ws a ∧ isWs b = false ∧ b ≠ 0x5D := by
  match h with
  | .one (a := a) ha hv hb =>
    obtain ⟨x, r, e, h1, h2, _⟩ := value_head hv
    exact ⟨a, x, _, by rw [e]; simp; rfl, ha, h1, h2⟩
  | .more (a := a) ha hv hb _ =>
    obtain ⟨x, r, e, h1, h2, _⟩ := value_head hv
    exact ⟨a, x, _, by rw [e]; simp; rfl, ha, h1, h2⟩
theorem members_head {ms : List (List JChar × Json)} {s : Bytes} (h : Members ms s) : ∃ a t, s = a ++ 0x22 :: t ∧ Ws a := by
  match h with
  | .one ha .. => exact ⟨_, _, rfl, ha⟩
  | .more ha .. => exact ⟨_, _, rfl, ha⟩
theorem pElements_ok {js : List Json} {s : Bytes} (h : Elements js s) (f : Nat) (hf : 2 * s.length + 2 ≤ f) (r : Bytes) :
    pElements f (s ++ 0x5D :: r) = some (js, r) := by
  obtain ⟨f, rfl⟩ : ∃ g, f = g + 1 := ⟨f - 1, by omega⟩
  match h with
  | .one (a := a) (s := s) (b := b) ha hv hb =>
    have hp := pValue_ok hv f (by simp at hf; omega) (b ++ 0x5D :: r) (ends_ws hb (by decide) r)
    obtain ⟨x, t, e, h1, _⟩ := value_head hv
    have hk : skip (a ++ (s ++ b) ++ 0x5D :: r) = s ++ (b ++ 0x5D :: r) := by
      rw [e]; simp only [List.append_assoc, List.cons_append]; exact skip_ws ha h1 _
    rw [pElements, hk, hp]
    dsimp only
    rw [skip_ws hb (by decide)]
    simp
  | .more (a := a) (s := s) (b := b) (t := t) ha hv hb he =>
    have hp := pValue_ok hv f (by simp at hf; omega) (b ++ 0x2C :: (t ++ 0x5D :: r)) (ends_ws hb (by decide) _)
    obtain ⟨x, t', e, h1, _⟩ := value_head hv
    have hk : skip (a ++ (s ++ (b ++ 0x2C :: t)) ++ 0x5D :: r) = s ++ (b ++ 0x2C :: (t ++ 0x5D :: r)) := by
      rw [e]; simp only [List.append_assoc, List.cons_append]; exact skip_ws ha h1 _
    rw [pElements, hk, hp]
    dsimp only
    rw [skip_ws hb (by decide)]
    dsimp only
    rw [if_pos rfl, pElements_ok he f (by simp at hf; omega) r]
    rfl
theorem pMembers_ok {ms : List (List JChar × Json)} {s : Bytes} (h : Members ms s) (f : Nat) (hf : 2 * s.length + 2 ≤ f)
    (r : Bytes) : pMembers f (s ++ 0x7D :: r) = some (ms, r) := by
  obtain ⟨f, rfl⟩ : ∃ g, f = g + 1 := ⟨f - 1, by omega⟩
  match h with
  | .one (k := k) (ks := ks) (a := a) (b := b) (c := c) (s := s) (d := d) ha hk hb hc hv hd =>
    have hp := pValue_ok hv f (by simp at hf; omega) (d ++ 0x7D :: r) (ends_ws hd (by decide) r)
    obtain ⟨x, t, e, h1, _⟩ := value_head hv
    have hk1 : skip (a ++ 0x22 :: (ks ++ 0x22 :: (b ++ 0x3A :: (c ++ (s ++ d)))) ++ 0x7D :: r)
        = 0x22 :: (ks ++ 0x22 :: (b ++ 0x3A :: (c ++ (s ++ (d ++ 0x7D :: r))))) := by
      simp only [List.append_assoc, List.cons_append]; exact skip_ws ha (by decide) _
    have hk2 : skip (c ++ (s ++ (d ++ 0x7D :: r))) = s ++ (d ++ 0x7D :: r) := by
      rw [e]; simp only [List.cons_append]; exact skip_ws hc h1 _
    rw [pMembers, hk1]
    dsimp only
    rw [if_pos rfl, pChars_ok hk]
    dsimp only
    rw [skip_ws hb (by decide)]
    dsimp only
    rw [if_pos rfl, hk2, hp]
    dsimp only
    rw [skip_ws hd (by decide)]
    simp
  | .more (k := k) (ks := ks) (a := a) (b := b) (c := c) (s := s) (d := d) (t := t) ha hk hb hc hv hd hm =>
    have hp := pValue_ok hv f (by simp at hf; omega) (d ++ 0x2C :: (t ++ 0x7D :: r)) (ends_ws hd (by decide) _)
    obtain ⟨x, t', e, h1, _⟩ := value_head hv
    have hk1 : skip (a ++ 0x22 :: (ks ++ 0x22 :: (b ++ 0x3A :: (c ++ (s ++ (d ++ 0x2C :: t))))) ++ 0x7D :: r)
        = 0x22 :: (ks ++ 0x22 :: (b ++ 0x3A :: (c ++ (s ++ (d ++ 0x2C :: (t ++ 0x7D :: r)))))) := by
      simp only [List.append_assoc, List.cons_append]; exact skip_ws ha (by decide) _
    have hk2 : skip (c ++ (s ++ (d ++ 0x2C :: (t ++ 0x7D :: r)))) = s ++ (d ++ 0x2C :: (t ++ 0x7D :: r)) := by
      rw [e]; simp only [List.cons_append]; exact skip_ws hc h1 _
    rw [pMembers, hk1]
    dsimp only
    rw [if_pos rfl, pChars_ok hk]
    dsimp only
    rw [skip_ws hb (by decide)]
    dsimp only
    rw [if_pos rfl, hk2, hp]
    dsimp only
    rw [skip_ws hd (by decide)]
    dsimp only
    rw [if_pos rfl, pMembers_ok hm f (by simp at hf; omega) r]
    rfl
end

/-- A JSON text is read as the value it stands for. -/
theorem pDocument_ok {j : Json} {s : Bytes} (h : Document j s) : pDocument s = some j := by
  obtain ⟨a, t, b, ha, hv, hb, rfl⟩ := h
  obtain ⟨x, r, e, h1, _⟩ := value_head hv
  have hk : skip (a ++ (t ++ b)) = t ++ b := by
    rw [e]; simp only [List.cons_append]; exact skip_ws ha h1 _
  rw [pDocument, hk, pValue_ok hv _ (by simp; omega) b (ends_all hb)]
  simp [skip_all hb]

end FastBer.Json
