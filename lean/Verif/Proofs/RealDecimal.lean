import Verif.Spec.RealDecimal
import Verif.Proofs.Regex
/-! # Decimal REALs: proofs -/
namespace FastBer
open Spec

/-! ## The grammar -/

theorem isDigit_iff {b : UInt8} : isDigit b = true ↔ 0x30 ≤ b.toNat ∧ b.toNat ≤ 0x39 := by
  simp [isDigit, UInt8.le_iff_toNat_le]

theorem digits_iff {s : Bytes} : (∀ b ∈ s, isDigit b = true) ↔ Digits s := by
  simp only [isDigit_iff, Digits]

theorem rxSpaces_iff {s : Bytes} : rxSpaces.Lang s ↔ ∀ b ∈ s, b = 0x20 := by
  simp [rxSpaces, Rx.star_cls]

theorem rxSign_iff {s : Bytes} : rxSign.Lang s ↔ ∃ neg, SignText s neg := by
  simp only [rxSign, Rx.opt, Rx.lang_alt, Rx.lang_cls, Rx.lang_eps, Bool.or_eq_true, beq_iff_eq]
  constructor
  · rintro (⟨c, rfl, rfl | rfl⟩ | rfl)
    · exact ⟨_, .plus⟩
    · exact ⟨_, .minus⟩
    · exact ⟨_, .none⟩
  · rintro ⟨neg, h⟩
    cases h with
    | none => exact .inr rfl
    | plus => exact .inl ⟨_, rfl, .inl rfl⟩
    | minus => exact .inl ⟨_, rfl, .inr rfl⟩

theorem rxNumber_iff {s : Bytes} : rxNumber.Lang s ↔ ∃ i mark f, s = i ++ (mark :: f) ∧ Digits i ∧
    (mark = 0x2E ∨ mark = 0x2C) ∧ Digits f ∧ i ++ f ≠ [] := by
  simp only [rxNumber, Rx.lang_alt, Rx.lang_cat, rxDigit, Rx.plus_cls, Rx.star_cls, rxMark, Rx.lang_cls, digits_iff,
    Bool.or_eq_true, beq_iff_eq]
  constructor
  · rintro (⟨i, u, rfl, ⟨h1, h2⟩, m, f, rfl, ⟨c, rfl, h3⟩, h4⟩ | ⟨i, u, rfl, h1, m, f, rfl, ⟨c, rfl, h3⟩, h4, h5⟩)
    · exact ⟨i, c, f, rfl, h2, h3, h4, by simp [h1]⟩
    · exact ⟨i, c, f, rfl, h1, h3, h5, by simp [h4]⟩
  · rintro ⟨i, c, f, rfl, h1, h2, h3, h4⟩
    by_cases hi : i = []
    · refine .inr ⟨i, c :: f, rfl, h1, [c], f, rfl, ⟨c, rfl, h2⟩, ?_, h3⟩
      intro hf; exact h4 (by simp [hi, hf])
    · exact .inl ⟨i, c :: f, rfl, ⟨hi, h1⟩, [c], f, rfl, ⟨c, rfl, h2⟩, h3⟩

theorem rxNr1_iff {s : Bytes} : rxNr1.run s = true ↔ ∃ neg m e, Iso6093 1 s neg m e := by
  rw [Rx.run_iff]
  simp only [rxNr1, Rx.lang_cat, rxSpaces_iff, rxSign_iff, rxDigit, Rx.plus_cls, digits_iff]
  constructor
  · rintro ⟨sp, u, rfl, h1, sg, i, rfl, ⟨neg, h2⟩, h3, h4⟩
    exact ⟨_, _, _, .nr1 h1 h2 h4 h3⟩
  · rintro ⟨neg, m, e, h⟩
    cases h with
    | nr1 h1 h2 h3 h4 => exact ⟨_, _, rfl, h1, _, _, rfl, ⟨_, h2⟩, h4, h3⟩

theorem rxNr2_iff {s : Bytes} : rxNr2.run s = true ↔ ∃ neg m e, Iso6093 2 s neg m e := by
  rw [Rx.run_iff]
  simp only [rxNr2, Rx.lang_cat, rxSpaces_iff, rxSign_iff, rxNumber_iff]
  constructor
  · rintro ⟨sp, u, rfl, h1, sg, n, rfl, ⟨neg, h2⟩, i, mark, f, rfl, h3, h4, h5, h6⟩
    exact ⟨_, _, _, .nr2 h1 h2 h3 h4 h5 h6⟩
  · rintro ⟨neg, m, e, h⟩
    cases h with
    | nr2 h1 h2 h3 h4 h5 h6 => exact ⟨_, _, rfl, h1, _, _, rfl, ⟨_, h2⟩, _, _, _, rfl, h3, h4, h5, h6⟩

theorem rxNr3_iff {s : Bytes} : rxNr3.run s = true ↔ ∃ neg m e, Iso6093 3 s neg m e := by
  rw [Rx.run_iff]
  simp only [rxNr3, Rx.lang_cat, rxSpaces_iff, rxSign_iff, rxNumber_iff, Rx.lang_cls, rxDigit, Rx.plus_cls, digits_iff,
    Bool.or_eq_true, beq_iff_eq]
  constructor
  · rintro ⟨sp, u, rfl, h1, sg, n, rfl, ⟨neg, h2⟩, t, v, rfl, ⟨i, mark, f, rfl, h3, h4, h5, h6⟩, e, w, rfl, ⟨c, rfl, h7⟩,
      sx, x, rfl, ⟨nx, h8⟩, h9, h10⟩
    have := Iso6093.nr3 h1 h2 h3 h4 h5 h6 h7 h8 h10 h9
    simp only [List.append_assoc, List.cons_append, List.nil_append]
    exact ⟨_, _, _, this⟩
  · rintro ⟨neg, m, e, h⟩
    cases h with
    | @nr3 sp sg i f sx x neg nx mark ex h1 h2 h3 h4 h5 h6 h7 h8 h9 h10 =>
      exact ⟨_, _, rfl, h1, _, _, rfl, ⟨_, h2⟩, i ++ (mark :: f), ex :: (sx ++ x), by simp,
        ⟨_, _, _, rfl, h3, h4, h5, h6⟩, [ex], sx ++ x, rfl, ⟨_, rfl, h7⟩, _, _, rfl, ⟨_, h8⟩, h10, h9⟩

/-! ## The conversion -/

theorem atoi_acc (s : Bytes) (n : Nat) : s.foldl (fun n b => 10 * n + (b.toNat - 0x30)) n = n * 10 ^ s.length + decimal s := by
  induction s generalizing n with
  | nil => simp [decimal]
  | cons b s ih =>
    rw [List.foldl_cons, ih, decimal, List.length_cons, Nat.pow_succ, Nat.add_mul]
    have : 10 * n * 10 ^ s.length = n * (10 ^ s.length * 10) := by
      rw [Nat.mul_comm 10 n, Nat.mul_assoc, Nat.mul_comm 10]
    omega

theorem atoi_eq (s : Bytes) : atoi s = decimal s := by
  rw [atoi, atoi_acc]; simp

theorem takeWhile_digits {i rest : Bytes} (h : Digits i) (hr : ∀ b s, rest = b :: s → isDigit b = false) :
    (i ++ rest).takeWhile isDigit = i ∧ (i ++ rest).dropWhile isDigit = rest := by
  induction i with
  | nil =>
    cases rest with
    | nil => simp
    | cons b s => simp [hr b s rfl]
  | cons b i ih =>
    have hb : isDigit b = true := isDigit_iff.mpr (h b (by simp))
    have := ih fun c hc => h c (by simp [hc])
    simp [hb, this.1, this.2]

theorem digit_not_comma {b : UInt8} (h : 0x30 ≤ b.toNat ∧ b.toNat ≤ 0x39) : b ≠ 0x2C := by
  rintro rfl; revert h; decide

theorem map_digits {s : Bytes} (h : Digits s) : s.map (fun b => if b = 0x2C then (0x2E : UInt8) else b) = s := by
  induction s with
  | nil => rfl
  | cons b s ih =>
    rw [List.map_cons, if_neg (digit_not_comma (h b (by simp))), ih fun c hc => h c (by simp [hc])]

theorem map_other {s : Bytes} (h : ∀ b ∈ s, b ≠ 0x2C) : s.map (fun b => if b = 0x2C then (0x2E : UInt8) else b) = s := by
  induction s with
  | nil => rfl
  | cons b s ih => rw [List.map_cons, if_neg (h b (by simp)), ih fun c hc => h c (by simp [hc])]

/-- `from_chars` on digits, with a fraction or an exponent or both. -/
theorem fromChars_int (round : Bool → Nat → Int → UInt64) (neg : Bool) {i : Bytes} (h : Digits i) (hi : i ≠ []) :
    fromChars round neg i = some (round neg (decimal i) 0) := by
  have := takeWhile_digits (rest := []) h (by simp)
  rw [List.append_nil] at this
  simp only [fromChars, this.1, this.2]
  simp [hi, atoi_eq]

theorem fromChars_frac (round : Bool → Nat → Int → UInt64) (neg : Bool) {i f : Bytes} (h : Digits i) (hf : Digits f)
    (hne : i ++ f ≠ []) :
    fromChars round neg (i ++ (0x2E :: f)) = some (round neg (decimal (i ++ f)) (-(f.length : Int))) := by
  have h1 := takeWhile_digits (rest := 0x2E :: f) h (by rintro b s h; cases h; rfl)
  have h2 := takeWhile_digits (rest := []) hf (by simp)
  rw [List.append_nil] at h2
  simp only [fromChars, h1.1, h1.2, h2.1, h2.2]
  rw [if_neg (by simpa using hne), atoi_eq]

theorem digits_signless {x : Bytes} (h : Digits x) (hx : x ≠ []) : expSign x = (false, x) := by
  cases x with
  | nil => exact (hx rfl).elim
  | cons b s =>
    have := h b (by simp)
    have h1 : b ≠ 0x2D := by rintro rfl; revert this; decide
    have h2 : b ≠ 0x2B := by rintro rfl; revert this; decide
    simp [expSign, h1, h2]

theorem expSign_text {sx x : Bytes} {nx : Bool} (hs : SignText sx nx) (h : Digits x) (hx : x ≠ []) :
    expSign (sx ++ x) = (nx, x) := by
  cases hs with
  | none => simpa using digits_signless h hx
  | plus => rfl
  | minus => rfl

theorem fromChars_exp (round : Bool → Nat → Int → UInt64) (neg : Bool) {i f sx x : Bytes} {nx : Bool} {ex : UInt8}
    (h : Digits i) (hf : Digits f) (hne : i ++ f ≠ []) (he : ex = 0x45 ∨ ex = 0x65) (hs : SignText sx nx) (hx : Digits x)
    (hx0 : x ≠ []) :
    fromChars round neg (i ++ (0x2E :: (f ++ (ex :: (sx ++ x))))) =
      some (round neg (decimal (i ++ f)) ((if nx then -(decimal x : Int) else decimal x) - f.length)) := by
  have h1 := takeWhile_digits (rest := 0x2E :: (f ++ (ex :: (sx ++ x)))) h (by rintro b s h; cases h; rfl)
  have h2 := takeWhile_digits (rest := ex :: (sx ++ x)) hf (by
    rintro b s h; cases h
    rcases he with rfl | rfl <;> rfl)
  simp only [fromChars, h1.1, h1.2, h2.1, h2.2]
  rw [if_neg (by simpa using hne), if_pos he, expSign_text hs hx hx0]
  have hall : x.all isDigit = true := List.all_eq_true.mpr (digits_iff.mpr hx)
  simp only [hall, if_true, atoi_eq]
  rw [if_neg (by simpa using hx0)]

/-- White space at the ends only. -/
theorem strip_spaces {sp r : Bytes} (hs : ∀ b ∈ sp, b = 0x20) {b c : UInt8} {r1 r2 : Bytes} (h1 : r = b :: r1)
    (h2 : r = r2 ++ [c]) (hb : isSpace b = false) (hc : isSpace c = false) :
    ((((sp ++ r).dropWhile isSpace).reverse).dropWhile isSpace).reverse = r := by
  have : (sp ++ r).dropWhile isSpace = r := by
    clear h2 hc
    induction sp with
    | nil => rw [List.nil_append, h1]; simp [hb]
    | cons d sp ih =>
      have hd : d = 0x20 := hs d (by simp)
      rw [List.cons_append, List.dropWhile_cons, if_pos (by rw [hd]; rfl)]
      exact ih fun x hx => hs x (by simp [hx])
  rw [this, h2]
  simp [hc]

theorem digit_not_space {b : UInt8} (h : 0x30 ≤ b.toNat ∧ b.toNat ≤ 0x39) : isSpace b = false := by
  have e : b = UInt8.ofNat b.toNat := by simp
  revert h; rw [e]; generalize b.toNat = n
  intro h
  have hn : n % 256 < 256 := by omega
  simp only [UInt8.toNat_ofNat'] at h
  have h3 : (UInt8.ofNat n).toNat = n % 256 := by simp
  simp only [isSpace, Bool.or_eq_false_iff, Bool.and_eq_false_iff, decide_eq_false_iff_not, UInt8.le_iff_toNat_le, beq_eq_false_iff_ne, ne_eq,
    ← UInt8.toNat_inj, h3]
  simp
  omega

theorem digit_not_sign {b : UInt8} (h : 0x30 ≤ b.toNat ∧ b.toNat ≤ 0x39) : b ≠ 0x2B ∧ b ≠ 0x2D := by
  constructor <;> (rintro rfl; revert h; decide)

/-- `SimpleAtod`: spaces, a sign, then a body that begins with a digit or a dot and ends with one. -/
theorem simpleAtod_body (round : Bool → Nat → Int → UInt64) {sp sg body : Bytes} {neg : Bool} (h1 : ∀ b ∈ sp, b = 0x20)
    (h2 : SignText sg neg) {b c : UInt8} {r1 r2 : Bytes} (hb : body = b :: r1) (hc : body = r2 ++ [c])
    (kb : (0x30 ≤ b.toNat ∧ b.toNat ≤ 0x39) ∨ b = 0x2E) (kc : (0x30 ≤ c.toNat ∧ c.toNat ≤ 0x39) ∨ c = 0x2E) :
    simpleAtod round (sp ++ (sg ++ body)) = fromChars round neg body := by
  have sb : isSpace b = false := by
    rcases kb with h | rfl
    · exact digit_not_space h
    · rfl
  have sc : isSpace c = false := by
    rcases kc with h | rfl
    · exact digit_not_space h
    · rfl
  have nb : b ≠ 0x2B ∧ b ≠ 0x2D := by
    rcases kb with h | rfl
    · exact digit_not_sign h
    · decide
  have hstrip : ((((sp ++ (sg ++ body)).dropWhile isSpace).reverse).dropWhile isSpace).reverse = sg ++ body := by
    cases h2 with
    | none => exact strip_spaces h1 hb hc sb sc
    | plus => exact strip_spaces h1 (r1 := body) rfl (r2 := 0x2B :: r2) (by rw [hc]; rfl) rfl sc
    | minus => exact strip_spaces h1 (r1 := body) rfl (r2 := 0x2D :: r2) (by rw [hc]; rfl) rfl sc
  simp only [simpleAtod]
  rw [hstrip]
  cases h2 with
  | none =>
    rw [List.nil_append, hb]
    split
    · rename_i h; simp only [List.cons.injEq] at h; exact (nb.1 h.1).elim
    · rename_i h; simp only [List.cons.injEq] at h; exact (nb.1 h.1).elim
    · rename_i h; simp only [List.cons.injEq] at h; exact (nb.2 h.1).elim
    · rfl
  | plus =>
    rw [hb]
    split
    · rename_i h; simp only [List.cons_append, List.nil_append, List.cons.injEq] at h; exact (nb.2 h.2.1).elim
    · rename_i h1 h; simp only [List.cons_append, List.nil_append, List.cons.injEq, true_and] at h; rw [h]
    · rename_i h; simp at h
    · rename_i h1 h2 h3; exact (h2 _ rfl).elim
  | minus => rfl

theorem snoc_of_ne_nil {s : Bytes} (h : s ≠ []) : ∃ r c, s = r ++ [c] := ⟨s.dropLast, s.getLast h, (List.dropLast_concat_getLast h).symm⟩

/-- The whole conversion, on every ISO 6093 text. -/
theorem simpleAtod_iso (round : Bool → Nat → Int → UInt64) {form : Nat} {s : Bytes} {neg : Bool} {m : Nat} {e : Int}
    (h : Iso6093 form s neg m e) :
    simpleAtod round (s.map fun b => if b = 0x2C then (0x2E : UInt8) else b) = some (round neg m e) := by
  have hspace : ∀ {sp : Bytes}, (∀ b ∈ sp, b = 0x20) → ∀ b ∈ sp, b ≠ 0x2C := by
    intro sp h b hb; rw [h b hb]; decide
  have hsign : ∀ {sg : Bytes} {neg : Bool}, SignText sg neg → ∀ b ∈ sg, b ≠ 0x2C := by
    intro sg neg h b hb
    cases h with
    | none => simp at hb
    | plus => simp only [List.mem_singleton] at hb; subst hb; decide
    | minus => simp only [List.mem_singleton] at hb; subst hb; decide
  have first : ∀ {i : Bytes} (rest : Bytes), Digits i → i ≠ [] →
      ∃ b r1, i ++ rest = b :: r1 ∧ 0x30 ≤ b.toNat ∧ b.toNat ≤ 0x39 := by
    intro i rest h hi
    cases i with
    | nil => exact (hi rfl).elim
    | cons b i => exact ⟨b, i ++ rest, rfl, h b (by simp)⟩
  have last : ∀ {i : Bytes} (pre : Bytes), Digits i → i ≠ [] →
      ∃ c r2, pre ++ i = r2 ++ [c] ∧ 0x30 ≤ c.toNat ∧ c.toNat ≤ 0x39 := by
    intro i pre h hi
    obtain ⟨r, c, rfl⟩ := snoc_of_ne_nil hi
    exact ⟨c, pre ++ r, by simp, h c (by simp)⟩
  have mk : ∀ {mark : UInt8}, mark = 0x2E ∨ mark = 0x2C → (if mark = 0x2C then (0x2E : UInt8) else mark) = 0x2E := by
    rintro mark (rfl | rfl) <;> rfl
  cases h with
  | @nr1 sp sg i neg h1 h2 h3 h4 =>
    rw [List.map_append, List.map_append, map_other (hspace h1), map_other (hsign h2), map_digits h3]
    obtain ⟨b, r1, hb, kb⟩ := first [] h3 h4
    obtain ⟨c, r2, hc, kc⟩ := last [] h3 h4
    rw [List.append_nil] at hb
    rw [List.nil_append] at hc
    rw [simpleAtod_body round h1 h2 hb hc (.inl kb) (.inl kc), fromChars_int round neg h3 h4]
  | @nr2 sp sg i f neg mark h1 h2 h3 h4 h5 h6 =>
    rw [List.map_append, List.map_append, List.map_append, List.map_cons, map_other (hspace h1), map_other (hsign h2),
      map_digits h3, map_digits h5, mk h4]
    have hb : ∃ b r1, i ++ (0x2E :: f) = b :: r1 ∧ ((0x30 ≤ b.toNat ∧ b.toNat ≤ 0x39) ∨ b = 0x2E) := by
      by_cases hi : i = []
      · subst hi; exact ⟨_, _, rfl, .inr rfl⟩
      · obtain ⟨b, r1, h, k⟩ := first (0x2E :: f) h3 hi; exact ⟨b, r1, h, .inl k⟩
    have hc : ∃ c r2, i ++ (0x2E :: f) = r2 ++ [c] ∧ ((0x30 ≤ c.toNat ∧ c.toNat ≤ 0x39) ∨ c = 0x2E) := by
      by_cases hf : f = []
      · subst hf; exact ⟨_, _, rfl, .inr rfl⟩
      · obtain ⟨c, r2, h, k⟩ := last (i ++ [0x2E]) h5 hf
        exact ⟨c, r2, by rw [← h]; simp, .inl k⟩
    obtain ⟨b, r1, hb, kb⟩ := hb
    obtain ⟨c, r2, hc, kc⟩ := hc
    rw [simpleAtod_body round h1 h2 hb hc kb kc, fromChars_frac round neg h3 h5 h6]
  | @nr3 sp sg i f sx x neg nx mark ex h1 h2 h3 h4 h5 h6 h7 h8 h9 h10 =>
    have hex : ex ≠ 0x2C := by rcases h7 with rfl | rfl <;> decide
    rw [List.map_append, List.map_append, List.map_append, List.map_cons, List.map_append, List.map_cons, List.map_append,
      map_other (hspace h1), map_other (hsign h2), map_digits h3, map_digits h5, mk h4, if_neg hex, map_other (hsign h8),
      map_digits h9]
    have hb : ∃ b r1, i ++ (0x2E :: (f ++ (ex :: (sx ++ x)))) = b :: r1 ∧ ((0x30 ≤ b.toNat ∧ b.toNat ≤ 0x39) ∨ b = 0x2E) := by
      by_cases hi : i = []
      · subst hi; exact ⟨_, _, rfl, .inr rfl⟩
      · obtain ⟨b, r1, h, k⟩ := first (0x2E :: (f ++ (ex :: (sx ++ x)))) h3 hi; exact ⟨b, r1, h, .inl k⟩
    obtain ⟨b, r1, hb, kb⟩ := hb
    obtain ⟨c, r2, hc, kc⟩ := last (i ++ (0x2E :: (f ++ (ex :: sx)))) h9 h10
    rw [simpleAtod_body round h1 h2 hb (c := c) (r2 := r2) (by rw [← hc]; simp) kb (.inl kc),
      fromChars_exp round neg h3 h5 h6 h7 h8 h9 h10]

end FastBer
