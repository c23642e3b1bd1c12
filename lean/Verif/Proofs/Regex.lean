import Verif.Spec.Regex
/-! # Regular expressions: the matcher accepts the language -/
namespace FastBer

theorem Rx.lang_none {s : Bytes} : Rx.none.Lang s ↔ False := ⟨fun h => (by cases h), False.elim⟩

theorem Rx.lang_alt {a b : Rx} {s : Bytes} : (Rx.alt a b).Lang s ↔ a.Lang s ∨ b.Lang s := by
  constructor
  · intro h; cases h with
    | left h => exact .inl h
    | right h => exact .inr h
  · rintro (h | h)
    · exact .left h
    · exact .right h

theorem Rx.lang_cls {p : UInt8 → Bool} {s : Bytes} : (Rx.cls p).Lang s ↔ ∃ c, s = [c] ∧ p c = true := by
  constructor
  · intro h; cases h with | cls h => exact ⟨_, rfl, h⟩
  · rintro ⟨c, rfl, h⟩; exact .cls h

theorem Rx.lang_eps {s : Bytes} : Rx.eps.Lang s ↔ s = [] := by
  constructor
  · intro h; cases h; rfl
  · rintro rfl; exact .eps

theorem Rx.lang_cat {a b : Rx} {s : Bytes} : (Rx.cat a b).Lang s ↔ ∃ t u, s = t ++ u ∧ a.Lang t ∧ b.Lang u := by
  constructor
  · intro h; cases h with | cat h1 h2 => exact ⟨_, _, rfl, h1, h2⟩
  · rintro ⟨t, u, rfl, h1, h2⟩; exact .cat h1 h2

theorem Rx.nullable_iff (r : Rx) : r.nullable = true ↔ r.Lang [] := by
  induction r with
  | none => simp [nullable, lang_none]
  | eps => simp [nullable, lang_eps]
  | cls p => simp [nullable, lang_cls]
  | cat a b iha ihb =>
    simp only [nullable, Bool.and_eq_true, iha, ihb, lang_cat]
    constructor
    · rintro ⟨h1, h2⟩; exact ⟨[], [], rfl, h1, h2⟩
    · rintro ⟨t, u, h, h1, h2⟩
      obtain ⟨rfl, rfl⟩ := List.append_eq_nil_iff.mp h.symm
      exact ⟨h1, h2⟩
  | alt a b iha ihb => simp [nullable, lang_alt, iha, ihb]
  | star a => simp only [nullable, true_iff]; exact .nil

/-- A repetition that is not empty starts with a repetition that is not empty. -/
theorem Rx.lang_star_cons {a : Rx} {c : UInt8} {s : Bytes} (h : (Rx.star a).Lang (c :: s)) :
    ∃ t u, s = t ++ u ∧ a.Lang (c :: t) ∧ (Rx.star a).Lang u := by
  generalize hr : Rx.star a = r at h
  generalize hx : c :: s = x at h
  induction h generalizing c s with
  | eps => cases hr
  | cls => cases hr
  | cat => cases hr
  | left => cases hr
  | right => cases hr
  | nil => cases hx
  | @more a' t u h1 h2 ih1 ih2 =>
    cases hr
    cases t with
    | nil => exact ih2 rfl (by simpa using hx)
    | cons d t =>
      simp only [List.cons_append, List.cons.injEq] at hx
      obtain ⟨rfl, rfl⟩ := hx
      exact ⟨t, u, rfl, h1, h2⟩

theorem Rx.deriv_iff (r : Rx) (c : UInt8) (s : Bytes) : (r.deriv c).Lang s ↔ r.Lang (c :: s) := by
  induction r generalizing s with
  | none => simp [deriv, lang_none]
  | eps => simp [deriv, lang_none, lang_eps]
  | cls p =>
    rw [deriv]
    split
    · rename_i h
      rw [lang_eps, lang_cls]
      constructor
      · rintro rfl; exact ⟨c, rfl, h⟩
      · rintro ⟨d, h1, _⟩; simpa using congrArg List.tail h1
    · rename_i h
      simp only [lang_cls, lang_none, false_iff, not_exists, not_and]
      rintro d h1
      simp only [List.cons.injEq] at h1
      rw [← h1.1]; exact h
  | cat a b iha ihb =>
    have hcat : (Rx.cat (a.deriv c) b).Lang s ↔ ∃ t u, s = t ++ u ∧ a.Lang (c :: t) ∧ b.Lang u := by
      rw [lang_cat]; simp only [iha]
    have hsplit : (Rx.cat a b).Lang (c :: s) ↔ (∃ t u, s = t ++ u ∧ a.Lang (c :: t) ∧ b.Lang u) ∨
        (a.Lang [] ∧ b.Lang (c :: s)) := by
      rw [lang_cat]
      constructor
      · rintro ⟨t, u, h, h1, h2⟩
        cases t with
        | nil =>
          simp only [List.nil_append] at h
          subst h
          exact .inr ⟨h1, h2⟩
        | cons d t =>
          simp only [List.cons_append, List.cons.injEq] at h
          obtain ⟨rfl, rfl⟩ := h
          exact .inl ⟨t, u, rfl, h1, h2⟩
      · rintro (⟨t, u, rfl, h1, h2⟩ | ⟨h1, h2⟩)
        · exact ⟨c :: t, u, rfl, h1, h2⟩
        · exact ⟨[], c :: s, rfl, h1, h2⟩
    rw [deriv, hsplit]
    split
    · rename_i h
      rw [lang_alt, hcat, ihb]
      rw [nullable_iff] at h
      simp [h]
    · rename_i h
      rw [hcat]
      rw [nullable_iff] at h
      simp [h]
  | alt a b iha ihb => simp [deriv, lang_alt, iha, ihb]
  | star a iha =>
    rw [deriv, lang_cat]
    simp only [iha]
    constructor
    · rintro ⟨t, u, rfl, h1, h2⟩
      exact .more (s := c :: t) h1 h2
    · exact lang_star_cons

theorem Rx.run_iff (r : Rx) (s : Bytes) : r.run s = true ↔ r.Lang s := by
  induction s generalizing r with
  | nil => exact r.nullable_iff
  | cons c s ih => rw [run, ih, deriv_iff]

theorem Rx.star_cls {p : UInt8 → Bool} {s : Bytes} : (Rx.star (.cls p)).Lang s ↔ ∀ b ∈ s, p b = true := by
  induction s with
  | nil => simp; exact .nil
  | cons c s ih =>
    constructor
    · intro h
      obtain ⟨t, u, rfl, h1, h2⟩ := lang_star_cons h
      obtain ⟨d, h3, h4⟩ := lang_cls.mp h1
      simp only [List.cons.injEq] at h3
      obtain ⟨rfl, rfl⟩ := h3
      rw [List.nil_append] at ih
      simp [h4, ih.mp h2]
      exact fun b hb => ih.mp h2 b hb
    · intro h
      exact .more (s := [c]) (.cls (h c (by simp))) (ih.mpr fun b hb => h b (by simp [hb]))

theorem Rx.plus_cls {p : UInt8 → Bool} {s : Bytes} : (Rx.cls p).plus.Lang s ↔ s ≠ [] ∧ ∀ b ∈ s, p b = true := by
  rw [plus, lang_cat]
  simp only [star_cls]
  constructor
  · rintro ⟨t, u, rfl, h1, h2⟩
    obtain ⟨c, rfl, h3⟩ := lang_cls.mp h1
    simp [h3]
    exact h2
  · rintro ⟨h1, h2⟩
    cases s with
    | nil => exact (h1 rfl).elim
    | cons c s => exact ⟨[c], s, rfl, .cls (h2 c (by simp)), fun b hb => h2 b (by simp [hb])⟩

end FastBer
