import Verif.Proofs.Lexer
/-! # The lexer at the end of the file -/
namespace FastBer.Lexer
open FastBer Names Names.Spec FastBer.Spec Lexer.Spec

theorem lang_suffix {t e p r : Bytes} (h : t ++ e = p ++ r) (hl : e.length ≤ r.length) : ∃ v, t = p ++ v := by
  rcases List.append_eq_append_iff.mp h with ⟨a, h1, h2⟩ | ⟨a, h1, h2⟩
  · have := congrArg List.length h2
    simp at this
    have ha : a = [] := List.length_eq_zero_iff.mp (by omega)
    subst ha
    exact ⟨[], by simpa using h1.symm⟩
  · exact ⟨a, h1⟩

theorem no_nul {s x w : Bytes} (h : s = x ++ 0 :: w) {P : UInt8 → Prop} (hs : ∀ b ∈ s, P b) : P 0 := hs 0 (by rw [h]; simp)

theorem open_of_end {s w : Bytes} (h : rxStringEnd.Lang (s ++ 0 :: w)) : OpenString s := by
  have key : ∀ n, ∀ s : Bytes, s.length ≤ n → rxStringEnd.Lang (s ++ 0 :: w) → OpenString s := by
    intro n
    induction n with
    | zero =>
      intro s hs _
      have : s = [] := List.length_eq_zero_iff.mp (by omega)
      subst this; exact .nil
    | succ n ih =>
      intro s hs h
      cases s with
      | nil => exact .nil
      | cons c s =>
        rw [List.cons_append] at h
        rcases stringEnd_cons.mp h with ⟨_, h1⟩ | ⟨rfl, d, t, h1, h2, h3⟩ | ⟨rfl, t, h1, h2⟩ | ⟨h1, h2⟩
        · simp at h1
        · cases s with
          | nil => exact .char (by decide) (by decide) .nil
          | cons e s =>
            simp only [List.cons_append, List.cons.injEq] at h1
            obtain ⟨rfl, rfl⟩ := h1
            exact .escape h2 (ih s (by simp at hs; omega) h3)
        · cases s with
          | nil => simp at h1
          | cons e s =>
            simp only [List.cons_append, List.cons.injEq] at h1
            obtain ⟨rfl, rfl⟩ := h1
            exact .pair (ih s (by simp at hs; omega) h2)
        · simp only [quote, Bool.or_eq_false_iff, beq_eq_false_iff_ne] at h1
          exact .char h1.2 h1.1 (ih s (by simp at hs; omega) h2)
  exact key s.length s (Nat.le_refl _) h

theorem body_of_open {s : Bytes} (h : OpenString s) : rxStringBody.Lang s := by
  induction h with
  | nil => exact .nil
  | escape h1 _ ih => exact stringBody_cons.mpr (.inl ⟨rfl, _, _, rfl, h1, ih⟩)
  | pair _ ih => exact stringBody_cons.mpr (.inr (.inl ⟨rfl, _, rfl, ih⟩))
  | char h1 h2 _ ih => exact stringBody_cons.mpr (.inr (.inr ⟨quote_false h1 h2, ih⟩))

theorem body_append {s t : Bytes} (hs : rxStringBody.Lang s) (ht : rxStringBody.Lang t) : rxStringBody.Lang (s ++ t) := by
  have key : ∀ n, ∀ s : Bytes, s.length ≤ n → rxStringBody.Lang s → rxStringBody.Lang (s ++ t) := by
    intro n
    induction n with
    | zero =>
      intro s hs _
      have : s = [] := List.length_eq_zero_iff.mp (by omega)
      subst this; exact ht
    | succ n ih =>
      intro s hs h
      cases s with
      | nil => exact ht
      | cons c s =>
        rw [List.cons_append, stringBody_cons]
        rcases stringBody_cons.mp h with ⟨rfl, d, u, rfl, h2, h3⟩ | ⟨rfl, u, rfl, h2⟩ | ⟨h1, h2⟩
        · exact .inl ⟨rfl, d, u ++ t, rfl, h2, ih u (by simp at hs; omega) h3⟩
        · exact .inr (.inl ⟨rfl, u ++ t, rfl, ih u (by simp at hs; omega) h2⟩)
        · exact .inr (.inr ⟨h1, ih s (by simp at hs; omega) h2⟩)
  exact key s.length s (Nat.le_refl _) hs

theorem tail_no_nul {s : Bytes} (h : rxTail.Lang s) : ∀ b ∈ s, b ≠ 0 := by
  rw [tail_eq, hyphenated_iff word_hyphen] at h
  intro b hb h0
  subst h0
  rcases h.1 _ hb with h | h <;> exact absurd h (by decide)

theorem upper_no_nul {s : Bytes} (h : rxUpper.Lang s) : ∀ b ∈ s, b ≠ 0 := by
  cases s with
  | nil => simp
  | cons c s =>
    obtain ⟨h1, h2⟩ := upper_iff.mp h
    intro b hb
    rcases List.mem_cons.mp hb with rfl | hb
    · rintro rfl; cases h1
    · exact tail_no_nul h2 b hb

theorem lower_no_nul {s : Bytes} (h : rxLower.Lang s) : ∀ b ∈ s, b ≠ 0 := by
  cases s with
  | nil => simp
  | cons c s =>
    obtain ⟨h1, h2⟩ := lower_iff.mp h
    intro b hb
    rcases List.mem_cons.mp hb with rfl | hb
    · rintro rfl; cases h1
    · exact tail_no_nul h2 b hb

theorem digits_no_nul {s : Bytes} (h : ∀ b ∈ s, decDigit b = true) : ∀ b ∈ s, b ≠ 0 := by
  intro b hb h0
  subst h0
  exact absurd (h _ hb) (by decide)

theorem lit_no_nul {k : Bytes} {p : Rx} {s : Bytes} (hk : ∀ b ∈ k, b ≠ 0) (hp : ∀ t, p.Lang t → ∀ b ∈ t, b ≠ 0)
    (h : (Rx.cat (lit k) p).Lang s) : ∀ b ∈ s, b ≠ 0 := by
  obtain ⟨t, rfl, h1⟩ := lit_cat_iff.mp h
  intro b hb
  rcases List.mem_append.mp hb with hb | hb
  · exact hk b hb
  · exact hp t h1 b hb

/-- Two characters at the start. -/
theorem starts_two {x w t : Bytes} {p q : UInt8} (hp : p ≠ 0) (hq : q ≠ 0) (h : x ++ 0 :: w = [p, q] ++ t) :
    ∃ s, x = p :: q :: s ∧ t = s ++ 0 :: w := by
  match x with
  | [] => simp only [List.nil_append, List.cons_append, List.cons.injEq] at h; exact (hp h.1.symm).elim
  | [a] => simp only [List.nil_append, List.cons_append, List.cons.injEq] at h; exact (hq h.2.1.symm).elim
  | a :: b :: s =>
    simp only [List.nil_append, List.cons_append, List.cons.injEq] at h
    obtain ⟨rfl, rfl, rfl⟩ := h
    exact ⟨s, rfl, rfl⟩

/-- The characters before the last ones. -/
theorem two_last {t s w : Bytes} {p q : UInt8} (hq : q ≠ 0) (h : t ++ [p, q] = s ++ 0 :: w) : w ≠ [] := by
  rintro rfl
  have h : (t ++ [p]) ++ [q] = s ++ [0] := by simpa using h
  have := (List.append_inj' h rfl).2
  simp at this; exact hq this

theorem length_pos {w : Bytes} (h : w ≠ []) : 1 ≤ w.length := by
  have : w.length ≠ 0 := fun hw => h (List.length_eq_zero_iff.mp hw)
  omega

/-- Only comments and strings run over the NUL. -/
theorem nul_inside {rx : Rx} {a : Action} (hr : (rx, a) ∈ rules) {x w : Bytes} (h : rx.Lang (x ++ 0 :: w)) :
    Unterminated x ∨ (x = [] ∧ w = []) := by
  rw [rules, List.mem_append, List.mem_append, List.mem_append] at hr
  rcases hr with ((hr | hr) | hr) | hr
  · obtain ⟨k, hk, he⟩ := List.mem_map.mp hr
    cases he
    have key : ∀ k ∈ keywords, ∀ b ∈ bytes k, b ≠ 0 := by decide +kernel
    exact (no_nul (lit_iff.mp h).symm (key k hk) rfl).elim
  · simp only [middle, List.mem_cons, List.not_mem_nil, or_false, Prod.mk.injEq] at hr
    rcases hr with ⟨rfl, _⟩ | ⟨rfl, _⟩ | ⟨rfl, _⟩ | ⟨rfl, _⟩ | ⟨rfl, _⟩ | ⟨rfl, _⟩ | ⟨rfl, _⟩ | ⟨rfl, _⟩ | ⟨rfl, _⟩ | ⟨rfl, _⟩ |
      ⟨rfl, _⟩ | ⟨rfl, _⟩ | ⟨rfl, _⟩ | ⟨rfl, _⟩ | ⟨rfl, _⟩ | ⟨rfl, _⟩
    · -- comment
      obtain ⟨t, h1, _⟩ := lit_cat_iff.mp h
      obtain ⟨s, rfl, rfl⟩ := starts_two (by decide) (by decide) h1
      have hc := comment_chars h
      obtain ⟨t, h2, h3⟩ := comment_iff.mp h
      have hw := two_last (by decide) h2.symm
      refine .inl (.line (fun b hb => hc b (by simp [hb])) ?_)
      rintro ⟨p, q, rfl⟩
      have h2 : t ++ [0x2D, 0x2D] = (p ++ [0x2D, 0x2D]) ++ (q ++ 0 :: w) := by rw [← h2]; simp
      obtain ⟨v, rfl⟩ := lang_suffix h2 (by have := length_pos hw; simp; omega)
      exact (commentBody_iff.mp h3).2 ⟨p, v ++ [0x2D], by simp⟩
    · -- line comment
      obtain ⟨t, h1, _⟩ := lit_cat_iff.mp h
      obtain ⟨s, rfl, rfl⟩ := starts_two (by decide) (by decide) h1
      have hc := lineComment_chars h
      refine .inl (.line (fun b hb => hc b (by simp [hb])) ?_)
      rintro ⟨p, q, rfl⟩
      rcases lineComment_iff.mp h with h3 | ⟨t, h2, h3⟩
      · exact (commentBody_iff.mp h3).2 ⟨p, q ++ 0 :: w ++ [0x2D], by simp⟩
      · have h2 : t ++ [0x2D] = (p ++ [0x2D, 0x2D]) ++ (q ++ 0 :: w) := by rw [← h2]; simp
        obtain ⟨v, rfl⟩ := lang_suffix h2 (by simp; omega)
        exact (commentBody_iff.mp h3).2 ⟨p, v ++ [0x2D], by simp⟩
    · -- block comment
      obtain ⟨t, h1, _⟩ := lit_cat_iff.mp h
      obtain ⟨s, rfl, rfl⟩ := starts_two (by decide) (by decide) h1
      obtain ⟨t, h2, h3⟩ := block_iff.mp h
      have hw := two_last (by decide) h2.symm
      refine .inl (.block ?_)
      rintro ⟨p, q, rfl⟩
      have h2 : t ++ [0x2A, 0x2F] = (p ++ [0x2A, 0x2F]) ++ (q ++ 0 :: w) := by rw [← h2]; simp
      obtain ⟨v, rfl⟩ := lang_suffix h2 (by have := length_pos hw; simp; omega)
      exact h3 ⟨p, v, by simp⟩
    · -- real
      obtain ⟨i, f, h1, _, h2, _, h3⟩ := real_iff.mp h
      refine (no_nul h1.symm (P := (· ≠ 0)) ?_ rfl).elim
      intro b hb
      rcases List.mem_append.mp hb with hb | hb
      · exact digits_no_nul h2 b hb
      · rcases List.mem_cons.mp hb with rfl | hb
        · decide
        · exact digits_no_nul h3 b hb
    · exact (no_nul rfl (digits_no_nul (digits_iff.mp h).2) rfl).elim
    · exact (no_nul rfl (lit_no_nul (by decide) (fun t ht => digits_no_nul (digits_iff.mp ht).2) h) rfl).elim
    · -- string
      cases x with
      | nil => exact absurd (string_iff.mp h).1 (by decide)
      | cons q s =>
        obtain ⟨h1, h2⟩ := string_iff.mp h
        refine .inl (.string ?_ (open_of_end h2))
        simp only [quote, Bool.or_eq_true, beq_iff_eq] at h1
        exact h1.symm
    · refine (no_nul rfl (lit_no_nul (by decide) (fun t ht => ?_) h) rfl).elim
      obtain ⟨u, v, rfl, h1, h2⟩ := Rx.lang_cat.mp ht
      rw [lit_iff] at h2
      subst h2
      intro b hb
      rcases List.mem_append.mp hb with hb | hb
      · have := Rx.star_cls.mp h1 b hb
        rintro rfl; cases this
      · have key : ∀ b ∈ ([0x27, 0x42] : Bytes), b ≠ 0 := by decide
        exact key b hb
    · refine (no_nul rfl (lit_no_nul (by decide) (fun t ht => ?_) h) rfl).elim
      obtain ⟨u, v, rfl, h1, h2⟩ := Rx.lang_cat.mp ht
      rw [lit_iff] at h2
      subst h2
      intro b hb
      rcases List.mem_append.mp hb with hb | hb
      · have := Rx.star_cls.mp h1 b hb
        rintro rfl; cases this
      · have key : ∀ b ∈ ([0x27, 0x48] : Bytes), b ≠ 0 := by decide
        exact key b hb
    · exact (no_nul rfl (upper_no_nul h) rfl).elim
    · exact (no_nul rfl (lower_no_nul h) rfl).elim
    · exact (no_nul rfl (lit_no_nul (by decide) (fun t ht => upper_no_nul ht) h) rfl).elim
    · exact (no_nul rfl (lit_no_nul (by decide) (fun t ht => lower_no_nul ht) h) rfl).elim
    · rw [lit_iff] at h
      cases x with
      | nil => simp at h; exact .inr ⟨rfl, h⟩
      | cons c x => simp at h
    · rcases newline_iff.mp h with h | h
      · exact (no_nul h.symm (P := (· ≠ 0)) (by decide) rfl).elim
      · exact (no_nul h.symm (P := (· ≠ 0)) (by decide) rfl).elim
    · obtain ⟨c, h1, h2⟩ := Rx.lang_cls.mp h
      cases x with
      | nil => simp at h1; rw [← h1.1] at h2; cases h2
      | cons c x => simp at h1
  · obtain ⟨k, hk, he⟩ := List.mem_map.mp hr
    cases he
    have key : ∀ k ∈ symbols, ∀ b ∈ bytes k, b ≠ 0 := by decide +kernel
    exact (no_nul (lit_iff.mp h).symm (key k hk) rfl).elim
  · simp only [List.mem_singleton, Prod.mk.injEq] at hr
    obtain ⟨rfl, _⟩ := hr
    obtain ⟨c, h1, h2⟩ := Rx.lang_cls.mp h
    cases x with
    | nil => simp at h1; exact .inr ⟨rfl, h1.2⟩
    | cons c x => simp at h1

theorem mem_of_rule {i : Nat} {q : Rx × Action} (h : rules[i]? = some q) : q ∈ rules := List.mem_of_getElem? h

/-- The lexer reads behind the NUL exactly when the text is an unfinished comment or string. -/
theorem lexOne_unterminated {x : Bytes} : lexOne (x ++ [0]) = .ub ↔ Unterminated x := by
  constructor
  · intro h
    cases x with
    | nil =>
      obtain ⟨r, hr, w, hw, h1⟩ := lexOne_ub.mp h
      rcases nul_inside (x := []) hr h1 with h | ⟨_, h⟩
      · exact h
      · exact (hw h).elim
    | cons c x =>
      obtain ⟨r, hr, w, hw, h1⟩ := lexOne_ub.mp h
      have h1 : r.1.Lang ((c :: x) ++ 0 :: w) := by simpa using h1
      rcases nul_inside hr h1 with h | ⟨h, _⟩
      · exact h
      · cases h
  · intro h
    cases h with
    | @line s h1 h2 =>
      refine lexOne_ub.mpr ⟨_, mem_of_rule rule_93, [0x41], by simp, ?_⟩
      refine lineComment_lang (s := s ++ [0] ++ [0x41]) ?_ ?_
      · intro b hb
        simp only [List.append_assoc, List.cons_append, List.nil_append, List.mem_append, List.mem_cons, List.not_mem_nil, or_false] at hb
        rcases hb with hb | rfl | rfl
        · exact h1 b hb
        · decide
        · decide
      · rintro ⟨p, q, h⟩
        have h : s ++ [0, 0x41] = (p ++ [0x2D, 0x2D]) ++ q := by simpa using h
        rcases List.append_eq_append_iff.mp h with ⟨v, h3, h4⟩ | ⟨v, h3, h4⟩
        · match v with
          | [] => rw [List.append_nil] at h3; exact h2 ⟨p, [], by rw [← h3]; simp⟩
          | [c] =>
            simp only [List.cons_append, List.nil_append, List.cons.injEq] at h4
            rw [← h4.1] at h3
            have h3 : (p ++ [0x2D]) ++ [0x2D] = s ++ [0] := by simpa using h3
            have := (List.append_inj' h3 rfl).2
            simp at this
          | c :: d :: v =>
            simp only [List.cons_append, List.nil_append, List.cons.injEq] at h4
            obtain ⟨rfl, rfl, h4⟩ := h4
            have : v = [] := by simpa using (List.append_eq_nil_iff.mp h4.symm).1
            subst this
            have h3 : (p ++ [0x2D]) ++ [0x2D] = (s ++ [0]) ++ [0x41] := by simpa using h3
            have := (List.append_inj' h3 rfl).2
            simp at this
        · exact h2 ⟨p, v, h3⟩
    | @block s h1 =>
      refine lexOne_ub.mpr ⟨_, mem_of_rule rule_94, [0x2A, 0x2F], by simp, ?_⟩
      refine block_iff.mpr ⟨s ++ [0], rfl, ?_⟩
      rintro ⟨p, q, h⟩
      rcases List.eq_nil_or_concat q with rfl | ⟨q, c, rfl⟩
      · have h : s ++ [0] = (p ++ [0x2A]) ++ [0x2F] := by simpa using h
        have := (List.append_inj' h rfl).2
        simp at this
      · have h : s ++ [0] = (p ++ [0x2A, 0x2F] ++ q) ++ [c] := by simpa using h
        exact h1 ⟨p, q, List.append_inj_left' h rfl⟩
    | @string q s h1 h2 =>
      refine lexOne_ub.mpr ⟨_, mem_of_rule rule_98, [0x22], by simp, ?_⟩
      refine string_iff.mpr ⟨by rcases h1 with rfl | rfl <;> rfl, ?_⟩
      exact .cat (body_append (body_of_open h2) (stringBody_cons.mpr (.inr (.inr ⟨rfl, .nil⟩)))) (.cls rfl)

/-- Reading behind the end of the file: part of the file, up to its end, is an unfinished comment or string. -/
theorem lexAll_ub : ∀ n, ∀ f : Bytes, f.length ≤ n → lexAll (f ++ [0]) = .ub → ∃ p x, f = p ++ x ∧ Unterminated x := by
  intro n
  induction n with
  | zero =>
    intro f hf h
    have : f = [] := List.length_eq_zero_iff.mp (by omega)
    subst this
    rw [List.nil_append, lexAll_end] at h
    cases h
  | succ n ih =>
    intro f hf h
    rw [lexAll_eq] at h
    cases h1 : lexOne (f ++ [0]) with
    | ub => exact ⟨[], f, rfl, lexOne_unterminated.mp h1⟩
    | loop => exact (lexOne_not_loop _ h1).elim
    | ok res =>
      obtain ⟨a, x, rest⟩ := res
      obtain ⟨h2, h3, rx, h4, h5⟩ := lexOne_ok h1
      rw [h1] at h
      simp only [Exec.ok_bind] at h
      rcases List.eq_nil_or_concat rest with rfl | ⟨rest, z, rfl⟩
      · -- all of it
        rw [List.append_nil] at h2
        rw [← h2] at h5
        rcases nul_inside h4 h5 with hu | ⟨rfl, _⟩
        · rw [lexOne_unterminated.mpr hu] at h1; cases h1
        · have : lexOne [0] = .ok (.eof, [0], []) := reads_one (i := 105) (r := []) (by decide +kernel) rfl (by decide)
          rw [List.nil_append, this] at h1
          cases h1
          cases h
      · rw [List.concat_eq_append] at h
        have h2 : f ++ [0] = (x ++ rest) ++ [z] := by simpa using h2
        obtain ⟨h6, h7⟩ := List.append_inj' h2 rfl
        simp only [List.cons.injEq, and_true] at h7
        subst h7
        have hx := length_pos h3
        have key : lexAll (rest ++ [0]) = .ub → ∃ p y, f = p ++ y ∧ Unterminated y := by
          intro hub
          obtain ⟨p, y, h8, h9⟩ := ih rest (by rw [h6] at hf; simp at hf; omega) hub
          exact ⟨x ++ p, y, by rw [h6, h8]; simp, h9⟩
        have tok : ∀ t : Tok, (do let ts ← lexAll (rest ++ [0]); .ok (ts.map (t :: ·))) = (.ub : Exec (Option (List Tok))) →
            lexAll (rest ++ [0]) = .ub := by
          intro t ht
          cases h8 : lexAll (rest ++ [0]) with
          | ok _ => rw [h8] at ht; cases ht
          | ub => rfl
          | loop => rw [h8] at ht; cases ht
        cases a with
        | skip => exact key h
        | eof => cases h
        | _ =>
          simp only [] at h
          split at h
          · cases h
          · exact key (tok _ h)

theorem lex_not_loop (f : Bytes) : lex f ≠ .loop := by
  rw [lex]
  exact (lexFrom_more _ _ (by simp)).1

theorem lexAll_stop {x : Bytes} (h : Unterminated x) : lexAll (x ++ [0]) = .ub := by
  rw [lexAll_eq, lexOne_unterminated.mpr h]; rfl

end FastBer.Lexer
