import Verif.Model.View
import Verif.Proofs.Header
/-! # Lemmas: views -/
namespace FastBer
open Spec
set_option linter.unusedSimpArgs false

/-! ## Parsing a canonical element -/

theorem header_first (c : Class) (k : Construction) (t n : Nat) :
    ∃ m, m ≤ 31 ∧ ∃ tl, header c k t n = UInt8.ofNat (c.toNat * 64 + k.toNat * 32 + m) :: tl := by
  unfold header identifierOctets
  split
  · exact ⟨t, by omega, _, rfl⟩
  · exact ⟨31, by omega, _, rfl⟩

theorem lengthOctets_length_pos (n : Nat) : 0 < (lengthOctets n).length := by
  unfold lengthOctets; split <;> simp

theorem identifierOctets_length_pos (c : Class) (k : Construction) (t : Nat) :
    0 < (identifierOctets c k t).length := by
  unfold identifierOctets; split <;> simp

theorem length_element (c : Class) (k : Construction) (t : Nat) (content : Bytes) :
    (element c k t content).length = (header c k t content.length).length + content.length := by
  simp [element]

theorem header_length_pos (c : Class) (k : Construction) (t n : Nat) : 2 ≤ (header c k t n).length := by
  have h1 := lengthOctets_length_pos n
  have h2 := identifierOctets_length_pos c k t
  simp only [header, List.length_append]; omega

theorem element_length_pos (c : Class) (k : Construction) (t : Nat) (content : Bytes) :
    0 < (element c k t content).length := by
  have := header_length_pos c k t content.length
  rw [length_element]; omega

/-- The view of a canonical element followed by arbitrary bytes. -/
def elementView (c : Class) (k : Construction) (t : Nat) (content suffix : Bytes) : BerView :=
  ⟨true, element c k t content ++ suffix, t, (header c k t content.length).length, content.length⟩

theorem assign_element (c : Class) (k : Construction) (t : Nat) (content suffix : Bytes) (tag0 : Int)
    (ht : t < 2 ^ 63) (hlen : (element c k t content).length < 2 ^ 64) :
    BerView.assign (element c k t content ++ suffix) tag0 = .ok (elementView c k t content suffix) := by
  have hL := length_element c k t content
  have hn : content.length < 2 ^ 64 := by omega
  have e1 : element c k t content ++ suffix =
      identifierOctets c k t ++ (lengthOctets content.length ++ (content ++ suffix)) := by
    simp [element, header]
  unfold BerView.assign
  rw [e1, extractTag_identifierOctets c k t _ tag0 ht]
  simp only [Exec.ok_bind]
  rw [extractLength_lengthOctets _ _ _ _ hn]
  simp only [Exec.ok_bind]
  rw [← List.length_append, ← header, ← hL, u64_of_lt hlen, ← e1]
  have p1 := identifierOctets_length_pos c k t
  have p2 := lengthOctets_length_pos content.length
  rw [if_neg (by simp only [List.length_append]; omega)]
  rfl

section elementView
variable (c : Class) (k : Construction) (t : Nat) (content suffix : Bytes)

@[simp] theorem elementView_valid : (elementView c k t content suffix).valid = true := rfl
@[simp] theorem elementView_tag : (elementView c k t content suffix).tag = t := rfl
@[simp] theorem elementView_len : (elementView c k t content suffix).len = content.length := rfl

theorem elementView_mem_first :
    ∃ m, m ≤ 31 ∧ ∃ tl, (elementView c k t content suffix).mem =
      UInt8.ofNat (c.toNat * 64 + k.toNat * 32 + m) :: tl := by
  obtain ⟨m, hm, tl, h⟩ := header_first c k t content.length
  exact ⟨m, hm, tl ++ content ++ suffix, by simp [elementView, element, h]⟩

@[simp] theorem elementView_cls : (elementView c k t content suffix).cls = .ok c := by
  obtain ⟨m, hm, tl, h⟩ := elementView_mem_first c k t content suffix
  rw [BerView.cls, h]; exact congrArg Exec.ok (getClass_first c k m hm)

@[simp] theorem elementView_construction : (elementView c k t content suffix).construction = .ok k := by
  obtain ⟨m, hm, tl, h⟩ := elementView_mem_first c k t content suffix
  rw [BerView.construction, h]; exact congrArg Exec.ok (getConstruction_first c k m hm)

@[simp] theorem elementView_identifier : (elementView c k t content suffix).identifier = .ok ⟨c, t⟩ := by
  simp [BerView.identifier]

@[simp] theorem elementView_content : (elementView c k t content suffix).content = .ok content := by
  simp [BerView.content, elementView, element]

theorem elementView_berLength (h : (element c k t content).length < 2 ^ 64) :
    (elementView c k t content suffix).berLength = (element c k t content).length := by
  have hL := length_element c k t content
  simp only [BerView.berLength, elementView]
  rw [← hL, u64_of_lt h]

theorem elementView_ber (h : (element c k t content).length < 2 ^ 64) :
    (elementView c k t content suffix).ber = .ok (element c k t content) := by
  rw [BerView.ber, elementView_berLength c k t content suffix h]
  simp [elementView]

end elementView

/-! ## Arbitrary input: extract_tag / extract_length -/

theorem extractTagLoop_ok (i : Nat) (acc : Int) (bs : Bytes) (k : Nat) (t : Int)
    (h : extractTagLoop i acc bs = .ok (k, t)) :
    k = 0 ∨ (i < k ∧ k - i ≤ bs.length ∧
      (∀ s, extractTagLoop i acc (bs.take (k - i) ++ s) = .ok (k, t)) ∧
      (∀ m, m < k - i → ∃ t', extractTagLoop i acc (bs.take m) = .ok (0, t'))) := by
  induction bs generalizing i acc with
  | nil => simp [extractTagLoop] at h; left; omega
  | cons b rest ih =>
    simp only [extractTagLoop] at h
    split at h
    · cases h
    · rename_i hov
      split at h
      · rename_i hb
        simp only [Exec.ok.injEq, Prod.mk.injEq] at h
        obtain ⟨rfl, rfl⟩ := h
        right
        refine ⟨by omega, by simp, ?_, ?_⟩
        · intro s
          have e : i + 1 - i = 0 + 1 := by omega
          simp only [e, List.take_succ_cons, List.cons_append, extractTagLoop, hb, if_true]
          rw [if_neg hov]
        · intro m hm
          have : m = 0 := by omega
          subst this
          exact ⟨acc, by simp [extractTagLoop]⟩
      · rename_i hb
        split at h
        · cases h
        · rename_i hov2
          rcases ih _ _ h with h0 | ⟨h1, h2, h3, h4⟩
          · exact Or.inl h0
          · right
            refine ⟨by omega, by simp; omega, ?_, ?_⟩
            · intro s
              have e : k - i = (k - (i + 1)) + 1 := by omega
              simp only [e, List.take_succ_cons, List.cons_append, extractTagLoop, hb, if_false,
                Bool.false_eq_true]
              rw [if_neg hov, if_neg hov2]
              exact h3 s
            · intro m hm
              cases m with
              | zero => exact ⟨acc, by simp [extractTagLoop]⟩
              | succ m =>
                obtain ⟨t', ht'⟩ := h4 m (by omega)
                refine ⟨t', ?_⟩
                simp only [List.take_succ_cons, extractTagLoop, hb, if_false, Bool.false_eq_true]
                rw [if_neg hov, if_neg hov2]
                exact ht'

theorem extractTag_ok (bs : Bytes) (tag0 : Int) (k : Nat) (t : Int)
    (h : extractTag bs tag0 = .ok (k, t)) :
    k = 0 ∨ (k ≤ bs.length ∧
      (∀ s tag1, extractTag (bs.take k ++ s) tag1 = .ok (k, t)) ∧
      (∀ m tag1, m < k → ∃ t', extractTag (bs.take m) tag1 = .ok (0, t'))) := by
  cases bs with
  | nil => simp [extractTag] at h; left; omega
  | cons b rest =>
    simp only [extractTag] at h
    split at h
    · rename_i hb
      simp only [Exec.ok.injEq, Prod.mk.injEq] at h
      obtain ⟨rfl, rfl⟩ := h
      right
      refine ⟨by simp, ?_, ?_⟩
      · intro s tag1
        simp only [List.take_succ_cons, List.cons_append, extractTag, hb, if_true, not_false_iff, ne_eq]
      · intro m tag1 hm
        have : m = 0 := by omega
        subst this; exact ⟨tag1, by simp [extractTag]⟩
    · rename_i hb
      rcases extractTagLoop_ok _ _ _ _ _ h with h0 | ⟨h1, h2, h3, h4⟩
      · exact Or.inl h0
      · right
        refine ⟨by simp; omega, ?_, ?_⟩
        · intro s tag1
          have e : k = (k - 1) + 1 := by omega
          have := h3 s
          rw [e]
          simp only [List.take_succ_cons, List.cons_append, extractTag, hb, if_false]
          rw [← e]; exact this
        · intro m tag1 hm
          cases m with
          | zero => exact ⟨tag1, by simp [extractTag]⟩
          | succ m =>
            obtain ⟨t', ht'⟩ := h4 m (by omega)
            refine ⟨t', ?_⟩
            simp only [List.take_succ_cons, extractTag, hb, if_false]; exact ht'

theorem append_split (bs s : Bytes) (k : Nat) : bs ++ s = bs.take k ++ (bs.drop k ++ s) := by
  rw [← List.append_assoc, List.take_append_drop]

theorem take_split (bs : Bytes) (k m : Nat) (h : k ≤ m) :
    bs.take m = bs.take k ++ (bs.take m).drop k := by
  have := List.take_append_drop k (bs.take m)
  rw [List.take_take, Nat.min_eq_left h] at this
  exact this.symm

theorem extractTag_le (bs : Bytes) (tag0 : Int) (k : Nat) (t : Int)
    (h : extractTag bs tag0 = .ok (k, t)) : k ≤ bs.length := by
  rcases extractTag_ok bs tag0 k t h with h0 | ⟨h1, _⟩
  · omega
  · exact h1

theorem extractTagLoop_not_loop (i : Nat) (acc : Int) (bs : Bytes) : extractTagLoop i acc bs ≠ .loop := by
  induction bs generalizing i acc with
  | nil => simp [extractTagLoop]
  | cons b rest ih =>
    simp only [extractTagLoop]
    split <;> try simp
    split <;> try simp
    split <;> try simp
    exact ih _ _

theorem extractTag_not_loop (bs : Bytes) (tag0 : Int) : extractTag bs tag0 ≠ .loop := by
  cases bs with
  | nil => simp [extractTag]
  | cons b rest =>
    simp only [extractTag]
    split
    · simp
    · exact extractTagLoop_not_loop _ _ _

/-- `extract_length` never fails with undefined behaviour for an offset inside the input. -/
theorem extractLength_safe (bs : Bytes) (len0 off : Nat) (h : off ≤ bs.length) :
    ∃ k n, extractLength bs len0 off = .ok (k, n) := by
  unfold extractLength
  rw [if_neg (by omega)]
  split
  · exact ⟨_, _, rfl⟩
  · split
    · exact ⟨_, _, rfl⟩
    · dsimp only
      split
      · exact ⟨_, _, rfl⟩
      · exact ⟨_, _, rfl⟩

theorem extractLength_ok (bs : Bytes) (len0 off k n : Nat)
    (h : extractLength bs len0 off = .ok (k, n)) :
    (k = 0 ∧ n = len0) ∨ (off + k ≤ bs.length ∧ 0 < k ∧ k ≤ 9 ∧ n < 2 ^ 64 ∧
      (∀ s, extractLength (bs.take (off + k) ++ s) len0 off = .ok (k, n)) ∧
      (∀ m, off ≤ m → m < off + k → extractLength (bs.take m) len0 off = .ok (0, len0))) := by
  unfold extractLength at h
  split at h
  · cases h
  rename_i hoff
  split at h
  · simp at h; left; omega
  · rename_i b rest hdrop
    have hlen : bs.length = off + (rest.length + 1) := by
      have := congrArg List.length hdrop; simp at this; omega
    have htake : ∀ m, off ≤ m → (bs.take m).drop off = (b :: rest).take (m - off) := by
      intro m hm; rw [List.drop_take, hdrop]
    have happ : ∀ m s, off ≤ m → m ≤ bs.length → (bs.take m ++ s).drop off = (b :: rest).take (m - off) ++ s := by
      intro m s hm hm2; rw [List.drop_append_of_le_length (by simp; omega), htake m hm]
    split at h
    · rename_i hb
      simp only [Exec.ok.injEq, Prod.mk.injEq] at h
      obtain ⟨rfl, rfl⟩ := h
      right
      have := b.toNat_lt
      refine ⟨by omega, by omega, by omega, by omega, ?_, ?_⟩
      · intro s
        unfold extractLength
        rw [if_neg (by simp; omega), happ _ _ (by omega) (by omega)]
        have e : off + 1 - off = 0 + 1 := by omega
        simp only [e, List.take_succ_cons, List.cons_append, hb, if_true]
      · intro m hm1 hm2
        have : m = off := by omega
        subst this
        unfold extractLength
        rw [if_neg (by simp; omega), htake _ (by omega)]
        simp
    · rename_i hb
      dsimp only at h
      split at h
      · simp at h; left; omega
      · rename_i hc
        simp only [Exec.ok.injEq, Prod.mk.injEq] at h
        obtain ⟨rfl, rfl⟩ := h
        right
        refine ⟨by omega, by omega, by omega, ?_, ?_, ?_⟩
        · have hl : (rest.take (b &&& 0x7F).toNat).length ≤ 8 := by simp only [List.length_take]; omega
          rw [extractLengthLoop_eq _ hl]
          have := value256_lt (rest.take (b &&& 0x7F).toNat)
          have h2 : 256 ^ (rest.take (b &&& 0x7F).toNat).length ≤ 256 ^ 8 :=
            Nat.pow_le_pow_right (by decide) hl
          omega
        · intro s
          unfold extractLength
          rw [if_neg (by simp only [List.length_append, List.length_take]; omega),
            happ _ _ (by omega) (by omega)]
          have e : off + ((b &&& 0x7F).toNat + 1) - off = (b &&& 0x7F).toNat + 1 := by omega
          simp only [e, List.take_succ_cons, List.cons_append, hb, if_false, Bool.false_eq_true]
          rw [if_neg (by simp only [List.length_append, List.length_take]; omega)]
          rw [List.take_append_of_le_length (by simp only [List.length_take]; omega), List.take_take]
          simp
        · intro m hm1 hm2
          unfold extractLength
          rw [if_neg (by simp only [List.length_take]; omega), htake _ hm1]
          cases hmo : m - off with
          | zero => simp
          | succ j =>
            simp only [List.take_succ_cons, hb, if_false, Bool.false_eq_true]
            rw [if_pos (by simp only [List.length_take]; omega)]

/-! ## Arbitrary input: BerView::assign -/

/-- What a valid view looks like. -/
theorem assign_valid {bs : Bytes} {tag0 : Int} {v : BerView} (h : BerView.assign bs tag0 = .ok v)
    (hv : v.valid = true) :
    v.mem = bs ∧ 2 ≤ v.hdr ∧ v.hdr ≤ bs.length ∧ v.len < 2 ^ 64 ∧ v.berLength ≤ bs.length ∧
    ∃ tagLen lenLen, extractTag bs tag0 = .ok (tagLen, v.tag) ∧
      extractLength bs 0 tagLen = .ok (lenLen, v.len) ∧ v.hdr = tagLen + lenLen ∧
      0 < tagLen ∧ 0 < lenLen := by
  unfold BerView.assign at h
  rw [Exec.bind_eq_ok] at h
  obtain ⟨⟨tagLen, tag⟩, h1, h⟩ := h
  dsimp only at h
  rw [Exec.bind_eq_ok] at h
  obtain ⟨⟨lenLen, n⟩, h2, h⟩ := h
  dsimp only at h
  split at h
  · simp only [Exec.ok.injEq] at h; subst h; simp [BerView.invalid] at hv
  · rename_i hc
    simp only [Exec.ok.injEq] at h
    subst h
    rcases extractLength_ok _ _ _ _ _ h2 with h0 | ⟨a, b, c, d, _⟩
    · omega
    · refine ⟨rfl, ?_, a, d, ?_, tagLen, lenLen, h1, h2, rfl, by omega, by omega⟩
      · show 2 ≤ tagLen + lenLen; omega
      · show u64 (tagLen + lenLen + n) ≤ bs.length; omega

theorem assign_invalid {bs : Bytes} {tag0 : Int} {v : BerView} (h : BerView.assign bs tag0 = .ok v)
    (hv : v.valid = false) : v.mem = [] ∧ v.hdr = 0 ∧ v.len = 0 := by
  unfold BerView.assign at h
  rw [Exec.bind_eq_ok] at h
  obtain ⟨⟨tagLen, tag⟩, h1, h⟩ := h
  dsimp only at h
  rw [Exec.bind_eq_ok] at h
  obtain ⟨⟨lenLen, n⟩, h2, h⟩ := h
  dsimp only at h
  split at h
  · simp only [Exec.ok.injEq] at h; subst h; exact ⟨rfl, rfl, rfl⟩
  · simp only [Exec.ok.injEq] at h; subst h; simp at hv

theorem assign_not_loop (bs : Bytes) (tag0 : Int) : BerView.assign bs tag0 ≠ .loop := by
  unfold BerView.assign
  intro h
  cases ht : extractTag bs tag0 with
  | ub => rw [ht] at h; simp at h
  | loop => exact extractTag_not_loop _ _ ht
  | ok p =>
    obtain ⟨tagLen, tag⟩ := p
    rw [ht] at h; simp only [Exec.ok_bind] at h
    obtain ⟨k, n, hk⟩ := extractLength_safe bs 0 tagLen (extractTag_le _ _ _ _ ht)
    rw [hk] at h; simp only [Exec.ok_bind] at h
    split at h <;> cases h

/-- Parsing has undefined behaviour exactly when `extract_tag` has. -/
theorem assign_ub_iff (bs : Bytes) (tag0 : Int) :
    BerView.assign bs tag0 = .ub ↔ extractTag bs tag0 = .ub := by
  unfold BerView.assign
  cases ht : extractTag bs tag0 with
  | ub => simp
  | loop => simp
  | ok p =>
    obtain ⟨tagLen, tag⟩ := p
    simp only [Exec.ok_bind]
    obtain ⟨k, n, hk⟩ := extractLength_safe bs 0 tagLen (extractTag_le _ _ _ _ ht)
    rw [hk]; simp only [Exec.ok_bind]
    split <;> simp

/-- Appending bytes to a parseable span does not change the view. -/
theorem assign_append {bs : Bytes} {tag0 : Int} {v : BerView} (h : BerView.assign bs tag0 = .ok v)
    (hv : v.valid = true) (s : Bytes) (tag1 : Int) :
    BerView.assign (bs ++ s) tag1 = .ok { v with mem := bs ++ s } := by
  obtain ⟨hm, h2, hh, hl, hb, tagLen, lenLen, e1, e2, e3, p1, p2⟩ := assign_valid h hv
  rcases extractTag_ok _ _ _ _ e1 with h0 | ⟨_, a1, _⟩
  · omega
  rcases extractLength_ok _ _ _ _ _ e2 with h0 | ⟨_, _, _, _, b1, _⟩
  · omega
  have a1' := a1 (bs.drop tagLen ++ s) tag1
  rw [← append_split] at a1'
  have b1' := b1 (bs.drop (tagLen + lenLen) ++ s)
  rw [← append_split] at b1'
  unfold BerView.assign
  rw [a1']; simp only [Exec.ok_bind]
  rw [b1']; simp only [Exec.ok_bind]
  simp only [BerView.berLength, e3] at hb
  rw [if_neg (by simp; omega)]
  cases v; simp_all

/-- A strict truncation of an element does not parse. -/
theorem assign_take {bs : Bytes} {tag0 : Int} {v : BerView} (h : BerView.assign bs tag0 = .ok v)
    (hv : v.valid = true) (hw : v.hdr + v.len < 2 ^ 64) (m : Nat) (hmm : m < v.hdr + v.len) (tag1 : Int) :
    ∃ t, BerView.assign (bs.take m) tag1 = .ok (BerView.invalid t) := by
  obtain ⟨hm, h2, hh, hl, hb, tagLen, lenLen, e1, e2, e3, p1, p2⟩ := assign_valid h hv
  rw [BerView.berLength, u64_of_lt hw] at hb
  rcases extractTag_ok _ _ _ _ e1 with h0 | ⟨hle, a1, a2⟩
  · omega
  rcases extractLength_ok _ _ _ _ _ e2 with h0 | ⟨hle2, _, _, _, b1, b2⟩
  · omega
  unfold BerView.assign
  by_cases c1 : m < tagLen
  · obtain ⟨t', ht'⟩ := a2 m tag1 c1
    rw [ht']; simp only [Exec.ok_bind]
    obtain ⟨k, n, hk⟩ := extractLength_safe (bs.take m) 0 0 (by omega)
    rw [hk]; simp only [Exec.ok_bind]
    simp only [true_or, if_true]
    exact ⟨_, rfl⟩
  · -- the tag is complete: it parses as before
    have ht : extractTag (bs.take m) tag1 = .ok (tagLen, v.tag) := by
      rw [take_split bs tagLen m (by omega)]; exact a1 _ _
    rw [ht]; simp only [Exec.ok_bind]
    by_cases c2 : m < tagLen + lenLen
    · rw [b2 m (by omega) c2]; simp only [Exec.ok_bind]
      simp only [true_or, or_true, if_true]
      exact ⟨_, rfl⟩
    · have hl2 : extractLength (bs.take m) 0 tagLen = .ok (lenLen, v.len) := by
        rw [take_split bs (tagLen + lenLen) m (by omega)]; exact b1 _
      rw [hl2]; simp only [Exec.ok_bind]
      rw [if_pos]
      · exact ⟨_, rfl⟩
      · right; right
        rw [← e3, u64_of_lt hw]; simp; omega

end FastBer
