import Verif.Proofs.Wrap
import Verif.Spec.Reader
/-! # Lemmas: readers on arbitrary input, iteration -/
namespace FastBer
open Spec
set_option linter.unusedSimpArgs false

theorem extractLength_spec (bs : Bytes) (len0 off : Nat) (h : off ≤ bs.length) :
    extractLength bs len0 off = .ok ((readLength (bs.drop off)).getD (0, len0)) := by
  unfold extractLength
  rw [if_neg (by omega)]
  cases hd : bs.drop off with
  | nil => simp [readLength]
  | cons b rest =>
    have hb := b.toNat_lt
    simp only [readLength, and_80_eq, and_7F]
    by_cases h1 : b.toNat < 128
    · simp [h1]
    · have e : b.toNat % 128 = b.toNat - 128 := by omega
      simp only [h1, decide_false, Bool.false_eq_true, if_false, e]
      by_cases h2 : 1 ≤ b.toNat - 128 ∧ b.toNat - 128 ≤ 8 ∧ b.toNat - 128 ≤ rest.length
      · rw [if_neg (by omega), if_pos h2, extractLengthLoop_eq _ (by simp only [List.length_take]; omega)]
        simp
      · rw [if_pos (by omega), if_neg h2]; simp

theorem value128_append (a : Bytes) (b : UInt8) :
    value128 (a ++ [b]) = value128 a * 128 + b.toNat % 128 := by
  simp [value128, List.foldl_append]

theorem value128_foldl (bs : Bytes) (acc : Nat) :
    bs.foldl (fun acc b => acc * 128 + b.toNat % 128) acc = acc * 128 ^ bs.length + value128 bs := by
  induction bs generalizing acc with
  | nil => simp [value128]
  | cons b rest ih =>
    simp only [List.foldl_cons, value128, List.length_cons, Nat.pow_succ]
    rw [ih, ih (0 * 128 + b.toNat % 128)]
    simp only [Nat.zero_mul, Nat.zero_add, Nat.add_mul, Nat.add_assoc]
    congr 1
    rw [Nat.mul_assoc, Nat.mul_comm 128]

theorem value128_cons (b : UInt8) (bs : Bytes) :
    value128 (b :: bs) = b.toNat % 128 * 128 ^ bs.length + value128 bs := by
  have := value128_foldl bs (b.toNat % 128)
  simpa [value128] using this

theorem split_pow (acc r n : Nat) : (acc * 128 + r) * 128 ^ n = acc * 128 ^ (n + 1) + r * 128 ^ n := by
  rw [Nat.add_mul, Nat.mul_assoc, Nat.mul_comm 128, Nat.pow_succ]

theorem value256_foldl (l : Bytes) (a : Nat) : l.foldl (fun acc b => acc * 256 + b.toNat) a
    = a * 256 ^ l.length + value256 l := by
  induction l generalizing a with
  | nil => simp [value256]
  | cons x l ih =>
    simp only [List.foldl_cons, value256, List.length_cons, Nat.pow_succ]
    rw [ih, ih (0 * 256 + x.toNat)]
    simp only [Nat.zero_mul, Nat.zero_add, Nat.add_mul, Nat.add_assoc]
    rw [Nat.mul_assoc, Nat.mul_comm 256]

theorem value256_cons (b : UInt8) (l : Bytes) :
    value256 (b :: l) = b.toNat * 256 ^ l.length + value256 l := by
  have := value256_foldl l b.toNat
  simpa [value256] using this

/-- When the tag loop has undefined behaviour. -/
theorem extractTagLoop_ub_iff (i acc : Nat) (bs : Bytes) (hacc : acc * 128 < 2 ^ 63) :
    extractTagLoop i ((acc * 128 : Nat) : Int) bs = .ub ↔
      ∃ mid tail, bs = mid ++ tail ∧ mid ≠ [] ∧ (∀ b ∈ mid, 128 ≤ b.toNat) ∧
        2 ^ 56 ≤ acc * 128 ^ mid.length + value128 mid := by
  induction bs generalizing i acc with
  | nil =>
    simp only [extractTagLoop]
    constructor
    · intro h; cases h
    · rintro ⟨mid, tail, h, hne, _⟩
      exact absurd (List.append_eq_nil_iff.mp h.symm).1 hne
  | cons b rest ih =>
    have hb := b.toNat_lt
    simp only [extractTagLoop, and_7F, and_80_eq]
    rw [if_neg (by omega)]
    by_cases h1 : b.toNat < 128
    · simp only [h1, decide_true, if_true]
      constructor
      · intro h; cases h
      · rintro ⟨mid, tail, h, hne, hall, _⟩
        cases mid with
        | nil => exact absurd rfl hne
        | cons m mid =>
          simp only [List.cons_append, List.cons.injEq] at h
          have := hall m (by simp)
          rw [← h.1] at this; omega
    · simp only [h1, decide_false, Bool.false_eq_true, if_false]
      have e : ((acc * 128 : Nat) : Int) + ((b.toNat % 128 : Nat) : Int) = ((acc * 128 + b.toNat % 128 : Nat) : Int) := by
        omega
      rw [e]
      by_cases h2 : ((acc * 128 + b.toNat % 128 : Nat) : Int) * 128 ≥ 2 ^ 63
      · rw [if_pos h2]
        simp only [true_iff]
        refine ⟨[b], rest, rfl, by simp, ?_, ?_⟩
        · intro x hx; simp at hx; subst hx; omega
        · simp [value128]; omega
      · rw [if_neg h2]
        have e2 : ((acc * 128 + b.toNat % 128 : Nat) : Int) * 128 = (((acc * 128 + b.toNat % 128) * 128 : Nat) : Int) := by
          omega
        rw [e2, ih (i + 1) _ (by omega)]
        constructor
        · rintro ⟨mid, tail, h, hne, hall, hv⟩
          refine ⟨b :: mid, tail, by simp [h], by simp, ?_, ?_⟩
          · intro x hx
            rcases List.mem_cons.mp hx with rfl | hx
            · omega
            · exact hall x hx
          · rw [value128_cons, List.length_cons, ← Nat.add_assoc, ← split_pow]
            exact hv
        · rintro ⟨mid, tail, h, hne, hall, hv⟩
          cases mid with
          | nil => exact absurd rfl hne
          | cons m mid =>
            simp only [List.cons_append, List.cons.injEq] at h
            obtain ⟨rfl, h⟩ := h
            rw [value128_cons, List.length_cons, ← Nat.add_assoc, ← split_pow] at hv
            have hv' : 2 ^ 56 ≤ (acc * 128 + b.toNat % 128) * 128 ^ mid.length + value128 mid := hv
            have hne' : mid ≠ [] := by
              rintro rfl
              simp [value128] at hv'; omega
            exact ⟨mid, tail, h, hne', fun x hx => hall x (by simp [hx]), hv'⟩

theorem assign_ub_iff_tag (bs : Bytes) (tag0 : Int) :
    BerView.assign bs tag0 = .ub ↔
      ∃ first mid tail, bs = first :: (mid ++ tail) ∧ first.toNat % 32 = 31 ∧
        (∀ b ∈ mid, 128 ≤ b.toNat) ∧ 2 ^ 56 ≤ value128 mid := by
  rw [assign_ub_iff]
  cases bs with
  | nil => simp [extractTag]
  | cons b rest =>
    simp only [extractTag]
    by_cases hb : (b &&& 0x1F) = 0x1F
    · rw [if_neg (by simp [hb])]
      have := extractTagLoop_ub_iff 1 0 rest (by decide)
      simp only [Nat.zero_mul, Nat.zero_add] at this
      rw [show (0 : Int) = ((0 : Nat) : Int) from rfl, this]
      rw [and_1F_eq] at hb
      constructor
      · rintro ⟨mid, tail, h, _, h2, h3⟩
        exact ⟨b, mid, tail, by rw [h], hb, h2, h3⟩
      · rintro ⟨f, mid, tail, h, _, h2, h3⟩
        simp only [List.cons.injEq] at h
        refine ⟨mid, tail, h.2, ?_, h2, h3⟩
        rintro rfl; simp [value128] at h3
    · rw [if_pos hb]
      rw [and_1F_eq] at hb
      constructor
      · intro h; cases h
      · rintro ⟨f, mid, tail, h, h1, _⟩
        simp only [List.cons.injEq] at h
        rw [← h.1] at h1; omega

/-! ## Tame input -/

theorem Spec.Tame.infix {a b : Bytes} (h : Tame b) (hi : a <:+: b) : Tame a :=
  fun s hs tag0 => h s (hs.trans hi) tag0

theorem Spec.Tame.assign {bs : Bytes} (h : Tame bs) (tag0 : Int) :
    ∃ v, BerView.assign bs tag0 = .ok v ∧ v.hdr + v.len < 2 ^ 64 :=
  h bs (List.infix_refl _) tag0

/-- In tame input a valid view lies inside its span. -/
theorem Spec.Tame.content {bs : Bytes} {tag0 : Int} {v : BerView} (h : Tame bs)
    (ha : BerView.assign bs tag0 = .ok v) :
    ∃ c, v.content = .ok c ∧ c <:+: bs ∧ (v.valid = true → c.length = v.len) := by
  obtain ⟨v', ha', hw⟩ := h.assign tag0
  rw [ha] at ha'
  simp only [Exec.ok.injEq] at ha'
  subst ha'
  cases hv : v.valid with
  | true =>
    obtain ⟨hm, _, _, _, hb, _⟩ := assign_valid ha hv
    rw [BerView.berLength, u64_of_lt hw] at hb
    refine ⟨(v.mem.drop v.hdr).take v.len, ?_, ?_, ?_⟩
    · rw [BerView.content, hm, if_pos hb]
    · rw [hm]
      exact ((List.take_prefix _ _).isInfix).trans (List.drop_suffix _ _).isInfix
    · intro _; rw [hm, List.length_take, List.length_drop]; omega
  | false =>
    obtain ⟨h1, h2, h3⟩ := assign_invalid ha hv
    exact ⟨[], by simp [BerView.content, h1, h2, h3], List.nil_infix, by simp⟩

theorem Spec.Tame.berLength {bs : Bytes} {tag0 : Int} {v : BerView} (h : Tame bs)
    (ha : BerView.assign bs tag0 = .ok v) (hv : v.valid = true) :
    v.berLength = v.hdr + v.len ∧ 2 ≤ v.berLength ∧ v.berLength ≤ bs.length := by
  obtain ⟨v', ha', hw⟩ := h.assign tag0
  rw [ha] at ha'
  simp only [Exec.ok.injEq] at ha'
  subst ha'
  obtain ⟨hm, h2, _, _, hb, _⟩ := assign_valid ha hv
  have e : v.berLength = v.hdr + v.len := by rw [BerView.berLength, u64_of_lt hw]
  exact ⟨e, by omega, hb⟩

theorem value128_lt (bs : Bytes) : value128 bs < 128 ^ bs.length := by
  induction bs with
  | nil => simp [value128]
  | cons b bs ih =>
    rw [value128_cons, List.length_cons, Nat.pow_succ]
    have : b.toNat % 128 < 128 := Nat.mod_lt _ (by decide)
    have h3 : b.toNat % 128 * 128 ^ bs.length ≤ 127 * 128 ^ bs.length := Nat.mul_le_mul_right _ (by omega)
    omega

/-- The length field of a huge element starts with 0x88 0xFF. -/
theorem readLength_huge {bs : Bytes} {k n : Nat} (h : readLength bs = some (k, n)) (hn : 2 ^ 64 - 2 ^ 56 ≤ n) :
    [0x88, 0xFF] <:+: bs := by
  cases bs with
  | nil => simp [readLength] at h
  | cons b rest =>
    have hb := b.toNat_lt
    simp only [readLength] at h
    split at h
    · simp only [Option.some.injEq, Prod.mk.injEq] at h; omega
    · split at h
      · rename_i h2
        simp only [Option.some.injEq, Prod.mk.injEq] at h
        obtain ⟨_, h⟩ := h
        have hl := value256_lt (rest.take (b.toNat - 128))
        have hle : (rest.take (b.toNat - 128)).length = b.toNat - 128 := by
          rw [List.length_take]; omega
        rw [hle] at hl
        have hbk : b.toNat - 128 = 8 := by
          rcases Nat.lt_or_ge (b.toNat - 128) 8 with h8 | h8
          · exfalso
            have : 256 ^ (b.toNat - 128) ≤ 256 ^ 7 := Nat.pow_le_pow_right (by decide) (by omega)
            omega
          · omega
        have hb88 : b = 0x88 := by apply byte_ext; show b.toNat = 136; omega
        subst hb88
        cases rest with
        | nil => simp at h2
        | cons b1 rest =>
          have hb1 : b1 = 0xFF := by
            apply byte_ext
            show b1.toNat = 255
            rw [hbk] at h
            simp only [List.take_succ_cons] at h
            have hv := value256_cons b1 (rest.take 7)
            have h7 : (rest.take 7).length = 7 := by
              rw [List.length_take]
              have := h2.2.2
              rw [hbk] at this
              simp at this; omega
            have := value256_lt (rest.take 7)
            rw [hv, h7] at h
            rw [h7] at this
            have := b1.toNat_lt
            omega
          subst hb1
          exact ⟨[], rest, rfl⟩
      · cases h

theorem Spec.Plain.infix {a b : Bytes} (h : Plain b) (hi : a <:+: b) : Plain a where
  noLongRun := fun r hr hl => h.noLongRun r (hr.trans hi) hl
  noHugeLength := fun hc => h.noHugeLength (hc.trans hi)
  size := Nat.lt_of_le_of_lt hi.length_le h.size

theorem Spec.Plain.tame {bs : Bytes} (h : Plain bs) : Tame bs := by
  intro s hs tag0
  have hp := h.infix hs
  have hsafe : ∃ v, BerView.assign s tag0 = .ok v := by
    cases hx : BerView.assign s tag0 with
    | ok v => exact ⟨v, rfl⟩
    | loop => exact absurd hx (assign_not_loop _ _)
    | ub =>
      exfalso
      obtain ⟨first, mid, tail, e, _, hall, hv⟩ := (assign_ub_iff_tag s tag0).mp hx
      have hlt := value128_lt mid
      have h9 : 9 ≤ mid.length := by
        rcases Nat.lt_or_ge mid.length 9 with h8 | h8
        · exfalso
          have : 128 ^ mid.length ≤ 128 ^ 8 := Nat.pow_le_pow_right (by decide) (by omega)
          omega
        · exact h8
      obtain ⟨b, hb, hb'⟩ := hp.noLongRun (mid.take 9)
        (by rw [e]
            refine List.IsInfix.trans (List.take_prefix _ _).isInfix ?_
            exact ⟨[first], tail, by simp⟩)
        (by rw [List.length_take]; omega)
      have := hall b (List.mem_of_mem_take hb)
      omega
  obtain ⟨v, hv⟩ := hsafe
  refine ⟨v, hv, ?_⟩
  cases hval : v.valid with
  | false =>
    obtain ⟨_, h2, h3⟩ := assign_invalid hv hval
    rw [h2, h3]; decide
  | true =>
    obtain ⟨hm, h2, hh, hl, hb, tagLen, lenLen, e1, e2, e3, p1, p2⟩ := assign_valid hv hval
    rcases Nat.lt_or_ge (v.hdr + v.len) (2 ^ 64) with hlt | hge
    · exact hlt
    · exfalso
      have hs := hp.size
      have htl := extractTag_le _ _ _ _ e1
      rw [extractLength_spec _ _ _ htl] at e2
      cases hr : readLength (s.drop tagLen) with
      | none => rw [hr] at e2; simp at e2; omega
      | some p =>
        obtain ⟨k, n⟩ := p
        rw [hr] at e2
        simp only [Option.getD_some, Exec.ok.injEq, Prod.mk.injEq] at e2
        have := readLength_huge hr (by omega)
        exact hp.noHugeLength (this.trans (List.drop_suffix _ _).isInfix)

/-! ## Iteration -/

theorem iterate_tame (bs : Bytes) (tag0 : Int) (h : Tame bs) :
    ∃ vs, iterate bs tag0 = .ok vs := by
  induction hn : bs.length using Nat.strongRecOn generalizing bs tag0 with
  | ind n ih =>
    subst hn
    obtain ⟨v, hv, hw⟩ := h.assign tag0
    rw [iterate, hv]
    dsimp only
    cases hval : v.valid with
    | false => exact ⟨[], by simp⟩
    | true =>
      obtain ⟨_, h2, h3⟩ := h.berLength hv hval
      rw [if_pos rfl, dif_pos ⟨by omega, by omega⟩]
      obtain ⟨vs, hvs⟩ := ih (bs.drop v.berLength).length (by simp; omega) (bs.drop v.berLength) v.tag
        (h.infix (List.drop_suffix _ _).isInfix) rfl
      exact ⟨v :: vs, by rw [hvs]; rfl⟩

/-- What the children returned by an iteration are. -/
inductive Tiles : Bytes → Int → List BerView → Prop
  | stop {bs tag0 t} : BerView.assign bs tag0 = .ok (BerView.invalid t) → Tiles bs tag0 []
  | step {bs tag0 v vs} : BerView.assign bs tag0 = .ok v → v.valid = true → 0 < v.berLength →
      v.berLength ≤ bs.length → Tiles (bs.drop v.berLength) v.tag vs → Tiles bs tag0 (v :: vs)

theorem iterate_tiles (bs : Bytes) (tag0 : Int) (vs : List BerView) (h : iterate bs tag0 = .ok vs) :
    Tiles bs tag0 vs := by
  induction hn : bs.length using Nat.strongRecOn generalizing bs tag0 vs with
  | ind n ih =>
    subst hn
    rw [iterate] at h
    cases hv : BerView.assign bs tag0 with
    | ub => rw [hv] at h; simp at h
    | loop => rw [hv] at h; simp at h
    | ok v =>
      rw [hv] at h
      dsimp only at h
      cases hval : v.valid with
      | false =>
        rw [hval] at h; simp at h; subst h
        obtain ⟨h1, h2, h3⟩ := assign_invalid hv hval
        refine .stop (t := v.tag) ?_
        rw [hv]; cases v; simp_all [BerView.invalid]
      | true =>
        rw [hval, if_pos rfl] at h
        split at h
        · rename_i hlen
          rw [Exec.bind_eq_ok] at h
          obtain ⟨rest, h1, h2⟩ := h
          simp only [Exec.ok.injEq] at h2
          subst h2
          obtain ⟨_, _, _, _, hb, _⟩ := assign_valid hv hval
          exact .step hv hval hlen.1 hb (ih _ (by simp; omega) _ _ _ h1 rfl)
        · cases h

end FastBer
