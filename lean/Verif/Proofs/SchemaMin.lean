import Verif.Proofs.SchemaSet
import Verif.Spec.SchemaRead
/-! # The encoder's headers are the shortest ones -/
namespace FastBer
open Spec

theorem extractTagLoop_bound (bs : Bytes) : ∀ (i j : Nat) (acc : Int) (k : Nat) (t : Int), 0 ≤ acc →
    acc + 128 ≤ 128 ^ (j + 1) → extractTagLoop i acc bs = .ok (k, t) →
    k = 0 ∨ (i < k ∧ 0 ≤ t ∧ t < 128 ^ (j + (k - i))) := by
  induction bs with
  | nil => intro i j acc k t _ _ h; simp [extractTagLoop] at h; exact .inl h.1.symm
  | cons b rest ih =>
    intro i j acc k t h0 hacc h
    have hb : (b &&& 0x7F).toNat ≤ 127 := by
      rw [UInt8.toNat_and]; exact Nat.and_le_right
    rw [extractTagLoop] at h
    split at h
    · cases h
    · split at h
      · simp only [Exec.ok.injEq, Prod.mk.injEq] at h
        obtain ⟨rfl, rfl⟩ := h
        refine .inr ⟨by omega, by omega, ?_⟩
        have : i + 1 - i = 1 := by omega
        rw [this]; omega
      · split at h
        · cases h
        · have hp : (128 : Int) ^ (j + 1 + 1) = 128 ^ (j + 1) * 128 := by rw [Int.pow_succ]
          rcases ih (i + 1) (j + 1) _ k t (by omega) (by rw [hp]; omega) h with h | ⟨h1, h2, h3⟩
          · exact .inl h
          · refine .inr ⟨by omega, h2, ?_⟩
            have : j + (k - i) = j + 1 + (k - (i + 1)) := by omega
            rw [this]; exact h3

theorem encodedTagLength_le_of {t : Int} {k : Nat} (h0 : 0 ≤ t) (hk : 2 ≤ k) (h : t < 128 ^ (k - 1)) :
    encodedTagLength t ≤ k := by
  by_cases h10 : 10 ≤ k
  · exact Nat.le_trans (encodedTagLength_le t) h10
  · unfold encodedTagLength
    have : k = 2 ∨ k = 3 ∨ k = 4 ∨ k = 5 ∨ k = 6 ∨ k = 7 ∨ k = 8 ∨ k = 9 := by omega
    rcases this with rfl | rfl | rfl | rfl | rfl | rfl | rfl | rfl <;> simp at h <;> (repeat' split) <;> omega

theorem extractTag_min {bs : Bytes} {tag0 : Int} {k : Nat} {t : Int} (h : extractTag bs tag0 = .ok (k, t))
    (hk : 0 < k) : encodedTagLength t ≤ k := by
  unfold extractTag at h
  split at h
  · simp at h; omega
  · rename_i b rest
    split at h
    · rename_i hb
      simp only [Exec.ok.injEq, Prod.mk.injEq] at h
      obtain ⟨rfl, rfl⟩ := h
      have h1 : (b &&& 0x1F).toNat ≤ 31 := by rw [UInt8.toNat_and]; exact Nat.and_le_right
      have h2 : (b &&& 0x1F).toNat ≠ 31 := by
        intro hc; apply hb; exact UInt8.toNat_inj.mp hc
      unfold encodedTagLength
      (repeat' split) <;> omega
    · rcases extractTagLoop_bound rest 1 0 0 k t (by omega) (by decide) h with h1 | ⟨h1, h2, h3⟩
      · omega
      · exact encodedTagLength_le_of h2 (by omega) (by simpa using h3)

theorem readLength_min {bs : Bytes} {k n : Nat} (h : readLength bs = some (k, n)) : encodedLengthLength n ≤ k := by
  unfold readLength at h
  split at h
  · cases h
  · rename_i b rest
    split at h
    · simp only [Option.some.injEq, Prod.mk.injEq] at h
      obtain ⟨rfl, rfl⟩ := h
      exact Nat.le_of_eq (encodedLengthLength_small (by assumption))
    · split at h
      · rename_i hb
        simp only [Option.some.injEq, Prod.mk.injEq] at h
        obtain ⟨rfl, rfl⟩ := h
        have hl := value256_lt (rest.take (b.toNat - 128))
        rw [List.length_take, Nat.min_eq_left hb.2.2] at hl
        generalize value256 (rest.take (b.toNat - 128)) = n at hl
        generalize b.toNat - 128 = m at hl hb
        obtain ⟨hb1, hb2, _⟩ := hb
        unfold encodedLengthLength
        have : m = 1 ∨ m = 2 ∨ m = 3 ∨ m = 4 ∨ m = 5 ∨ m = 6 ∨ m = 7 ∨ m = 8 := by omega
        rcases this with rfl | rfl | rfl | rfl | rfl | rfl | rfl | rfl <;> simp at hl <;> (repeat' split) <;> omega
      · cases h

/-- Whatever header was parsed, the encoder's header for the same identifier and length is no longer. -/
theorem header_min {bs : Bytes} {tag0 : Int} {v : BerView} (h : BerView.assign bs tag0 = .ok v)
    (hv : v.valid = true) {i : Id} (hi : v.identifier = .ok i) : i.headerLength v.len ≤ v.hdr := by
  obtain ⟨hm, h2, hh, _, hb, tagLen, lenLen, ht, hl, hhdr, hp1, hp2⟩ := assign_valid h hv
  have h1 := extractTag_min ht hp1
  have h3 : encodedLengthLength v.len ≤ lenLen := by
    rw [extractLength_spec bs 0 tagLen (by omega)] at hl
    cases hr : readLength (bs.drop tagLen) with
    | none => rw [hr] at hl; simp at hl; omega
    | some p =>
      rw [hr] at hl
      simp only [Option.getD_some, Exec.ok.injEq] at hl
      exact readLength_min (hr.trans (by rw [hl]))
  have ht' := (identifier_eq_ok.mp hi).2
  rw [Id.headerLength, ← ht']
  omega

/-- The canonical encoding of as much content as an element holds fits in the element. -/
theorem matches_min {v w : BerView} {id : Ident} {k : Construction} (hid : identOk id) (hs : SaneView v)
    (hp : ∃ bs tag0, BerView.assign bs tag0 = .ok v) (h : Matches v id k w) (k' : Construction) (c : Bytes)
    (hc : c.length ≤ w.len) : (tagged id k' c).length ≤ v.hdr + v.len := by
  obtain ⟨bs, tag0, ha⟩ := hp
  have hv := (matches_valid h).1
  obtain ⟨_, hb, hlt⟩ := hs.bound hv
  have key : id.encodedLength c.length ≤ v.hdr + v.len := by
    cases id with
    | single i =>
      obtain ⟨_, hi, _, rfl⟩ := h
      have h1 := header_min ha hv hi
      have h2 := i.headerLength_mono hc
      show i.encodedLength c.length ≤ _
      rw [Id.encodedLength]; omega
    | double o i =>
      obtain ⟨_, hi, _, c0, hc0, hpar, hwv, hwi, _⟩ := h
      have h1 := header_min ha hv hi
      have h2 := header_min hpar hwv hwi
      obtain ⟨_, _, _, _, hwb, _⟩ := assign_valid hpar hwv
      have hcl := content_ok_length hc0
      have hsw := matches_sane hs (k := k) (id := .double o i) (w := w) ⟨hv, hi, ‹_›, c0, hc0, hpar, hwv, hwi, ‹_›⟩
      rw [hsw.berLength] at hwb
      have h3 := i.headerLength_mono hc
      have h4 : i.encodedLength c.length ≤ v.len := by rw [Id.encodedLength]; omega
      have h5 := o.headerLength_mono h4
      rw [Ident.encodedLength_eq]
      show o.headerLength (i.encodedLength c.length) + i.headerLength c.length + c.length ≤ _
      rw [Id.encodedLength] at h4
      have : i.encodedLength c.length = i.headerLength c.length + c.length := rfl
      omega
  rw [length_tagged hid k' c (by omega)]
  exact key

end FastBer
