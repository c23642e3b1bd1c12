import Verif.Model.Oid
import Verif.Spec.Oid
import Verif.Proofs.Container
/-! # Lemmas about OBJECT IDENTIFIER -/
namespace FastBer
open Spec

/-- Octets written for a component, the last one with or without the continuation bit. -/
def oidDigits (first : Bool) (c : Nat) : Bytes :=
  if first then base128 c else base128Cont c

theorem oidCount_nonneg (c : Nat) : oidCount (c : Int) = (base128 c).length := by
  induction c using Nat.strongRecOn with
  | ind c ih =>
    rw [oidCount]
    have e : (c : Int).tdiv 128 = ((c / 128 : Nat) : Int) := by
      rw [Int.tdiv_eq_ediv_of_nonneg (by omega)]; rfl
    rw [e]
    split
    · rename_i h
      have hpos : c / 128 ≠ 0 := by omega
      rw [ih (c / 128) (by omega)]
      simp only [base128, List.length_append, List.length_cons, List.length_nil]
      rw [base128Cont_pos hpos]
      simp
    · rename_i h
      have : c / 128 = 0 := by omega
      simp [base128, this, base128Cont_zero]

theorem set_mid (pre hole post : Bytes) (x d : UInt8) (n : Nat) (h : n = pre.length + hole.length) :
    (pre ++ (hole ++ [x]) ++ post).set n d = pre ++ hole ++ (d :: post) := by
  subst h
  have : pre ++ (hole ++ [x]) ++ post = (pre ++ hole) ++ x :: post := by simp
  rw [this, set_append_at _ _ _ _ _ (by simp)]

theorem oidWrite_spec (c : Nat) : ∀ (pre hole post : Bytes) (first : Bool),
    (first = false → c ≠ 0) → hole.length = (oidDigits first c).length →
    oidWrite (pre ++ hole ++ post) (decPos (pre.length + hole.length)) first c =
      .ok (pre ++ oidDigits first c ++ post, decPos pre.length) := by
  induction c using Nat.strongRecOn with
  | ind c ih =>
    intro pre hole post first hf hl
    have hdig : oidDigits first c = oidDigits false (c / 128) ++
        [if first then UInt8.ofNat (c % 128) else UInt8.ofNat (c % 128) ||| 0x80] := by
      cases first with
      | true => simp [oidDigits, base128]
      | false =>
        simp only [oidDigits, Bool.false_eq_true, if_false]
        rw [base128Cont_pos (hf rfl), or_80 _ (Nat.mod_lt _ (by decide))]
    have hne : hole ≠ [] := by
      intro h; rw [h, hdig] at hl; simp at hl
    obtain ⟨hole', x, rfl⟩ : ∃ h' x, hole = h' ++ [x] := ⟨_, _, (List.dropLast_concat_getLast hne).symm⟩
    rw [hdig] at hl ⊢
    simp only [List.length_append, List.length_cons, List.length_nil, Nat.add_right_cancel_iff, Nat.zero_add] at hl
    rw [oidWrite]
    have hp : decPos (pre.length + (hole' ++ [x]).length) = pre.length + hole'.length := by
      simp [decPos]
    rw [hp, if_pos (by simp)]
    simp only
    rw [set_mid _ _ _ _ _ _ rfl]
    split
    · rename_i hc
      rw [ih (c / 128) (by omega) pre hole' _ false (fun _ => by omega) hl]
      simp
    · rename_i hc
      have h0 : c / 128 = 0 := by omega
      rw [h0] at hl ⊢
      have hh : hole' = [] := by
        simp [oidDigits, base128Cont_zero] at hl; exact hl
      subst hh
      simp [oidDigits, base128Cont_zero]

/-- The loop over the components writes the base-128 groups. -/
theorem oidLoop_spec (cs : List Int) : ∀ (pre hole post : Bytes),
    (∀ c ∈ cs, 0 ≤ c) → hole.length = (cs.reverse.flatMap (fun c => base128 c.toNat)).length →
    oidLoop (pre ++ hole ++ post) (decPos (pre.length + hole.length)) cs =
      .ok (true, pre ++ cs.reverse.flatMap (fun c => base128 c.toNat) ++ post) := by
  induction cs with
  | nil =>
    intro pre hole post _ hl
    simp at hl; subst hl
    simp [oidLoop]
  | cons c cs ih =>
    intro pre hole post hn hl
    have hc := hn c (by simp)
    simp only [List.reverse_cons, List.flatMap_append, List.flatMap_cons, List.flatMap_nil, List.append_nil,
      List.length_append] at hl
    rw [oidLoop, if_neg (by omega)]
    have hs : hole = hole.take (cs.reverse.flatMap (fun c => base128 c.toNat)).length ++
        hole.drop (cs.reverse.flatMap (fun c => base128 c.toNat)).length := (List.take_append_drop _ _).symm
    generalize hA : hole.take (cs.reverse.flatMap (fun c => base128 c.toNat)).length = A at hs
    generalize hB : hole.drop (cs.reverse.flatMap (fun c => base128 c.toNat)).length = B at hs
    have hAl : A.length = (cs.reverse.flatMap (fun c => base128 c.toNat)).length := by
      rw [← hA, List.length_take]; omega
    have hBl : B.length = (base128 c.toNat).length := by
      rw [← hB, List.length_drop]; omega
    subst hs
    have := oidWrite_spec c.toNat (pre ++ A) B post true (by simp) hBl
    simp only [List.length_append, List.append_assoc, Nat.add_assoc] at this
    simp only [List.append_assoc, List.length_append, this, Exec.ok_bind]
    have ih' := ih pre A (oidDigits true c.toNat ++ post) (fun x hx => hn x (by simp [hx])) hAl
    simp only [List.append_assoc] at ih'
    rw [ih']
    simp [oidDigits]

theorem encodedObjectIdLength_legal {oid : List Int} (h : legalOid oid) :
    encodedObjectIdLength oid = (oidContent oid).length := by
  match oid, h with
  | a :: b :: rest, h =>
    obtain ⟨_, _, _, _, hr⟩ := h
    simp only [encodedObjectIdLength, oidContent, List.length_cons, List.drop_succ_cons, List.drop_zero]
    rw [if_neg (by omega), List.length_flatMap]
    have : rest.map oidCount = rest.map (fun c => (base128 c.toNat).length) := by
      apply List.map_congr_left
      intro c hc
      have h0 := (hr c hc).1
      rw [← oidCount_nonneg]
      congr 1; omega
    rw [this]; omega

theorem encodeObjectId_legal (out : Bytes) (oid : List Int) (h : legalOid oid) (len0 : Nat)
    (hlen : len0 = 0 ∨ len0 = encodedObjectIdLength oid) :
    encodeObjectId out oid len0 = .ok (if (oidContent oid).length ≤ out.length
      then (⟨true, (oidContent oid).length⟩, oidContent oid ++ out.drop (oidContent oid).length)
      else (.fail, out)) := by
  have hel := encodedObjectIdLength_legal h
  have hn : (if len0 = 0 then encodedObjectIdLength oid else len0) = (oidContent oid).length := by
    rcases hlen with h0 | h0
    · simp [h0, hel]
    · rw [h0, hel]; split <;> simp_all
  match oid, h with
  | a :: b :: rest, h =>
    obtain ⟨h1, h2, h3, h4, hr⟩ := h
    have hpos : 0 < (oidContent (a :: b :: rest)).length := by simp [oidContent]
    simp only [encodeObjectId, hn]
    by_cases hf : (oidContent (a :: b :: rest)).length ≤ out.length
    · rw [if_pos hf, if_neg (by omega), if_neg (by omega)]
      have hco : oidContent (a :: b :: rest) =
        UInt8.ofNat (40 * a + b).toNat :: rest.flatMap (fun c => base128 c.toNat) := rfl
      have hm : ((40 * a + b) % 256).toNat = (40 * a + b).toNat := by omega
      rw [hm]
      cases out with
      | nil => simp [oidContent] at hf
      | cons x out =>
        simp only [List.set_cons_zero]
        rw [hco] at hf ⊢
        simp only [List.length_cons, Nat.add_le_add_iff_right] at hf
        have hr' : ∀ c ∈ rest.reverse, 0 ≤ c := fun c hc => (hr c (by simpa using hc)).1
        have key := oidLoop_spec rest.reverse [UInt8.ofNat (40 * a + b).toNat]
          (out.take (rest.flatMap (fun c => base128 c.toNat)).length)
          (out.drop (rest.flatMap (fun c => base128 c.toNat)).length) hr'
          (by rw [List.reverse_reverse, List.length_take]; omega)
        rw [List.append_assoc, List.take_append_drop, List.length_take, Nat.min_eq_left hf,
          List.reverse_reverse] at key
        simp only [List.length_cons, List.length_nil, List.cons_append, List.nil_append] at key
        simp only [List.length_cons]
        rw [show (rest.flatMap fun c => base128 c.toNat).length + 1
          = 0 + 1 + (rest.flatMap fun c => base128 c.toNat).length by omega]
        rw [key]
        simp
        rw [Nat.add_comm 1, List.drop_succ_cons]
    · rw [if_neg hf, if_pos (by omega)]

/-! ## Decoding -/

theorem u64_u64_add (a b : Nat) : u64 (u64 a + b) = u64 (a + b) := by simp [u64]
theorem u64_u64_mul (a b : Nat) : u64 (u64 a * b) = u64 (a * b) := by simp [u64]

theorem decodeOidLoop_spec (bs cur : Bytes) :
    decodeOidLoop (u64 (value128 cur * 128)) bs = (subidentifiers cur bs).map (fun s => wordToInt (value128 s)) := by
  induction bs generalizing cur with
  | nil => rfl
  | cons b rest ih =>
    rw [decodeOidLoop, subidentifiers]
    rw [and_7F, u64_u64_add, ← value128_append]
    by_cases hb : 128 ≤ b.toNat
    · rw [if_pos ((and_80_ne b).mpr hb), if_pos hb, u64_u64_mul]
      exact ih _
    · rw [if_neg (fun h => hb ((and_80_ne b).mp h)), if_neg hb, List.map_cons]
      have := ih []
      simp only [value128, List.foldl_nil, Nat.zero_mul] at this
      rw [show u64 0 = 0 from rfl] at this
      rw [this]
      rfl

theorem subidentifiers_base128 (n : Nat) (cur rest : Bytes) :
    subidentifiers cur (base128Cont n ++ rest) = subidentifiers (cur ++ base128Cont n) rest := by
  induction n using Nat.strongRecOn generalizing cur rest with
  | ind n ih =>
    by_cases h : n = 0
    · simp [h, base128Cont_zero]
    · rw [base128Cont_pos h, List.append_assoc, ih (n / 128) (by omega)]
      simp only [List.singleton_append, subidentifiers]
      rw [if_pos (by rw [toNat_ofNat]; omega)]
      simp

theorem value128_base128Cont (n : Nat) : value128 (base128Cont n) = n := by
  induction n using Nat.strongRecOn with
  | ind n ih =>
    by_cases h : n = 0
    · simp [h, base128Cont_zero, value128]
    · rw [base128Cont_pos h, value128_append, ih (n / 128) (by omega), toNat_ofNat]; omega

theorem value128_base128 (n : Nat) : value128 (base128 n) = n := by
  rw [base128, value128_append, value128_base128Cont, toNat_ofNat]; omega

theorem subidentifiers_flatMap (cs : List Int) :
    subidentifiers [] (cs.flatMap (fun c => base128 c.toNat)) = cs.map (fun c => base128 c.toNat) := by
  induction cs with
  | nil => rfl
  | cons c cs ih =>
    rw [List.flatMap_cons, base128, List.append_assoc, subidentifiers_base128]
    simp only [List.nil_append, List.singleton_append, subidentifiers]
    rw [if_neg (by rw [toNat_ofNat]; omega), ih]
    rfl

theorem decodeOidLoop_zero (bs : Bytes) :
    decodeOidLoop 0 bs = (subidentifiers [] bs).map (fun s => wordToInt (value128 s)) := decodeOidLoop_spec bs []

end FastBer
