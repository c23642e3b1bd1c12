import Verif.Model.Viewer
import Verif.Spec.Viewer
import Verif.Proofs.Json
import Verif.Proofs.Small
import Verif.Proofs.Container
import Verif.Props.Oid
import Verif.Proofs.Integer
/-!
# Lemmas about the printed form of a BER element
-/
namespace FastBer.Viewer
open FastBer FastBer.Spec FastBer.Viewer.Spec FastBer.Json.Spec
set_option linter.unusedSimpArgs false

/-! ## Texts -/

theorem decimal_snoc (d : Bytes) (b : UInt8) : decimal (d ++ [b]) = decimal d * 10 + (b.toNat - 0x30) := by
  induction d with
  | nil => simp [decimal]
  | cons a d ih =>
    simp only [List.cons_append, decimal, ih, List.length_append, List.length_singleton, Nat.pow_succ]
    rw [Nat.add_mul, Nat.mul_assoc, Nat.add_assoc]

theorem digit_toNat (n : Nat) : (Time.digit n).toNat = 48 + n % 10 := by simp [Time.digit]; omega

theorem decDigits_ok (n : Nat) : IntDigits (Time.decDigits n) ∧ decimal (Time.decDigits n) = n ∧
    (0 < n → (Time.decDigits n).head? ≠ some 0x30) := by
  induction n using Nat.strongRecOn with
  | ind n ih =>
    rw [Time.decDigits]
    split
    · rename_i h
      have hd := digit_toNat n
      refine ⟨⟨?_, by simp, .inl rfl⟩, ?_, ?_⟩
      · intro b hb
        simp only [List.mem_singleton] at hb
        subst hb; omega
      · simp [decimal]; omega
      · intro hn he
        simp only [List.head?_cons, Option.some.injEq] at he
        rw [he] at hd
        simp at hd; omega
    · rename_i h
      obtain ⟨⟨h1, h2, _⟩, h4, h5⟩ := ih (n / 10) (by omega)
      have hd := digit_toNat n
      have hh : (Time.decDigits (n / 10) ++ [Time.digit n]).head? ≠ some 0x30 := by
        cases hc : Time.decDigits (n / 10) with
        | nil => exact absurd hc h2
        | cons a t => have := h5 (by omega); rw [hc] at this; simpa using this
      refine ⟨⟨?_, by simp, .inr hh⟩, ?_, fun _ => hh⟩
      · intro b hb
        rcases List.mem_append.mp hb with hb | hb
        · exact h1 b hb
        · simp only [List.mem_singleton] at hb
          subst hb; omega
      · rw [decimal_snoc, h4]; omega

theorem value_nat (n : Nat) : Value (.int n) (showNat n) := by
  have := decDigits_ok n
  have h := Value.nat this.1
  rwa [this.2.1] at h

theorem value_int (n : Int) : Value (.int n) (showInt n) := by
  rw [showInt]
  have := decDigits_ok n.natAbs
  split
  · have h := Value.neg this.1
    rw [this.2.1] at h
    have e : -(n.natAbs : Int) = n := by omega
    rwa [e] at h
  · have h := Value.nat this.1
    rw [this.2.1] at h
    have e : (n.natAbs : Int) = n := by omega
    rwa [e] at h

theorem chars_plain (s : Bytes) (h : ∀ b ∈ s, 0x20 ≤ b.toNat ∧ b ≠ 0x22 ∧ b ≠ 0x5C) : Chars (s.map .octet) s := by
  induction s with
  | nil => exact .nil
  | cons b s ih =>
    obtain ⟨h1, h2, h3⟩ := h b (by simp)
    exact .plain h1 h2 h3 (ih fun c hc => h c (by simp [hc]))

theorem value_str (s : Bytes) (h : ∀ b ∈ s, 0x20 ≤ b.toNat ∧ b ≠ 0x22 ∧ b ≠ 0x5C) :
    Value (str s) (lit "\"" ++ s ++ lit "\"") := .string (chars_plain s h)

theorem value_word (w : String) (h : (lit w).all (fun b => decide (0x20 ≤ b.toNat ∧ b ≠ 0x22 ∧ b ≠ 0x5C)) = true) :
    Value (word w) (lit "\"" ++ lit w ++ lit "\"") := by
  refine value_str _ fun b hb => ?_
  simpa using List.all_eq_true.mp h b hb

theorem chars_lit (w : String) (h : (lit w).all (fun b => decide (0x20 ≤ b.toNat ∧ b ≠ 0x22 ∧ b ≠ 0x5C)) = true) :
    Chars (w.toList.map fun c => .octet (UInt8.ofNat c.toNat)) (lit w) := by
  have := chars_plain (lit w) fun b hb => by simpa using List.all_eq_true.mp h b hb
  rwa [lit, List.map_map] at this

theorem ws_nil : Ws [] := fun _ h => by simp at h
theorem ws_space : Ws [0x20] := fun b h => .inl (by simpa using h)

/-- ` "…": …` as the code writes it, and what comes next. -/
def memberText (k : String) (s next : Bytes) : Bytes :=
  [0x20] ++ 0x22 :: (lit k ++ 0x22 :: ([] ++ 0x3A :: ([0x20] ++ (s ++ next))))

/-- `{ "…": …, "…": … }` as the code writes it. -/
theorem value_object2 {k1 k2 : String} {j1 j2 : Json} {s1 s2 : Bytes}
    (h1 : (lit k1).all (fun b => decide (0x20 ≤ b.toNat ∧ b ≠ 0x22 ∧ b ≠ 0x5C)) = true)
    (h2 : (lit k2).all (fun b => decide (0x20 ≤ b.toNat ∧ b ≠ 0x22 ∧ b ≠ 0x5C)) = true) (v1 : Value j1 s1) (v2 : Value j2 s2) :
    Value (.object [member k1 j1, member k2 j2])
      (0x7B :: (memberText k1 s1 ([] ++ 0x2C :: memberText k2 s2 [0x20]) ++ [0x7D])) :=
  .object (.more ws_space (chars_lit k1 h1) ws_nil ws_space v1 ws_nil
    (.one ws_space (chars_lit k2 h2) ws_nil ws_space v2 ws_space))

theorem value_object3 {k1 k2 k3 : String} {j1 j2 j3 : Json} {s1 s2 s3 : Bytes}
    (h1 : (lit k1).all (fun b => decide (0x20 ≤ b.toNat ∧ b ≠ 0x22 ∧ b ≠ 0x5C)) = true)
    (h2 : (lit k2).all (fun b => decide (0x20 ≤ b.toNat ∧ b ≠ 0x22 ∧ b ≠ 0x5C)) = true)
    (h3 : (lit k3).all (fun b => decide (0x20 ≤ b.toNat ∧ b ≠ 0x22 ∧ b ≠ 0x5C)) = true)
    (v1 : Value j1 s1) (v2 : Value j2 s2) (v3 : Value j3 s3) :
    Value (.object [member k1 j1, member k2 j2, member k3 j3])
      (0x7B :: (memberText k1 s1 ([] ++ 0x2C :: memberText k2 s2 ([] ++ 0x2C :: memberText k3 s3 [0x20])) ++ [0x7D])) :=
  .object (.more ws_space (chars_lit k1 h1) ws_nil ws_space v1 ws_nil
    (.more ws_space (chars_lit k2 h2) ws_nil ws_space v2 ws_nil
      (.one ws_space (chars_lit k3 h3) ws_nil ws_space v3 ws_space)))

/-- Compare two texts made of literals and parts. -/
macro "same_text " h:term : tactic =>
  `(tactic| (refine Eq.mp (congrArg (Value _) ?_) $h; simp [lit, memberText]))

theorem value_class (c : Class) : Value (word (className c)) (lit "\"" ++ showClass c ++ lit "\"") := by
  cases c <;> exact value_word _ (by decide +kernel)

theorem showTag_eq (n : Nat) : ∃ w, showTag n = lit w ∧ (universalNames.lookup n).getD "Unknown Universal Tag" = w ∧
    (lit w).all (fun b => decide (0x20 ≤ b.toNat ∧ b ≠ 0x22 ∧ b ≠ 0x5C)) = true := by
  by_cases h : n ≤ 30
  · have key : ∀ m : Fin 31, ∃ w, showTag (m.val : Nat) = lit w ∧ (universalNames.lookup m.val).getD "Unknown Universal Tag" = w ∧
        (lit w).all (fun b => decide (0x20 ≤ b.toNat ∧ b ≠ 0x22 ∧ b ≠ 0x5C)) = true := by
      intro m
      refine ⟨(universalNames.lookup m.val).getD "Unknown Universal Tag", ?_, rfl, ?_⟩
      · revert m; decide +kernel
      · revert m; decide +kernel
    exact key ⟨n, by omega⟩
  · refine ⟨"Unknown Universal Tag", ?_, ?_, by decide +kernel⟩
    · have hz : ∀ k : Nat, k ≤ 30 → ¬ ((n : Int) = k) := fun k hk e => by omega
      have h0 := hz 0 (by omega); have h1 := hz 1 (by omega); have h2 := hz 2 (by omega); have h3 := hz 3 (by omega)
      simp only [showTag]
      repeat rw [if_neg (by omega)]
    · have : universalNames.lookup n = none := by
        rw [List.lookup_eq_none_iff]
        intro p hp
        have : ∀ p ∈ universalNames, p.1 ≤ 30 := by decide +kernel
        have := this p hp
        simp; omega
      rw [this]; rfl

theorem value_id (c : Class) (n : Nat) : Value (describeTag c n) (showId ⟨c, n⟩) := by
  rw [describeTag, showId]
  by_cases hc : c = .universal
  · rw [if_pos hc]
    dsimp only
    rw [if_pos hc]
    obtain ⟨w, h1, h2, h3⟩ := showTag_eq n
    rw [h1, h2]
    have := value_object2 (k1 := "class") (k2 := "tag") (by decide +kernel) (by decide +kernel) (value_class c) (value_word w h3)
    same_text this
  · rw [if_neg hc]
    dsimp only
    rw [if_neg hc]
    have := value_object2 (k1 := "class") (k2 := "tag") (by decide +kernel) (by decide +kernel) (value_class c) (value_int n)
    same_text this

/-! ## Views -/

theorem fold128_ge (l : Bytes) (a : Nat) : a ≤ l.foldl (fun acc b => acc * 128 + b.toNat % 128) a := by
  induction l generalizing a with
  | nil => simp
  | cons b l ih => exact Nat.le_trans (by omega) (ih (a * 128 + b.toNat % 128))

theorem extractTagLoop_field (mid : Bytes) (last : UInt8) (rest : Bytes) (h : ∀ m ∈ mid, 128 ≤ m.toNat) (hl : last.toNat < 128)
    (i a : Nat) (hv : (mid ++ [last]).foldl (fun acc b => acc * 128 + b.toNat % 128) a < 2 ^ 63) :
    extractTagLoop i ((a * 128 : Nat) : Int) (mid ++ last :: rest) =
      .ok (i + mid.length + 1, (((mid ++ [last]).foldl (fun acc b => acc * 128 + b.toNat % 128) a : Nat) : Int)) := by
  induction mid generalizing i a with
  | nil =>
    simp only [List.nil_append, List.foldl_cons, List.foldl_nil] at hv ⊢
    simp only [extractTagLoop, and_7F, and_80_eq, hl, decide_true, if_true]
    rw [if_neg (by omega)]
    simp
  | cons b mid ih =>
    have hb := h b (by simp)
    simp only [List.cons_append, List.foldl_cons] at hv ⊢
    have hge := fold128_ge (mid ++ [last]) (a * 128 + b.toNat % 128)
    have hge2 : (a * 128 + b.toNat % 128) * 128 ≤ (mid ++ [last]).foldl (fun acc b => acc * 128 + b.toNat % 128) (a * 128 + b.toNat % 128) := by
      cases mid with
      | nil => simp
      | cons c mid =>
        simp only [List.cons_append, List.foldl_cons]
        exact Nat.le_trans (by omega) (fold128_ge _ _)
    simp only [extractTagLoop, and_7F, and_80_eq]
    rw [if_neg (by omega), if_neg (by simp; omega), if_neg (by omega)]
    have e : ((a * 128 : Nat) : Int) + ((b.toNat % 128 : Nat) : Int) = ((a * 128 + b.toNat % 128 : Nat) : Int) := by omega
    rw [e]
    have := ih (fun m hm => h m (by simp [hm])) (i + 1) (a * 128 + b.toNat % 128) hv
    have e2 : ((a * 128 + b.toNat % 128 : Nat) : Int) * 128 = (((a * 128 + b.toNat % 128) * 128 : Nat) : Int) := by omega
    rw [e2, this, List.length_cons]
    congr 2
    omega

theorem getClass_eq (b : UInt8) : getClass b = classOf b := by
  have key : ∀ b : UInt8, getClass b = classOf b := forall_byte (by decide +kernel)
  exact key b

theorem getConstruction_eq (b : UInt8) : getConstruction b = constructionOf b := by
  have key : ∀ b : UInt8, getConstruction b = constructionOf b := forall_byte (by decide +kernel)
  exact key b

theorem extractTag_field {t : Bytes} {c : Class} {k : Construction} {n : Nat} (h : TagField t c k n) (hn : n < 2 ^ 63)
    (rest : Bytes) (tag0 : Int) :
    extractTag (t ++ rest) tag0 = .ok (t.length, (n : Int)) ∧ ∃ b r, t = b :: r ∧ getClass b = c ∧ getConstruction b = k := by
  cases h with
  | @low b hb =>
    refine ⟨?_, b, [], rfl, getClass_eq b, getConstruction_eq b⟩
    simp only [List.singleton_append, extractTag]
    rw [if_pos (fun e => hb ((and_1F_eq b).mp e)), and_1F]
    rfl
  | @high b last mid hb hm hl =>
    refine ⟨?_, b, _, rfl, getClass_eq b, getConstruction_eq b⟩
    have e : b :: (mid ++ [last]) ++ rest = b :: (mid ++ last :: rest) := by simp
    rw [e]
    simp only [extractTag]
    rw [if_neg (fun e => e ((and_1F_eq b).mpr hb))]
    have := extractTagLoop_field mid last rest hm hl 1 0 hn
    rw [Nat.zero_mul] at this
    rw [show (0 : Int) = ((0 : Nat) : Int) from rfl, this]
    simp only [List.length_cons, List.length_append, List.length_singleton, List.length_nil]
    congr 2
    omega

theorem readLength_append {l : Bytes} {n : Nat} (h : LengthField l n) (rest : Bytes) : readLength (l ++ rest) = some (l.length, n) := by
  rw [LengthField] at h
  cases l with
  | nil => simp [readLength] at h
  | cons b r =>
    simp only [readLength, List.cons_append] at h ⊢
    by_cases h1 : b.toNat < 128
    · rw [if_pos h1] at h ⊢; exact h
    · rw [if_neg h1] at h ⊢
      by_cases h2 : 1 ≤ b.toNat - 128 ∧ b.toNat - 128 ≤ 8 ∧ b.toNat - 128 ≤ r.length
      · rw [if_pos h2] at h
        rw [if_pos ⟨h2.1, h2.2.1, by rw [List.length_append]; omega⟩, List.take_append_of_le_length h2.2.2]
        exact h
      · rw [if_neg h2] at h; cases h

/-- What is known of a view of an element. -/
structure Shows (v : BerView) (c : Class) (k : Construction) (n size : Nat) (content : Bytes) : Prop where
  valid : v.valid = true
  cls : v.cls = .ok c
  con : v.construction = .ok k
  tag : v.tag = n
  total : v.berLength = size
  len : v.len = content.length
  holds : v.content = .ok content
  ber : ∃ hd, v.ber = .ok (hd ++ content)
  shorter : content.length < v.mem.length

theorem assign_fields {t l content : Bytes} {c : Class} {k : Construction} {n : Nat} (ht : TagField t c k n)
    (hl : LengthField l content.length) (hn : n < 2 ^ 63) (hs : (t ++ (l ++ content)).length < 2 ^ 64) (rest : Bytes) :
    ∃ v, (∀ tag0, BerView.assign (t ++ (l ++ content) ++ rest) tag0 = .ok v) ∧ v.mem = t ++ (l ++ content) ++ rest ∧
      Shows v c k n (t.length + l.length + content.length) content := by
  have hr := readLength_append hl (content ++ rest)
  obtain ⟨_, b, r, hb, hc, hk⟩ := extractTag_field ht hn (l ++ (content ++ rest)) 0
  have hap : t ++ (l ++ content) ++ rest = t ++ (l ++ (content ++ rest)) := by simp only [List.append_assoc]
  have hlpos : 0 < l.length := by
    cases l with
    | nil => simp [LengthField, readLength] at hl
    | cons => simp
  have htpos : 0 < t.length := by rw [hb]; simp
  simp only [List.length_append] at hs
  refine ⟨⟨true, t ++ (l ++ content) ++ rest, n, t.length + l.length, content.length⟩, ?_, rfl, rfl, ?_, ?_, rfl, ?_, rfl, ?_, ?_, ?_⟩
  · intro tag0
    unfold BerView.assign
    rw [hap, (extractTag_field ht hn (l ++ (content ++ rest)) tag0).1]
    simp only [Exec.ok_bind]
    rw [extractLength_spec _ _ _ (by simp), List.drop_left, hr]
    simp only [Option.getD_some, Exec.ok_bind]
    rw [u64_of_lt (by omega), if_neg]
    simp only [List.length_append]
    omega
  · rw [hb]; exact congrArg Exec.ok hc
  · rw [hb]; exact congrArg Exec.ok hk
  · show u64 (t.length + l.length + content.length) = _
    rw [u64_of_lt (by omega)]
  · rw [BerView.content, if_pos (by simp only [List.length_append]; omega)]
    dsimp only
    rw [hap, ← List.append_assoc, ← List.length_append, List.drop_left, List.take_left]
  · refine ⟨t ++ l, ?_⟩
    have hbl : BerView.berLength ⟨true, t ++ (l ++ content) ++ rest, n, t.length + l.length, content.length⟩
        = (t ++ (l ++ content)).length := by
      show u64 (t.length + l.length + content.length) = _
      rw [u64_of_lt (by omega)]; simp only [List.length_append]; omega
    rw [BerView.ber, hbl, if_pos (by simp)]
    dsimp only
    rw [List.take_left]
    simp
  · simp only [List.length_append]; omega

/-! ## Primitive contents -/

theorem header_single {v : BerView} {c : Class} {k : Construction} {n size : Nat} {content : Bytes} (h : Shows v c k n size content)
    (i : Id) (k' : Construction) : hasCorrectHeader v (.single i) k' = .ok (c == i.cls && ((n : Int) == i.tag) && k == k') := by
  simp [hasCorrectHeader, h.valid, h.cls, h.con, h.tag]

theorem allPrint_eq (h : Host) (hh : ∀ b, 128 ≤ b.toNat → h.high b = .ok false) (s : Bytes) :
    allPrint h s = .ok (decide (Printable s)) := by
  induction s with
  | nil => simp [allPrint, Printable]
  | cons b s ih =>
    simp only [allPrint]
    by_cases hb : b.toNat < 128
    · rw [if_pos hb]
      simp only [Exec.ok_bind]
      by_cases hp : 0x20 ≤ b.toNat ∧ b.toNat ≤ 0x7E
      · simp only [hp, and_self, decide_true, if_true, ih]
        congr 1
        simp [Printable, hp]
      · simp only [hp, decide_false, Bool.false_eq_true, if_false]
        congr 1
        symm
        rw [decide_eq_false_iff_not]
        exact fun hc => hp (hc b (by simp))
    · rw [if_neg hb, hh b (by omega)]
      simp only [Exec.ok_bind, Bool.false_eq_true, if_false]
      congr 1
      symm
      rw [decide_eq_false_iff_not]
      exact fun hc => by have := hc b (by simp); omega

/-- Octets that are shown as text. -/
theorem showString_text {h : Host} (hh : ∀ b, 128 ≤ b.toNat → h.high b = .ok false) {c : Cont} {x : Bytes} (hc : c.content = .ok x)
    (hx : PlainText x) : ∃ s, showString h c = .ok s ∧ Value (describeText x) s := by
  rw [showString, hc]
  simp only [Exec.ok_bind]
  rw [allPrint_eq h hh]
  simp only [Exec.ok_bind, describeText]
  by_cases hp : Printable x
  · refine ⟨_, rfl, ?_⟩
    simp only [hp, decide_true, if_true]
    exact value_str x fun b hb => ⟨(hp b hb).1, hx hp b hb⟩
  · refine ⟨_, rfl, ?_⟩
    simp only [hp, decide_false, Bool.false_eq_true, if_false]
    exact value_word "binary data" (by decide +kernel)

theorem plainId_ok (t : Int) (h : 0 ≤ t ∧ t ≤ 30) : identOk (plainId t) := ⟨h.1, Int.lt_of_le_of_lt h.2 (by decide)⟩

theorem showContent_text {h : Host} (hh : ∀ b, 128 ≤ b.toNat → h.high b = .ok false) {v : BerView} {c : Class} {k : Construction}
    {n size : Nat} {content : Bytes} (hv : Shows v c k n size content) (hlen : content.length < 2 ^ 64 - 64) (hx : PlainText content) :
    ∃ s, showContent h v = .ok s ∧ Value (describeText content) s := by
  rw [showContent, hv.holds]
  simp only [Exec.ok_bind]
  have hid := plainId_ok 4 (by decide)
  have := Ident.encodedLength_lt (plainId 4) content.length
  exact showString_text hh (assignContent_canon hid _ _ (by omega)).content hx

/-- An object of a string type made from the view holds the content. -/
theorem decode_cont {v : BerView} {n size : Nat} {content : Bytes} (hv : Shows v .universal .primitive n size content) (c0 : Cont) :
    ∃ c, Cont.decode (plainId n) c0 v = .ok (true, c) ∧ c.content = .ok content ∧ c.len = content.length := by
  obtain ⟨hd, hb⟩ := hv.ber
  refine ⟨⟨hd ++ content, v.len⟩, ?_, ?_, hv.len⟩
  · rw [Cont.decode, plainId, header_single hv]
    simp [hb, innerView]
  · rw [Cont.content, if_pos (by simp [hv.len])]
    simp only [hv.len, List.length_append, Nat.add_sub_cancel]
    rw [List.drop_left]

theorem showComponents_values (c : Int) (cs : List Int) (w : Bytes) (hw : Ws w) :
    Json.Spec.Elements ((c :: cs).map .int) (w ++ showComponents (c :: cs)) := by
  induction cs generalizing c w with
  | nil =>
    have := Json.Spec.Elements.one hw (value_int c) ws_nil
    simpa [showComponents] using this
  | cons d cs ih =>
    have := Json.Spec.Elements.more hw (value_int c) ws_nil (ih d [0x20] ws_space)
    refine Eq.mp (congrArg (Json.Spec.Elements _) ?_) this
    simp [showComponents, lit]

theorem value_components (cs : List Int) : Value (.array (cs.map .int)) (lit "[" ++ showComponents cs ++ lit "]") := by
  cases cs with
  | nil => exact .emptyArray ws_nil
  | cons c cs => exact .array (showComponents_values c cs [] ws_nil)

theorem showOid_text {v : BerView} {size : Nat} {content : Bytes} (hv : Shows v .universal .primitive 6 size content)
    (hx : (∃ b rest, content = b :: rest ∧ b.toNat < 120) ∧ ∀ s ∈ subidentifiers [] content, value128 s < 2 ^ 63) :
    ∃ s, showOid v = .ok s ∧ Value (.array ((oidComponents content).map .int)) s := by
  obtain ⟨c, h1, h2, _⟩ := decode_cont hv (Cont.default (plainId 6))
  obtain ⟨⟨b, rest, rfl, hb⟩, hs⟩ := hx
  have hs' : ∀ s ∈ subidentifiers [] rest, value128 s < 2 ^ 63 := by
    intro s h
    apply hs
    rw [subidentifiers, if_neg (by omega)]
    exact List.mem_cons_of_mem _ h
  refine ⟨_, ?_, value_components _⟩
  rw [showOid]
  have h1 : Cont.decode (plainId 6) (Cont.default (plainId 6)) v = .ok (true, c) := h1
  rw [h1]
  simp only [Exec.ok_bind, Oid.value, h2]
  rw [Props.C64_decode_x690_partial b rest hb hs']

theorem showInteger_text {v : BerView} {size : Nat} {content : Bytes} (hv : Shows v .universal .primitive 2 size content)
    (hx : 1 ≤ content.length ∧ content.length ≤ 8) : showInteger v = .ok (showInt (twosComplement content)) := by
  have hid := plainId_ok 2 (by decide)
  have hi : v.identifier = .ok ⟨.universal, 2⟩ := by rw [BerView.identifier, hv.cls, Exec.ok_bind, hv.tag]; rfl
  have hm : Matches v (plainId 2) .primitive v := ⟨hv.valid, hi, hv.con, rfl⟩
  obtain ⟨d, h1, h2⟩ := (SmallWf.init hid 8).decode_match hid (by omega) hm hv.holds hv.len.symm (by rw [hv.len]; omega)
  rw [showInteger, Integer.decode, h1]
  simp only [Exec.ok_bind, Integer.value]
  rw [h2.content hid (by omega)]
  simp only [Exec.ok_bind]
  rw [decodeInteger_eq, if_pos hx]

/-- Every ENUMERATED is shown as 0. -/
theorem showInteger_enumerated {v : BerView} {n size : Nat} {content : Bytes} (hv : Shows v .universal .primitive n size content)
    (hn : n ≠ 2) : showInteger v = .ok (showInt 0) := by
  have hid := plainId_ok 2 (by decide)
  have hh := header_single hv ⟨.universal, 2⟩ .primitive
  have hne : ((n : Int) == 2) = false := by simp; omega
  rw [showInteger, Integer.decode, Small.decode, plainId, hh, hne]
  simp only [Bool.and_false, Bool.false_and, Exec.ok_bind, Bool.not_false, if_true, Integer.value]
  have := (SmallWf.init hid 8).content hid (by omega)
  rw [plainId] at this
  rw [this]
  simp only [Exec.ok_bind]
  rw [decodeInteger_eq]
  rfl

theorem showBoolean_text {v : BerView} {size : Nat} {content : Bytes} (hv : Shows v .universal .primitive 1 size content)
    (hx : content.length = 1) : showBoolean v = .ok (if content = [0] then lit "false" else lit "true") := by
  obtain ⟨b, rfl⟩ := List.length_eq_one_iff.mp hx
  have hid := plainId_ok 1 (by decide)
  have hh := header_single hv ⟨.universal, 1⟩ .primitive
  rw [showBoolean, Boolean.decode, plainId, hh]
  simp only [innerView, Exec.ok_bind, hv.len, hv.holds]
  simp only [beq_self_eq_true, Bool.and_self, Bool.not_true, Bool.false_eq_true, if_false, List.length_singleton, if_true,
    Exec.ok_bind, List.headD_cons]
  have e : Boolean.default (.single ⟨.universal, 1⟩) = [0x01, 0x01, 0x00] := by decide +kernel
  have : ((1 : Nat) : Int) == 1 := by decide
  simp only [this, Bool.and_self, Bool.true_and, Bool.not_true, Bool.false_eq_true, if_false, Exec.ok_bind, e]
  simp only [Boolean.setBack, Boolean.value, List.length_cons, List.length_nil]
  by_cases hb : b = 0
  · subst hb; rfl
  · simp [hb]

theorem showNull_text {v : BerView} {size : Nat} {content : Bytes} (hv : Shows v .universal .primitive 5 size content) :
    showNull v = .ok (lit "null") := by
  have hh := header_single hv ⟨.universal, 5⟩ .primitive
  rw [showNull, Null.decode, plainId, hh]
  simp [innerView]

theorem describeContent_other {n : Nat} (h : n ≠ 1 ∧ n ≠ 2 ∧ n ≠ 5 ∧ n ≠ 6 ∧ n ≠ 10) (content : Bytes) :
    describeContent .universal n content = describeText content := by
  obtain ⟨h1, h2, h3, h4, h5⟩ := h
  simp only [describeContent, if_true]

theorem showable_other {n : Nat} {content : Bytes}
    (h : n ≠ 1 ∧ n ≠ 2 ∧ n ≠ 5 ∧ n ≠ 6 ∧ n ≠ 9 ∧ n ≠ 10 ∧ n ≠ 23 ∧ n ≠ 24) (hx : Showable .universal n content) : PlainText content := by
  obtain ⟨h1, h2, h3, h4, h5, h6, h7, h8⟩ := h
  simp only [Showable, if_true] at hx
  exact hx

/-- The content of a primitive element. -/
theorem showPrimitive_text {h : Host} (hh : ∀ b, 128 ≤ b.toNat → h.high b = .ok false) {v : BerView} {c : Class} {n size : Nat}
    {content : Bytes} (hv : Shows v c .primitive n size content) (hlen : content.length < 2 ^ 64 - 64) (hx : Showable c n content) :
    ∃ s, showPrimitive h v = .ok s ∧ Value (describeContent c n content) s := by
  rw [showPrimitive, hv.cls]
  simp only [Exec.ok_bind]
  by_cases hc : c = .universal
  · subst hc
    simp only [if_true]
    rw [hv.tag]
    by_cases h1 : n = 1
    · subst h1
      rw [if_pos (by decide), showBoolean_text hv hx]
      refine ⟨_, rfl, ?_⟩
      show Value (.bool (decide (content ≠ [0]))) _
      by_cases hb : content = [0]
      · subst hb; exact .false
      · simp only [hb, if_false, ne_eq, not_false_eq_true, decide_true]; exact .true
    rw [if_neg (by omega)]
    by_cases h2 : n = 2
    · subst h2
      rw [if_pos (by decide), showInteger_text hv hx]
      exact ⟨_, rfl, value_int _⟩
    rw [if_neg (by omega)]
    by_cases h5 : n = 5
    · subst h5
      rw [if_pos (by decide), showNull_text hv]
      exact ⟨_, rfl, .null⟩
    rw [if_neg (by omega)]
    by_cases h6 : n = 6
    · subst h6
      rw [if_pos (by decide)]
      exact showOid_text hv hx
    rw [if_neg (by omega)]
    by_cases h9 : n = 9
    · subst h9; exact hx.elim
    rw [if_neg (by omega)]
    by_cases h10 : n = 10
    · subst h10
      rw [if_pos (by decide), showInteger_enumerated hv (by decide)]
      have hx : twosComplement content = 0 := hx
      refine ⟨_, rfl, ?_⟩
      show Value (.int (twosComplement content)) _
      rw [hx]
      exact value_int 0
    rw [if_neg (by omega)]
    by_cases h23 : n = 23
    · subst h23; exact hx.elim
    by_cases h24 : n = 24
    · subst h24; exact hx.elim
    rw [if_neg (by omega)]
    have hx := showable_other ⟨h1, h2, h5, h6, h9, h10, h23, h24⟩ hx
    rw [describeContent_other ⟨h1, h2, h5, h6, h10⟩]
    split
    · obtain ⟨cc, e1, e2, _⟩ := decode_cont hv (Cont.default (plainId n))
      rw [showStringOf, e1]
      exact showString_text hh e2 hx
    · exact showContent_text hh hv hlen hx
  · simp only [Showable, describeContent, hc, if_false] at hx ⊢
    exact showContent_text hh hv hlen hx

/-! ## Elements -/

/-- The texts of the children, as the loop writes them. -/
def joined (first : Bool) : List Bytes → Bytes
  | [] => []
  | s :: ss => (if first then [] else lit ", ") ++ s ++ joined false ss

/-- Each text is for the value at the same place. -/
inductive Each : List Json → List Bytes → Prop
  | nil : Each [] []
  | cons {j s js ss} : Value j s → Each js ss → Each (j :: js) (s :: ss)

theorem joined_values {j : Json} {js : List Json} {s : Bytes} {ss : List Bytes} (hs : Value j s)
    (h : Each js ss) (w : Bytes) (hw : Ws w) : Json.Spec.Elements (j :: js) (w ++ (s ++ joined false ss)) := by
  induction h generalizing j s w with
  | nil => exact Eq.mp (congrArg (Json.Spec.Elements _) (by simp [joined])) (Json.Spec.Elements.one hw hs ws_nil)
  | @cons j' s' js ss h1 _ ih =>
    have := Json.Spec.Elements.more hw hs ws_nil (ih h1 [0x20] ws_space)
    exact Eq.mp (congrArg (Json.Spec.Elements _) (by simp [joined, lit])) this

theorem value_joined {js : List Json} {ss : List Bytes} (h : Each js ss) :
    Value (.array js) (lit "[" ++ joined true ss ++ lit "]") := by
  cases h with
  | nil => exact .emptyArray ws_nil
  | cons h1 h2 => exact .array (joined_values h1 h2 [] ws_nil)

set_option linter.unusedVariables false in
mutual
theorem showView_element {h : Host} (hh : ∀ b, 128 ≤ b.toNat → h.high b = .ok false) {s : Bytes} {x : Tlv} (he : Element s x)
    (hx : AllShowable x) (hs : s.length < 2 ^ 64 - 64) (rest : Bytes) :
    ∃ v out, (∀ tag0, BerView.assign (s ++ rest) tag0 = .ok v) ∧ v.valid = true ∧ v.berLength = s.length ∧ v.mem = s ++ rest ∧
      showView h v = .ok out ∧ Value (describe x) out := by
  match he with
  | .primitive (t := t) (l := l) (content := content) (c := c) (n := n) ht hl =>
    rw [AllShowable] at hx
    obtain ⟨v, hv, hm, hw⟩ := assign_fields ht hl hx.1 (by omega) rest
    obtain ⟨body, hb, hval⟩ := showPrimitive_text hh hw (by simp only [List.length_append] at hs; omega) hx.2
    refine ⟨v, (lit "{ \"length\": " ++ showNat (t.length + l.length + content.length) ++ lit ", \"identifier\": " ++ showId ⟨c, n⟩ ++
      lit ", \"content\": " ++ body ++ lit " }"), hv, hw.valid, ?_, hm, ?_, ?_⟩
    · rw [hw.total]; simp only [List.length_append]; omega
    · rw [showView, if_neg (by rw [hw.valid]; decide)]
      simp only [BerView.identifier, hw.cls, hw.con, hw.tag, hw.total, Exec.ok_bind, hb]
    · have := value_object3 (k1 := "length") (k2 := "identifier") (k3 := "content") (by decide +kernel) (by decide +kernel)
        (by decide +kernel) (value_nat (t.length + l.length + content.length)) (value_id c n) hval
      rw [describe]
      same_text this
  | .constructed (t := t) (l := l) (content := content) (c := c) (n := n) (items := items) ht hl hi =>
    rw [AllShowable] at hx
    obtain ⟨v, hv, hm, hw⟩ := assign_fields ht hl hx.1 (by omega) rest
    obtain ⟨ss, hf, hb⟩ := showChildren_elements hh hi hx.2 (by simp only [List.length_append] at hs; omega)
    refine ⟨v, (lit "{ \"length\": " ++ showNat (t.length + l.length + content.length) ++ lit ", \"identifier\": " ++ showId ⟨c, n⟩ ++
      lit ", \"content\": " ++ (lit "[" ++ joined true ss ++ lit "]") ++ lit " }"), hv, hw.valid, ?_, hm, ?_, ?_⟩
    · rw [hw.total]; simp only [List.length_append]; omega
    · rw [showView, if_neg (by rw [hw.valid]; decide)]
      simp only [BerView.identifier, hw.cls, hw.con, hw.tag, hw.total, Exec.ok_bind, hw.holds]
      rw [dif_pos hw.shorter, hb 0 true]
      simp only [Exec.ok_bind]
    · have := value_object3 (k1 := "length") (k2 := "identifier") (k3 := "content") (by decide +kernel) (by decide +kernel)
        (by decide +kernel) (value_nat (t.length + l.length + content.length)) (value_id c n) (value_joined hf)
      rw [describe]
      same_text this
theorem showChildren_elements {h : Host} (hh : ∀ b, 128 ≤ b.toNat → h.high b = .ok false) {s : Bytes} {xs : List Tlv}
    (he : Spec.Elements s xs) (hx : AllShowableIn xs) (hs : s.length < 2 ^ 64 - 64) :
    ∃ ss, Each (describeAll xs) ss ∧ ∀ tag0 first, showChildren h s tag0 first = .ok (joined first ss) := by
  match he with
  | .nil =>
    refine ⟨[], by simp only [describeAll]; exact .nil, fun tag0 first => ?_⟩
    have : BerView.assign [] tag0 = .ok (BerView.invalid tag0) := by simp [BerView.assign, extractTag, extractLength]
    rw [showChildren, this]
    rfl
  | .cons (s := s1) (x := x) (rest := rest) (xs := xs') h1 h2 =>
    rw [AllShowableIn] at hx
    simp only [List.length_append] at hs
    obtain ⟨ss, hf, hb⟩ := showChildren_elements hh h2 hx.2 (by omega)
    have hpos : 0 < s1.length := element_pos h1
    obtain ⟨v, out, hv, hval, hbl, hm, hsv, hout⟩ := showView_element hh h1 hx.1 (by omega) rest
    refine ⟨out :: ss, by simp only [describeAll]; exact .cons hout hf, fun tag0 first => ?_⟩
    rw [showChildren, hv tag0]
    dsimp only
    rw [if_pos hval, dif_pos ⟨by omega, by simp only [List.length_append]; omega, by rw [hm]⟩, hsv]
    simp only [Exec.ok_bind]
    rw [hbl, List.drop_left, hb v.tag false]
    rfl
theorem element_pos {s : Bytes} {x : Tlv} (he : Element s x) : 0 < s.length := by
  have tp : ∀ {t : Bytes} {c : Class} {k : Construction} {n : Nat}, TagField t c k n → 0 < t.length := by
    intro t c k n h; cases h <;> simp
  match he with
  | .primitive ht _ => have := tp ht; simp only [List.length_append]; omega
  | .constructed ht _ _ => have := tp ht; simp only [List.length_append]; omega
end

end FastBer.Viewer
