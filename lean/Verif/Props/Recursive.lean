import Verif.Proofs.RecursiveWF
import Verif.Props.Schema
/-!
# C90, C91: recursive types

C90: values of recursive ASN.1 types, of any depth, are constructed, encoded, compared and read back like values of other types.
C91: decoding a recursive type returns for every input, with a call depth bounded by the length of the input; the input decides
how deep.
-/
namespace FastBer.Props
open FastBer.Spec

variable {ι : Type} {E : FastBer.REnv ι}

/-! ## Types of testfiles/circular.asn -/

/-- testfiles/circular.asn, without `CircularChoice1`/`CircularChoice2` (a mandatory component that is an untagged CHOICE, see
`C44_violated_choice`): 0 CircularSequence1, 1 CircularSequence2, 2 CircularSequenceOf1, 3 CircularSequenceOf2,
4 SelfReference, 5 SelfReference with the tag `[1]`. -/
def circular : FastBer.REnv Nat
  | 0 => .seq (univ 16) (.cons .mandatory [⟨.universal, 4⟩] (.leaf .str (univ 4)) <|
      .cons .optional [⟨.universal, 16⟩] (.ref 1) .nil)
  | 1 => .seq (univ 16) (.cons .mandatory [⟨.universal, 16⟩] (.ref 0) .nil)
  | 2 => .seq (univ 16) (.cons .mandatory [⟨.universal, 16⟩] (.ref 3) .nil)
  | 3 => .seqOf (univ 16) (.ref 2)
  | 4 => .choice (.untagged [⟨.contextSpecific, 0⟩, ⟨.contextSpecific, 1⟩])
      (.cons [⟨.contextSpecific, 0⟩] (.leaf .str (ctx 0)) <| .cons [⟨.contextSpecific, 1⟩] (.ref 5) .nil)
  | _ => .choice (.tagged (ctx 1))
      (.cons [⟨.contextSpecific, 0⟩] (.leaf .str (ctx 0)) <| .cons [⟨.contextSpecific, 1⟩] (.ref 5) .nil)

theorem circular_cases {P : Nat → Prop} (h0 : P 0) (h1 : P 1) (h2 : P 2) (h3 : P 3) (h4 : P 4) (h5 : ∀ n, P (n + 5)) : ∀ n, P n
  | 0 => h0
  | 1 => h1
  | 2 => h2
  | 3 => h3
  | 4 => h4
  | n + 5 => h5 n

theorem circular_ok : circular.Ok where
  wf := by
    refine circular_cases ?_ ?_ ?_ ?_ ?_ fun n => ?_ <;>
    simp [REnv.one, circular, RTy.close, RFields.close, RAlts.close, REnv.stub, RTy.ids, Ty.WF, Fields.WF, Alts.WF, univ, ctx, identOk,
      idOk, Alts.outer, Ty.outer, Ident.outer]
  proper := by refine circular_cases ?_ ?_ ?_ ?_ ?_ fun n => ?_ <;> simp [circular]
  defaults := by refine circular_cases ?_ ?_ ?_ ?_ ?_ fun n => ?_ <;> simp [circular, RTy.Defaults, RFields.Defaults, RAlts.Defaults]
  grounded := by
    refine ⟨fun n => if n = 4 then 1 else 0, 1, fun n => by dsimp only; split <;> omega, ?_⟩
    refine circular_cases ?_ ?_ ?_ ?_ ?_ fun n => ?_ <;> simp [circular, RTy.heads, RAlts.heads]
  constructible := by
    refine ⟨3, circular_cases ?_ ?_ ?_ ?_ ?_ fun n => ?_⟩ <;> exact ⟨_, rfl⟩

theorem circular_unamb : ∀ n, (circular.one n).Unamb := by
  refine circular_cases ?_ ?_ ?_ ?_ ?_ fun n => ?_ <;>
  simp [REnv.one, circular, RTy.close, RFields.close, RAlts.close, REnv.stub, RTy.ids, Ty.Unamb, Fields.SeqUnamb, Fields.AllUnamb,
    Alts.Unamb, Alts.AllUnamb, Fields.firsts, Alts.labels, Ty.outer, univ, ctx, Ident.outer]

theorem circular_guarded : ∀ n, (circular.one n).Guarded := by
  refine circular_cases ?_ ?_ ?_ ?_ ?_ fun n => ?_ <;>
  simp [REnv.one, circular, RTy.close, RFields.close, RAlts.close, REnv.stub, RTy.ids, Ty.Guarded, Fields.SeqGuarded, Alts.Guarded,
    Ty.isUntaggedChoice]

theorem circular_leaves {P : Leaf → Prop} (h : P .str) (h' : P .null) : ∀ n, (circular.one n).Leaves P := by
  refine circular_cases ?_ ?_ ?_ ?_ ?_ fun n => ?_ <;>
  simp [REnv.one, circular, RTy.close, RFields.close, RAlts.close, REnv.stub, RTy.ids, Ty.Leaves, Fields.Leaves, Alts.Leaves, h, h']

/-! ## C90 -/

/-- C90: default construction returns, with an object that holds a value. -/
theorem C90_new (h : E.Ok) (n : ι) : ∃ o, Returns (E.new n) (.ok o) ∧ E.Holds n o := by
  obtain ⟨K, hK⟩ := h.new_eq
  obtain ⟨o, x, e, ho, hr, _⟩ := ((E.unfold E.stub K n).encLaws (h.unfold_wf K n)).init
  have hKo : E.new n K = .ok o := (hK K (Nat.le_refl _) n).1.trans ho
  refine ⟨o, ⟨K, fun k hk => ((hK k hk n).2).trans hKo⟩, ?_⟩
  have hk : K ≤ max K (sizeOf o) := by omega
  obtain ⟨o', x', e', ho', hr', _⟩ := ((E.unfold E.stub (max K (sizeOf o)) n).encLaws (h.unfold_wf _ n)).init
  have : o' = o := by
    have h1 := (hK _ hk n).1
    rw [(hK _ hk n).2, hKo] at h1
    have h2 := h1.trans ho'
    simp only [Exec.ok.injEq] at h2
    exact h2.symm
  subst this
  exact ⟨x', e', REnv.rep_of_unfold h.proper (by omega) hr'⟩

/-- C90: an object that holds a value, however deep, is encoded: `encoded_length` is the length of its encoding, `encode` into a
large enough buffer writes exactly the encoding, `encode` into any smaller buffer fails without writing beyond it. -/
theorem C90_encode (h : E.Ok) {n : ι} {o : Obj} {x : Val} {e : Bytes} (ho : E.Rep n o x e) (hl : e.length < 2 ^ 64) (buf : Bytes) :
    Returns (E.encodedLength n o) e.length ∧
    (e.length ≤ buf.length → Returns (E.encode n o buf) (.ok (⟨true, e.length⟩, e ++ buf.drop e.length))) ∧
    (buf.length < e.length → ∃ buf', Returns (E.encode n o buf) (.ok (⟨false, 0⟩, buf')) ∧ buf'.length = buf.length) := by
  obtain ⟨K, hK⟩ := ho.unfold E.stub
  have key : ∀ k, max K (sizeOf o) ≤ k → E.encodedLength n o k = e.length ∧
      (∀ buf, E.encode n o buf k = (E.unfold E.stub k n).encode o buf) ∧ Writes ((E.unfold E.stub k n).encode o) e := by
    intro k hk
    obtain ⟨h1, h2⟩ := h.encode_eq n (o := o) (k := k) (by omega)
    have hlaw := (E.unfold E.stub k n).encLaws (h.unfold_wf k n)
    have hr := hK k (by omega)
    exact ⟨h1.trans (hlaw.size hr hl), h2, hlaw.writes hr hl⟩
  refine ⟨⟨max K (sizeOf o), fun k hk => (key k hk).1⟩, fun hb => ⟨max K (sizeOf o), fun k hk => ?_⟩, fun hb => ?_⟩
  · obtain ⟨_, h2, h3⟩ := key k hk
    rw [h2]; exact h3.1 buf hb
  · obtain ⟨_, h2, h3⟩ := key _ (Nat.le_refl _)
    obtain ⟨buf', h4, h5⟩ := h3.2 buf hb
    refine ⟨buf', ⟨max K (sizeOf o), fun k hk => ?_⟩, h5⟩
    have := ((REnv.same_enc h.proper h.defaults (fun m => stuck (E m).ids) (fun m => stuck (E m).ids) (sizeOf o) n k
      (max K (sizeOf o)) (by omega) (by omega)).1 o (Nat.le_refl _)).2 buf
    refine Eq.trans this ?_
    exact (h2 buf).trans h4

/-- C90: what `encode` wrote, followed by anything, is read back into any object of the type: the same value, with the same encoding,
equal to the original if the original is equal to itself. -/
theorem C90_round_trip (h : E.Ok) (hu : ∀ n, (E.one n).Unamb) {n : ι} {o : Obj} {x : Val} {e : Bytes} (ho : E.Rep n o x e)
    (hv : E.Valid n x) (hl : e.length < 2 ^ 64) {buf : Bytes} (hb : e.length ≤ buf.length) {o0 : Obj} (h0 : E.Holds n o0)
    (suffix : Bytes) :
    ∃ buf' o', Returns (E.encode n o buf) (.ok (⟨true, e.length⟩, buf')) ∧
      Returns (E.decode n o0 (buf'.take e.length ++ suffix)) (.ok (true, o')) ∧ E.Rep n o' x e ∧
      (Returns (E.equal n o' o) (.ok true) ↔ Returns (E.equal n o o) (.ok true)) := by
  have henc := (C90_encode h ho hl buf).2.1 hb
  refine ⟨e ++ buf.drop e.length, ?_⟩
  simp only [henc, true_and, List.take_left]
  obtain ⟨x0, e0, h0⟩ := h0
  obtain ⟨K1, hK1⟩ := ho.unfold E.stub
  obtain ⟨K2, hK2⟩ := h0.unfold E.stub
  obtain ⟨K3, hK3⟩ := h.decode_eq n (e ++ suffix).length
  have key : ∀ k, max (max K1 K2) K3 ≤ k → ∃ o', E.decode n o0 (e ++ suffix) K3 = .ok (true, o') ∧ (E.unfold E.stub k n).Rep o' x e := by
    intro k hk
    have h1 := ((E.unfold E.stub k n).encLaws (h.unfold_wf k n)).writes (hK1 k (by omega)) hl
    obtain ⟨o', h2, h3, _⟩ := C33_round_trip_partial (E.unfold E.stub k n) (h.unfold_wf k n) (h.unfold_unamb hu k n) (hK1 k (by omega))
      (hv.unfold k) hl buf (h1.1 buf hb) rfl ⟨x0, e0, hK2 k (by omega)⟩ suffix
    rw [List.take_left] at h2
    exact ⟨o', (hK3 K3 (Nat.le_refl _) k (by omega) _ (Nat.le_refl _) _).trans h2, h3⟩
  obtain ⟨o', h1, _⟩ := key _ (Nat.le_refl _)
  have hrep : ∀ k, max (max K1 K2) K3 ≤ k → (E.unfold E.stub k n).Rep o' x e := by
    intro k hk
    obtain ⟨o'', h2, h3⟩ := key k hk
    rw [h1] at h2
    simp only [Exec.ok.injEq, Prod.mk.injEq, true_and] at h2
    rw [h2]; exact h3
  refine ⟨o', ⟨K3, fun k hk => ?_⟩, REnv.rep_of_unfold h.proper (k := max (max (max K1 K2) K3) (sizeOf o')) (by omega) (hrep _ (by omega)), ?_⟩
  · rw [hK3 k hk K3 (Nat.le_refl _) _ (Nat.le_refl _), ← hK3 K3 (Nat.le_refl _) K3 (Nat.le_refl _) _ (Nat.le_refl _), h1]
  · have heq : ∀ k, max (max (max K1 K2) K3) (max (sizeOf o) (sizeOf o')) ≤ k →
        (E.equal n o' o k = .ok true ↔ E.equal n o o k = .ok true) := by
      intro k hk
      rw [h.equal_eq n (a := o') (b := o) (by omega) (by omega), h.equal_eq n (a := o) (b := o) (by omega) (by omega)]
      exact ((E.unfold E.stub k n).eqIff (h.unfold_wf k n) (hrep k (by omega)) (hK1 k (by omega))).trans
        ((E.unfold E.stub k n).eqIff (h.unfold_wf k n) (hK1 k (by omega)) (hK1 k (by omega))).symm
    constructor
    · rintro ⟨K, hK⟩
      exact ⟨max K (max (max (max K1 K2) K3) (max (sizeOf o) (sizeOf o'))), fun k hk => (heq k (by omega)).mp (hK k (by omega))⟩
    · rintro ⟨K, hK⟩
      exact ⟨max K (max (max (max K1 K2) K3) (max (sizeOf o) (sizeOf o'))), fun k hk => (heq k (by omega)).mpr (hK k (by omega))⟩

/-- C90: `==` of two objects that hold values returns, and says whether the values are equal (for leaf types whose comparison
does). -/
theorem C90_equal (h : E.Ok) (hc : ∀ n, (E.one n).Leaves leafCmpTotal) {n : ι} {a b : Obj} {x y : Val} {e f : Bytes}
    (ha : E.Rep n a x e) (hb : E.Rep n b y f) : ∃ r, Returns (E.equal n a b) (.ok r) ∧ (r = true ↔ E.Same n x y) := by
  obtain ⟨K1, hK1⟩ := ha.unfold E.stub
  obtain ⟨K2, hK2⟩ := hb.unfold E.stub
  have hlaw : ∀ k, max (max K1 K2) (max (max (sizeOf a) (sizeOf b)) (max (sizeOf x) (sizeOf y))) ≤ k →
      ∃ r, E.equal n a b k = .ok r ∧ (r = true ↔ E.Same n x y) := by
    intro k hk
    obtain ⟨r, h1, h2⟩ := (E.unfold E.stub k n).eqLaw (h.unfold_wf k n) (REnv.unfold_leaves h.proper (by trivial) hc k n)
      (hK1 k (by omega)) (hK2 k (by omega))
    refine ⟨r, (h.equal_eq n (a := a) (b := b) (by omega) (by omega)).trans h1, h2.trans (h.same_iff n x y (k := k) (by omega) (by omega)).symm⟩
  obtain ⟨r, h1, h2⟩ := hlaw _ (Nat.le_refl _)
  refine ⟨r, ⟨max (max K1 K2) (max (max (sizeOf a) (sizeOf b)) (max (sizeOf x) (sizeOf y))), fun k hk => ?_⟩, h2⟩
  obtain ⟨r', h3, h4⟩ := hlaw k hk
  have : r' = r := by
    have := h4.trans h2.symm
    cases r <;> cases r' <;> simp_all
  rw [h3, this]

/-! ## C91 -/

/-- C91: nothing is called at a depth beyond a fixed multiple of the length of the input: for every input and every object, the code
that would be called there makes no difference. -/
theorem C91_depth (h : E.Ok) : ∃ c, ∀ (n : ι) (bs : Bytes) (v : BerView) (o : Obj) (k k' : Nat), BerView.parse bs = .ok v →
    c * (bs.length + 1) ≤ k → c * (bs.length + 1) ≤ k' →
    ∀ beyond beyond' : ι → Codec, (∀ m, (beyond m).ids = (E m).ids) → (∀ m, (beyond' m).ids = (E m).ids) →
    (E.approx beyond k n).decode o v = (E.approx beyond' k' n).decode o v := by
  obtain ⟨K, hK⟩ := h.constructible
  obtain ⟨rank, R, hR, hrank⟩ := h.grounded
  refine ⟨K + R + 2, fun n bs v o k k' hv hk hk' b b' hb hb' => ?_⟩
  obtain ⟨h1, h2⟩ := Parsed.of_assign hv
  have hle : REnv.bound K R bs.length R ≤ (K + R + 2) * (bs.length + 1) := by
    have h3 : (K + R + 2) * (bs.length + 1) = (R + 1) * bs.length + (K + 1) * bs.length + (K + R + 2) := by
      have : K + R + 2 = (R + 1) + (K + 1) := by omega
      rw [Nat.mul_add, Nat.mul_one]
      conv => lhs; rw [this, Nat.add_mul]
      omega
    unfold REnv.bound
    rw [h3, Nat.mul_comm bs.length]
    omega
  exact REnv.same_dec h.proper hK hR hrank hb hb' bs.length R n (hR n) k k' (by omega) (by omega) v h1 (by omega) o

/-- C91: so the call returns if it does with that depth, with the same result. -/
theorem C91_returns (h : E.Ok) : ∃ c, ∀ (n : ι) (bs : Bytes) (o : Obj),
    Returns (E.decode n o bs) (E.decode n o bs (c * (bs.length + 1))) := by
  obtain ⟨c, hc⟩ := C91_depth h
  refine ⟨c, fun n bs o => ⟨c * (bs.length + 1), fun k hk => ?_⟩⟩
  unfold REnv.decode
  cases hp : BerView.parse bs with
  | ub => rfl
  | loop => rfl
  | ok v => exact hc n bs v o k _ hp hk (Nat.le_refl _) _ _ (fun _ => rfl) (fun _ => rfl)

theorem decode_unfold (h : E.Ok) {n : ι} {o0 : Obj} (h0 : E.Holds n o0) (bs : Bytes) : ∃ K, ∀ k, K ≤ k →
    (E.unfold E.stub k n).Holds o0 ∧ ∀ a, (E.unfold E.stub k n).decode o0 bs = a → Returns (E.decode n o0 bs) a := by
  obtain ⟨x0, e0, h0⟩ := h0
  obtain ⟨K2, hK2⟩ := h0.unfold E.stub
  obtain ⟨K3, hK3⟩ := h.decode_eq n bs.length
  refine ⟨max K2 K3, fun k hk => ⟨⟨x0, e0, hK2 k (by omega)⟩, fun a ha => ⟨max K2 K3, fun j hj => ?_⟩⟩⟩
  exact (hK3 j (by omega) k (by omega) bs (Nat.le_refl _) o0).trans ha

theorem _root_.FastBer.Returns.unique {α : Type} {f : Nat → α} {a b : α} (h1 : Returns f a) (h2 : Returns f b) : a = b := by
  obtain ⟨K, hK⟩ := h1
  obtain ⟨L, hL⟩ := h2
  rw [← hK (max K L) (by omega), ← hL (max K L) (by omega)]

/-- C91: with a call stack that is large enough, decoding any input into any object returns, and leaves an object that holds a value.
As in C44: no mandatory component is an untagged CHOICE, the input has no length or tag number near 2^64, and the input of an untagged
CHOICE begins with an element. -/
theorem C91_decode_safe_partial (h : E.Ok) (hg : ∀ n, (E.one n).Guarded) {n : ι} {bs : Bytes} (hs : Sane bs)
    (hc : (E.one n).isUntaggedChoice → StartsElement bs) {o0 : Obj} (h0 : E.Holds n o0) :
    ∃ r o', Returns (E.decode n o0 bs) (.ok (r, o')) ∧ E.Holds n o' := by
  obtain ⟨K, hK⟩ := decode_unfold h h0 bs
  have key : ∀ k, K ≤ k → ∃ r o', Returns (E.decode n o0 bs) (.ok (r, o')) ∧ (E.unfold E.stub k n).Holds o' := by
    intro k hk
    obtain ⟨h1, h2⟩ := hK k hk
    obtain ⟨r, o', h3, h4⟩ := C44_decode_safe_partial (E.unfold E.stub k n) (h.unfold_wf k n) (REnv.unfold_guarded h.proper hg k n) hs
      (fun hu => hc ((REnv.unfold_untagged h.proper k n).mp hu)) h1
    exact ⟨r, o', h2 _ h3, h4⟩
  obtain ⟨r, o', h1, _⟩ := key K (Nat.le_refl _)
  refine ⟨r, o', h1, ?_⟩
  obtain ⟨r', o'', h2, x, e, h3⟩ := key (max K (sizeOf o')) (by omega)
  have := Returns.unique h1 h2
  simp only [Exec.ok.injEq, Prod.mk.injEq] at this
  obtain ⟨_, rfl⟩ := this
  exact ⟨x, e, REnv.rep_of_unfold h.proper (by omega) h3⟩

/-- C91: decoding succeeds exactly if the input begins with an element that encodes a value of the type in some BER form, and then the
object holds such a value. -/
theorem C91_decode_iff_reads (h : E.Ok) (hu : ∀ n, (E.one n).Unamb) (hg : ∀ n, (E.one n).Guarded) {n : ι} {bs : Bytes} (hs : Sane bs)
    (hc : (E.one n).isUntaggedChoice → StartsElement bs) {o0 : Obj} (h0 : E.Holds n o0) :
    ∃ v r o', BerView.parse bs = .ok v ∧ Returns (E.decode n o0 bs) (.ok (r, o')) ∧
      (r = true ↔ ∃ x, E.Reads n v x) ∧ (r = true → ∃ x e, E.Rep n o' x e ∧ E.Reads n v x) := by
  obtain ⟨K, hK⟩ := decode_unfold h h0 bs
  obtain ⟨K', hK'⟩ := h.reads_iff n bs.length
  have key : ∀ k, max K K' ≤ k → ∃ v r o', BerView.parse bs = .ok v ∧ Returns (E.decode n o0 bs) (.ok (r, o')) ∧
      (r = true ↔ ∃ x, E.Reads n v x) ∧ (r = true → ∃ x e, (E.unfold E.stub k n).Rep o' x e ∧ E.Reads n v x) := by
    intro k hk
    obtain ⟨h1, h2⟩ := hK k (by omega)
    obtain ⟨v, r, o', hv, h3, h4, h5⟩ := C65_decode_iff_reads (E.unfold E.stub k n) (h.unfold_wf k n) (h.unfold_unamb hu k n)
      (REnv.unfold_guarded h.proper hg k n) hs (fun hu => hc ((REnv.unfold_untagged h.proper k n).mp hu)) h1
    obtain ⟨p1, p2⟩ := Parsed.of_assign hv
    have hiff := hK' k (by omega) v p1 (by omega)
    refine ⟨v, r, o', hv, h2 _ h3, ?_, ?_⟩
    · rw [h4]; exact ⟨fun ⟨x, hx⟩ => ⟨x, (hiff x).mpr hx⟩, fun ⟨x, hx⟩ => ⟨x, (hiff x).mp hx⟩⟩
    · intro hr
      obtain ⟨x, e, a, b⟩ := h5 hr
      exact ⟨x, e, a, (hiff x).mpr b⟩
  obtain ⟨v, r, o', hv, h1, h2, _⟩ := key _ (Nat.le_refl _)
  refine ⟨v, r, o', hv, h1, h2, fun hr => ?_⟩
  obtain ⟨v', r', o'', hv', h3, _, h4⟩ := key (max (max K K') (sizeOf o')) (by omega)
  have := Returns.unique h1 h3
  simp only [Exec.ok.injEq, Prod.mk.injEq] at this
  obtain ⟨rfl, rfl⟩ := this
  rw [hv] at hv'
  simp only [Exec.ok.injEq] at hv'
  subst hv'
  obtain ⟨x, e, a, b⟩ := h4 hr
  exact ⟨x, e, REnv.rep_of_unfold h.proper (by omega) a, b⟩

/-- C91: whatever is accepted begins with an element that encodes a value of the type, and the object holds that value; for all types
whose tags differ (X.680), also those with tags of the same number in different classes. -/
theorem C91_sound (h : E.Ok) (hp : ∀ n, (E.one n).Proper) (hg : ∀ n, (E.one n).Guarded) {n : ι} {bs : Bytes} (hs : Sane bs)
    (hc : (E.one n).isUntaggedChoice → StartsElement bs) {o0 : Obj} (h0 : E.Holds n o0) {o' : Obj}
    (hd : Returns (E.decode n o0 bs) (.ok (true, o'))) : ∃ v x e, BerView.parse bs = .ok v ∧ E.Rep n o' x e ∧ E.Reads n v x := by
  obtain ⟨K, hK⟩ := decode_unfold h h0 bs
  obtain ⟨K', hK'⟩ := h.reads_iff n bs.length
  obtain ⟨h1, h2⟩ := hK (max (max K K') (sizeOf o')) (by omega)
  have h3 := Returns.unique (h2 _ rfl) hd
  obtain ⟨v, x, e, hv, h4, h5⟩ := C65_sound (E.unfold E.stub (max (max K K') (sizeOf o')) n) (h.unfold_wf _ n) (h.unfold_proper hp _ n)
    (REnv.unfold_guarded h.proper hg _ n) hs (fun hu => hc ((REnv.unfold_untagged h.proper _ n).mp hu)) h1 h3
  obtain ⟨p1, p2⟩ := Parsed.of_assign hv
  exact ⟨v, x, e, hv, REnv.rep_of_unfold h.proper (by omega) h4, (hK' _ (by omega) v p1 (by omega) x).mpr h5⟩

/-! ## The depth is the input's -/

/-- `self: self: … str: ""`, nested `j` times. -/
def nestObj : Nat → Obj
  | 0 => .alt 0 (.cont ⟨[0x80, 0], 0⟩)
  | j + 1 => .alt 1 (nestObj j)
def nestVal : Nat → Val
  | 0 => .alt 0 (.content [])
  | j + 1 => .alt 1 (nestVal j)
def nestBytes : Nat → Bytes
  | 0 => [0xA1, 2, 0x80, 0]
  | j + 1 => tagged (ctx 1) .constructed (nestBytes j)

theorem nest_length : ∀ j, 10 * j + 4 < 2 ^ 64 → (nestBytes j).length ≤ 10 * j + 4
  | 0, _ => by decide
  | j + 1, hj => by
    have := nest_length j (by omega)
    have h2 : (tagged (ctx 1) .constructed (nestBytes j)).length ≤ 10 + (nestBytes j).length := by
      simp only [tagged, ctx, elementId, element, header, List.length_append, length_lengthOctets _ (show (nestBytes j).length < 2 ^ 64 by omega)]
      have h1 : (identifierOctets .contextSpecific .constructed (Int.toNat 1)).length = 1 := by decide +kernel
      rw [h1]
      unfold encodedLengthLength
      repeat' split
      all_goals omega
    simp only [nestBytes]
    omega

theorem nest_unfold : ∀ j, (circular.unfold circular.void (j + 1) 5).Rep (nestObj j) (nestVal j) (nestBytes j)
  | 0 => ⟨0, _, _, [0x80, 0], rfl, rfl, ⟨_, _, rfl, by decide, by decide, ⟨rfl, rfl, rfl, rfl⟩, by decide, rfl, rfl⟩, by decide +kernel⟩
  | j + 1 => ⟨1, _, _, nestBytes j, rfl, rfl, nest_unfold j, rfl⟩

theorem nest_rep (j : Nat) : circular.Rep 5 (nestObj j) (nestVal j) (nestBytes j) := ⟨j + 1, nest_unfold j⟩

theorem nest_valid (j : Nat) : circular.Valid 5 (nestVal j) := by
  intro k
  induction k generalizing j with
  | zero => cases j <;> simp [REnv.unfold, REnv.void, circular, RTy.ids, nestVal, altsFor, Ty.Valid, Alts.Valid, ctx, Ident.outer]
  | succ k ih =>
    cases j with
    | zero => simp [REnv.unfold, circular, RTy.close, RAlts.close, nestVal, Ty.Valid, Alts.Valid]
    | succ j => exact ih j

theorem findAlt_self (γ : Nat → Codec) : findAlt 1
    (RAlts.alts γ (.cons [⟨.contextSpecific, 0⟩] (.leaf .str (ctx 0)) <| .cons [⟨.contextSpecific, 1⟩] (.ref 5) .nil)) = some 1 := by
  simp [findAlt, findAltIn, RAlts.alts]

theorem nest_tagged (j : Nat) : ∃ c, nestBytes j = tagged (ctx 1) .constructed c := by
  cases j with
  | zero => exact ⟨[0x80, 0], by decide +kernel⟩
  | succ j => exact ⟨nestBytes j, rfl⟩

theorem nest_decode (k : Nat) : ∀ j, k ≤ j → (nestBytes j).length < 2 ^ 64 → ∀ (i : Nat) (o : Obj) (suffix : Bytes),
    ∀ v, BerView.parse (nestBytes j ++ suffix) = .ok v → (circular.program k 5).decode (.alt i o) v = .loop := by
  induction k with
  | zero => intros; rfl
  | succ k ih =>
    intro j hj hl i o suffix v hv
    obtain ⟨j, rfl⟩ : ∃ m, j = m + 1 := ⟨j - 1, by omega⟩
    have hid : identOk (ctx 1) := by simp [ctx, identOk, idOk]
    have ha := assign_tagged (ctx 1) hid .constructed (nestBytes j) suffix 0 hl
    rw [BerView.parse, nestBytes, ha] at hv
    simp only [Exec.ok.injEq] at hv
    subst hv
    have hin : (nestBytes j).length < 2 ^ 64 := by
      simp only [nestBytes, tagged, ctx, elementId, element, List.length_append] at hl
      omega
    obtain ⟨w, hm, hc, _⟩ := matches_tagged (ctx 1) hid .constructed (nestBytes j) suffix hl
    obtain ⟨c, hcj⟩ := nest_tagged j
    have hin2 : BerView.parse (nestBytes j ++ []) = .ok (taggedView (ctx 1) .constructed c []) := by
      rw [hcj]; exact assign_tagged (ctx 1) hid .constructed c [] 0 (by rw [← hcj]; exact hin)
    show (choiceCodec (.tagged (ctx 1)) (RAlts.alts (circular.program k) (.cons [⟨.contextSpecific, 0⟩] (.leaf .str (ctx 0)) <|
      .cons [⟨.contextSpecific, 1⟩] (.ref 5) .nil))).decode (.alt i o) _ = _
    have hval := (taggedView_hdr_len (ctx 1) .constructed (nestBytes j) suffix).2.1
    have hval2 := (taggedView_hdr_len (ctx 1) .constructed c []).2.1
    have htag : (taggedView (ctx 1) .constructed c []).tag = 1 := by simp [taggedView, ctx, elementView]
    simp only [choiceCodec, hval, Bool.not_true, Bool.false_eq_true, if_false, hasCorrectHeader_tagged (ctx 1) hid .constructed (nestBytes j) suffix hl,
      Exec.ok_bind, childIter_of_matches hm hc, Iter.mk']
    rw [List.append_nil] at hin2
    simp only [hin2, Exec.ok_bind, hval2, Bool.not_true, Bool.false_eq_true, if_false, decodeAlt, htag, findAlt_self]
    simp only [RAlts.alts, List.getElem?_cons_succ, List.getElem?_cons_zero, RTy.codec]
    cases k with
    | zero => rfl
    | succ k =>
      have hi : (circular.program (k + 1) 5).init = .ok (.alt 0 (.cont ⟨[0x80, 0], 0⟩)) := rfl
      rw [hi, Exec.ok_bind, ih j (by omega) hin 0 _ [] _ (by rw [List.append_nil]; exact hin2)]
      rfl

/-- C91 cannot be had with a bounded call stack: for every depth `k` there is a legal encoding of a SelfReference, of at most `10 k + 4`
octets, that takes calls nested deeper than `k`.  A program whose stack has room for `k` nested calls crashes on it, though it is
well formed and decodes with more stack. -/
theorem C91_violated_depth (k : Nat) (hk : k < 2 ^ 60) :
    (nestBytes k).length ≤ 10 * k + 4 ∧ circular.Rep 5 (nestObj k) (nestVal k) (nestBytes k) ∧
    circular.decode 5 (nestObj 0) (nestBytes k) k = .loop ∧
    ∃ o', Returns (circular.decode 5 (nestObj 0) (nestBytes k)) (.ok (true, o')) ∧ circular.Rep 5 o' (nestVal k) (nestBytes k) := by
  have hlen := nest_length k (by omega)
  have hl : (nestBytes k).length < 2 ^ 64 := by omega
  refine ⟨hlen, nest_rep k, ?_, ?_⟩
  · obtain ⟨c, hc⟩ := nest_tagged k
    have hid : identOk (ctx 1) := by simp [ctx, identOk, idOk]
    have hp := assign_tagged (ctx 1) hid .constructed c [] 0 (by rw [← hc]; exact hl)
    rw [← hc] at hp
    have := nest_decode k k (Nat.le_refl _) hl 0 (.cont ⟨[0x80, 0], 0⟩) [] _ hp
    rw [List.append_nil] at hp
    simp only [REnv.decode, BerView.parse, hp, Exec.ok_bind]
    exact this
  · obtain ⟨buf', o', h1, h2, h3, _⟩ := C90_round_trip circular_ok circular_unamb (nest_rep k) (nest_valid k) hl (Nat.le_refl _)
      ⟨_, _, nest_rep 0⟩ []
    have h4 := Returns.unique h1 ((C90_encode circular_ok (nest_rep k) hl (nestBytes k)).2.1 (Nat.le_refl _))
    simp only [Exec.ok.injEq, Prod.mk.injEq, true_and] at h4
    rw [h4, List.take_left, List.append_nil] at h2
    exact ⟨o', h2, h3⟩

/-! ## A type that cannot be constructed -/

/-- A CHOICE whose first alternative is the type itself, tagged: `Endless ::= CHOICE { self [1] Endless, str [0] OCTET STRING }`. -/
def endless : FastBer.REnv Nat
  | 0 => .choice (.untagged [⟨.contextSpecific, 1⟩, ⟨.contextSpecific, 0⟩])
      (.cons [⟨.contextSpecific, 1⟩] (.ref 1) <| .cons [⟨.contextSpecific, 0⟩] (.leaf .str (ctx 0)) .nil)
  | _ => .choice (.tagged (ctx 1))
      (.cons [⟨.contextSpecific, 1⟩] (.ref 1) <| .cons [⟨.contextSpecific, 0⟩] (.leaf .str (ctx 0)) .nil)

/-- C90 does not hold without the condition that default construction returns: the type has values (the OCTET STRING alternative), every
definition is well formed, but its default constructor calls itself without end, so no object can be made or decoded into. -/
theorem C90_violated_default (n : Nat) : (∀ k, endless.new n k = .loop) ∧ endless.Holds n (.alt 1 (.cont ⟨[0x80, 0], 0⟩)) ∧
    (endless.one n).WF ∧ (endless.one n).Unamb := by
  have hnew : ∀ k n, endless.new n k = .loop := by
    intro k
    induction k with
    | zero => intro n; rfl
    | succ k ih =>
      intro n
      have h1 : (endless.program k 1).init = .loop := ih 1
      have h2 : endless.new n (k + 1) = (do let o ← (endless.program k 1).init; .ok (.alt 0 o)) := by cases n <;> rfl
      rw [h2, h1]; rfl
  refine ⟨fun k => hnew k n, ?_, ?_, ?_⟩
  · cases n with
    | zero => exact ⟨.alt 1 (.content []), [0x80, 0], 1, 1, _, _, [0x80, 0], rfl, rfl, ⟨_, _, rfl, by decide, by decide, ⟨rfl, rfl, rfl, rfl⟩, by decide, rfl, rfl⟩, rfl⟩
    | succ n => exact ⟨.alt 1 (.content []), [0xA1, 2, 0x80, 0], 1, 1, _, _, [0x80, 0], rfl, rfl, ⟨_, _, rfl, by decide, by decide, ⟨rfl, rfl, rfl, rfl⟩, by decide, rfl, rfl⟩, by decide +kernel⟩
  · cases n <;> simp [REnv.one, endless, RTy.close, RAlts.close, REnv.stub, RTy.ids, Ty.WF, Alts.WF, ctx, identOk, idOk, Alts.outer,
      Ty.outer, Ident.outer]
  · cases n <;> simp [REnv.one, endless, RTy.close, RAlts.close, REnv.stub, RTy.ids, Ty.Unamb, Alts.Unamb, Alts.AllUnamb, Alts.labels,
      Ty.outer, ctx, Ident.outer]

/-! ## Concrete cases -/

/-- name "a", cs2 { cs1 { name "b" } }: CircularSequence1, one level of recursion. -/
def ringObj : Obj := .struct [.cont ⟨[4, 1, 0x61], 1⟩, .some (.struct [.struct [.cont ⟨[4, 1, 0x62], 1⟩, .none]])]
def ringVal : Val := .struct [.content [0x61], .present (.struct [.struct [.content [0x62], .absent]])]
def ringBytes : Bytes := [0x30, 10, 4, 1, 0x61, 0x30, 5, 0x30, 3, 4, 1, 0x62]

theorem ring_rep : circular.Rep 0 ringObj ringVal ringBytes := by
  refine ⟨3, _, _, [[4, 1, 0x61], [0x30, 5, 0x30, 3, 4, 1, 0x62]], rfl, rfl, by decide +kernel, ?_⟩
  refine ⟨_, _, _, _, _, _, rfl, rfl, rfl, ⟨_, _, rfl, by decide, by decide, ⟨rfl, rfl, rfl, rfl⟩, by decide, rfl, rfl⟩, ?_⟩
  refine ⟨_, _, _, _, _, _, rfl, rfl, rfl, .inr ⟨_, _, rfl, rfl, ?_⟩, rfl, rfl, rfl⟩
  refine ⟨_, _, [[0x30, 3, 4, 1, 0x62]], rfl, rfl, by decide +kernel, ?_⟩
  refine ⟨_, _, _, _, _, _, rfl, rfl, rfl, ?_, rfl, rfl, rfl⟩
  refine ⟨_, _, [[4, 1, 0x62], []], rfl, rfl, by decide +kernel, ?_⟩
  refine ⟨_, _, _, _, _, _, rfl, rfl, rfl, ⟨_, _, rfl, by decide, by decide, ⟨rfl, rfl, rfl, rfl⟩, by decide, rfl, rfl⟩, ?_⟩
  exact ⟨_, _, _, _, _, _, rfl, rfl, rfl, .inl ⟨rfl, rfl, rfl⟩, rfl, rfl, rfl⟩

example : Returns (circular.encode 0 ringObj (List.replicate 14 7)) (.ok (⟨true, 12⟩, ringBytes ++ [7, 7])) :=
  (C90_encode circular_ok ring_rep (by decide) (List.replicate 14 7)).2.1 (by decide)

example : ∃ o, Returns (circular.new 4) (.ok o) ∧ circular.Holds 4 o := C90_new circular_ok 4

example : ∃ r, Returns (circular.equal 0 ringObj ringObj) (.ok r) ∧ (r = true ↔ circular.Same 0 ringVal ringVal) :=
  C90_equal circular_ok (circular_leaves trivial trivial) ring_rep ring_rep

example (bs : Bytes) (hs : Sane bs) : ∃ r o', Returns (circular.decode 0 ringObj bs) (.ok (r, o')) ∧ circular.Holds 0 o' :=
  C91_decode_safe_partial (n := 0) circular_ok circular_guarded hs (fun h => False.elim h) ⟨_, _, ring_rep⟩

example : ∃ v r o', BerView.parse ringBytes = .ok v ∧ Returns (circular.decode 0 ringObj ringBytes) (.ok (r, o')) ∧
      (r = true ↔ ∃ x, circular.Reads 0 v x) ∧ (r = true → ∃ x e, circular.Rep 0 o' x e ∧ circular.Reads 0 v x) :=
  C91_decode_iff_reads (n := 0) circular_ok circular_unamb circular_guarded (plain_of_small (by decide) (by decide)).tame.sane (fun h => False.elim h)
    ⟨_, _, ring_rep⟩

end FastBer.Props
