import Verif.Proofs.LibChoice
import Verif.Props.Schema
import Verif.Model.Identifier
/-! # Property C85: the library's CHOICE and ANY -/
namespace FastBer.Props
open FastBer Spec LibChoice
set_option maxRecDepth 100000

/-! ## Every library CHOICE -/

/-- C85: `encode` writes exactly the encoding of the alternative held (inside the CHOICE's own tag, if it has one), succeeds
exactly if the buffer is large enough, `encoded_length` is its size and nothing behind it is touched. -/
theorem C85_encode (c : LibChoice) (hw : c.WF) {o : Obj} {i : Nat} {x : Val} {e : Bytes} (h : c.Rep o i x e)
    (hl : e.length < 2 ^ 64) (buf : Bytes) :
    c.encodedLength o = e.length ∧ ∃ r buf', c.encode o buf = .ok (r, buf') ∧ buf'.length = buf.length ∧
      (r.success = true ↔ e.length ≤ buf.length) ∧
      (r.success = true → r.length = e.length ∧ buf' = e ++ buf.drop e.length) := by
  obtain ⟨h1, h2, h3⟩ := rep_writes hw h hl
  refine ⟨h1, ?_⟩
  by_cases hb : e.length ≤ buf.length
  · exact ⟨_, _, h2 buf hb, by simp; omega, by simp [hb], fun _ => ⟨rfl, rfl⟩⟩
  · obtain ⟨b, h4, h5⟩ := h3 buf (by omega)
    exact ⟨_, _, h4, h5, by simp [EncodeResult.fail]; omega, by simp [EncodeResult.fail]⟩

/-- C85 (`_partial`: the value's own type must round-trip, C33): decoding the bytes `encode` wrote, followed by anything, into
any CHOICE object, gives the same value in the first alternative that has the same identifiers, if that one has the same type. -/
theorem C85_round_trip_first_partial (c : LibChoice) (hw : c.WF) {o : Obj} {i : Nat} {x : Val} {e : Bytes} (h : c.Rep o i x e)
    (hl : e.length < 2 ^ 64) {t : Ty} (ht : c.alts[i]? = some t) (hu : t.Unamb) (hv : t.Valid x) {j : Nat}
    (hj : c.alts[j]? = some t)
    (hn : ∀ (m : Nat) (t' : Ty), m < j → c.alts[m]? = some t' → ∀ id ∈ t.outer, id ∉ t'.outer) (o0 : Obj)
    {buf buf' : Bytes} {r : EncodeResult} (henc : c.encode o buf = .ok (r, buf')) (hs : r.success = true) (suffix : Bytes) :
    ∃ o', c.decode o0 (buf'.take r.length ++ suffix) = .ok (true, o') ∧ c.Rep o' j x e := by
  obtain ⟨_, r', b', h1, _, _, h2⟩ := C85_encode c hw h hl buf
  rw [henc] at h1
  simp only [Exec.ok.injEq, Prod.mk.injEq] at h1
  obtain ⟨rfl, rfl⟩ := h1
  obtain ⟨h3, h4⟩ := h2 hs
  have hb : buf'.take r.length = e := by rw [h3, h4, List.take_left]
  rw [hb]
  exact round hw h hl ht hu hv hj hn o0 suffix

/-- C85 (`_partial`, as above): if the alternatives have different identifiers (X.680 29.3; different *tag numbers* are not needed,
unlike C33 for a generated CHOICE), the value comes back in its own alternative. -/
theorem C85_round_trip_partial (c : LibChoice) (hw : c.WF)
    (hd : ∀ (m n : Nat) (t t' : Ty), m < n → c.alts[m]? = some t → c.alts[n]? = some t' → ∀ id ∈ t'.outer, id ∉ t.outer)
    {o : Obj} {i : Nat} {x : Val} {e : Bytes} (h : c.Rep o i x e)
    (hl : e.length < 2 ^ 64) {t : Ty} (ht : c.alts[i]? = some t) (hu : t.Unamb) (hv : t.Valid x) (o0 : Obj)
    {buf buf' : Bytes} {r : EncodeResult} (henc : c.encode o buf = .ok (r, buf')) (hs : r.success = true) (suffix : Bytes) :
    ∃ o', c.decode o0 (buf'.take r.length ++ suffix) = .ok (true, o') ∧ c.Rep o' i x e :=
  C85_round_trip_first_partial c hw h hl ht hu hv ht (fun m t' hm hm' => hd m i t' t hm hm' ht) o0 henc hs suffix

/-- C85 (`_partial`: sane input, see C44): decoding never runs into undefined behaviour and terminates, whatever the bytes (there need
not even be an element, unlike C44 for a generated CHOICE).  It succeeds exactly if the carrying element (the input element or the one
inside the CHOICE's own tag) exists and can be read as a value of the *first* alternative that has its class and tag number, and
the object then holds such a value in that alternative; if no alternative has them, the object is unchanged. -/
theorem C85_decode_iff_partial (c : LibChoice) (hw : c.WF) (hu : ∀ t ∈ c.alts, t.Unamb) (hg : ∀ t ∈ c.alts, t.Guarded)
    {bs : Bytes} (hs : Sane bs) (o0 : Obj) :
    ∃ v r o', BerView.parse bs = .ok v ∧ c.decode o0 bs = .ok (r, o') ∧
      (r = true ↔ ∃ u i n t x, c.Carries v u ∧ u.identifier = .ok i ∧ c.First i n t ∧ t.Reads u x) ∧
      (r = true → ∃ u i n t x o1 e, c.Carries v u ∧ u.identifier = .ok i ∧ c.First i n t ∧ t.Reads u x ∧
        o' = .alt n o1 ∧ t.Rep o1 x e ∧ t.Valid x) ∧
      ((∀ u i n t, c.Carries v u → u.identifier = .ok i → ¬ c.First i n t) → o' = o0) := by
  obtain ⟨v, hv, hsv, _⟩ := hs.assign 0
  have hdec : c.decode o0 bs = c.decodeView o0 v := by
    simp [LibChoice.decode, BerView.parse, hv]
  rcases decodeView_law hw hg hsv ⟨bs, 0, hv⟩ o0 with ⟨u, i, n, t, r, o', a1, a2, a3, a4, a5, a6, a7⟩ | ⟨b1, b2⟩
  · have hut := hu t (List.mem_of_getElem? a3.1)
    refine ⟨v, r, .alt n o', hv, by rw [hdec, a4], ⟨?_, ?_⟩, ?_, ?_⟩
    · intro hr
      obtain ⟨x, e, _, _, _, _, _, _, _, h⟩ := a6 hr
      exact ⟨u, i, n, t, x, a1, a2, a3, h hut.proper⟩
    · rintro ⟨u', i', n', t', x, c1, c2, c3, c4⟩
      have := carries_unique a1 c1
      subst this
      rw [a2] at c2
      simp only [Exec.ok.injEq] at c2
      subst c2
      obtain ⟨_, rfl⟩ := first_unique a3 c3
      exact a7 hut ⟨x, c4⟩
    · intro hr
      obtain ⟨x, e, _, h1, h2, _, _, _, _, h⟩ := a6 hr
      exact ⟨u, i, n, t, x, o', e, a1, a2, a3, h hut.proper, rfl, h1, h2⟩
    · intro h; exact (h u i n t a1 a2 a3).elim
  · refine ⟨v, false, o0, hv, by rw [hdec, b1], ⟨(fun h => nomatch h), ?_⟩, (fun h => nomatch h), fun _ => rfl⟩
    rintro ⟨u', i', n', t', x, c1, c2, c3, c4⟩
    obtain ⟨i, h1, h2⟩ := b2 u' c1
    rw [h1] at c2
    simp only [Exec.ok.injEq] at c2
    subst c2
    exact (h2 _ _ c3).elim

/-- C85: two CHOICE objects compare equal exactly if they hold equal values in the same alternative. -/
theorem C85_equal_iff (c : LibChoice) (hw : c.WF) {a b : Obj} {i j : Nat} {x y : Val} {e f : Bytes} (ha : c.Rep a i x e)
    (hb : c.Rep b j y f) : c.equal a b = .ok true ↔ i = j ∧ ∀ t, c.alts[i]? = some t → t.Same x y := by
  obtain ⟨t, a', e', ht, rfl, hra, _⟩ := ha
  obtain ⟨u, b', f', hu, rfl, hrb, _⟩ := hb
  by_cases hij : i = j
  · subst hij
    rw [ht] at hu
    simp only [Option.some.injEq] at hu
    subst hu
    have := t.eqIff (hw.2.1 t (List.mem_of_getElem? ht)) hra hrb
    simp only [LibChoice.equal, if_true, ht, true_and, Option.some.injEq]
    exact this.trans ⟨fun h _ ht' => ht' ▸ h, fun h => h t rfl⟩
  · simp [LibChoice.equal, hij]

/-- `Choice<Choices<Integer<>, Boolean<Id<context_specific, 2>>>>`: the example on which the generated decoder fails (`C33_violated`). -/
def libraryClash : LibChoice :=
  ⟨.untagged [⟨.universal, 2⟩, ⟨.contextSpecific, 2⟩], [.leaf .int (univ 2), .leaf .bool (ctx 2)]⟩

example : libraryClash.WF ∧
    (∀ (m n : Nat) (t t' : Ty), m < n → libraryClash.alts[m]? = some t → libraryClash.alts[n]? = some t' →
      ∀ id ∈ t'.outer, id ∉ t.outer) ∧
    libraryClash.Rep (.alt 1 (.raw [0x82, 1, 0xFF])) 1 (.content [0xFF]) [0x82, 1, 0xFF] ∧
    libraryClash.encode (.alt 1 (.raw [0x82, 1, 0xFF])) [0, 0, 0] = .ok (⟨true, 3⟩, [0x82, 1, 0xFF]) ∧
    libraryClash.decode (.alt 0 (.raw [2, 1, 0, 0, 0, 0, 0, 0, 0, 0])) [0x82, 1, 0xFF] =
      .ok (true, .alt 1 (.raw [0x82, 1, 0xFF])) := by
  refine ⟨⟨by simp [libraryClash], by simp [libraryClash, Ty.WF, identOk, idOk, univ, ctx], trivial⟩, ?_, ?_, rfl, rfl⟩
  · intro m n t t' hmn hm hn
    match m, n with
    | 0, 1 =>
      simp only [libraryClash, List.getElem?_cons_zero, List.getElem?_cons_succ, Option.some.injEq] at hm hn
      subst hm; subst hn
      simp [Ty.outer, univ, ctx, Ident.outer]
    | 0, n + 2 => simp [libraryClash] at hn
    | m + 1, n + 2 => simp [libraryClash] at hn
    | m + 1, 0 => omega
    | m + 1, 1 => omega
    | 0, 0 => omega
  · exact ⟨.leaf .bool (ctx 2), _, _, rfl, rfl, ⟨0xFF, rfl, by decide +kernel, rfl⟩, rfl⟩

/-- The same CHOICE with a tag of its own, `[5]`. -/
example : (⟨.tagged (ctx 5), libraryClash.alts⟩ : LibChoice).encode (.alt 1 (.raw [0x82, 1, 0xFF])) (List.replicate 6 9) =
      .ok (⟨true, 5⟩, [0xA5, 3, 0x82, 1, 0xFF, 9]) ∧
    (⟨.tagged (ctx 5), libraryClash.alts⟩ : LibChoice).decode (.alt 0 (.raw [2, 1, 0, 0, 0, 0, 0, 0, 0, 0]))
      [0xA5, 3, 0x82, 1, 0xFF, 9] = .ok (true, .alt 1 (.raw [0x82, 1, 0xFF])) := ⟨rfl, rfl⟩

/-! ## ANY -/

section
variable (r t : Bytes → Bytes → Exec Bool)

theorem any_wf : (anyType r t).WF := by
  refine ⟨by simp [anyType], ?_, trivial⟩
  simp [anyType, plainTy, Ty.WF, identOk, idOk]

theorem any_leaf {ty : Ty} (h : ty ∈ (anyType r t).alts) : ∃ k n, ty = plainTy k n ∧ anyKind r t n = some k := by
  simp only [anyType, List.mem_cons, List.not_mem_nil, or_false] at h
  rcases h with rfl | rfl | rfl | rfl | rfl | rfl | rfl | rfl | rfl | rfl | rfl | rfl | rfl | rfl | rfl | rfl <;>
    exact ⟨_, _, rfl, rfl⟩

theorem any_has {n : Int} {k : Leaf} (h : anyKind r t n = some k) : plainTy k n ∈ (anyType r t).alts := by
  unfold anyKind at h
  split at h
  · rename_i hn; cases h; subst hn; simp [anyType]
  split at h
  · rename_i hn; cases h; subst hn; simp [anyType]
  split at h
  · rename_i hn; cases h; subst hn; simp [anyType]
  split at h
  · rename_i hn; cases h; subst hn; simp [anyType]
  split at h
  · rename_i hn; cases h; subst hn; simp [anyType]
  split at h
  · rename_i hn; cases h; rcases hn with rfl | rfl | rfl | rfl <;> simp [anyType]
  split at h
  · rename_i hn; cases h; rcases hn with rfl | rfl <;> simp [anyType]
  · cases h

theorem any_first {i : Id} {n : Nat} {ty : Ty} (h : (anyType r t).First i n ty) :
    ∃ k, i.cls = .universal ∧ anyKind r t i.tag = some k ∧ ty = plainTy k i.tag := by
  obtain ⟨h1, h2, _⟩ := h
  obtain ⟨k, m, rfl, hk⟩ := any_leaf r t (List.mem_of_getElem? h1)
  simp only [plainTy, Ty.outer, Ident.outer, List.mem_singleton] at h2
  subst h2
  exact ⟨k, rfl, hk, rfl⟩

/-- Tag numbers of the alternatives of ANY. -/
def anyTags : List Int := [3, 1, 29, 24, 24, 24, 24, 2, 5, 6, 4, 9, 23, 23, 23, 26]

/-- The alternative `anyReturns i` is the first with the identifier of alternative `i`, and has the same type. -/
theorem any_returns {i : Nat} {ty : Ty} (h : (anyType r t).alts[i]? = some ty) :
    (anyType r t).alts[anyReturns i]? = some ty ∧
    ∀ (m : Nat) (t' : Ty), m < anyReturns i → (anyType r t).alts[m]? = some t' → ∀ id ∈ ty.outer, id ∉ t'.outer := by
  have hlt : i < 16 := by
    have := (List.getElem?_eq_some_iff.mp h).1
    simpa [anyType] using this
  have key : ∀ i < 16, anyReturns i ≤ i ∧
      anyTags[anyReturns i]? =
        anyTags[i]? ∧
      ∀ m < anyReturns i, anyTags[m]? ≠
        anyTags[i]? := by decide
  have htag : ∀ (j : Nat) (u : Ty), (anyType r t).alts[j]? = some u → ∃ k n,
      anyTags[j]? = some n ∧ u = plainTy k n ∧ anyKind r t n = some k := by
    intro j u hj
    have hlt : j < 16 := by
      have := (List.getElem?_eq_some_iff.mp hj).1
      simpa [anyType] using this
    match j, hlt with
    | 0, _ | 1, _ | 2, _ | 3, _ | 4, _ | 5, _ | 6, _ | 7, _ | 8, _ | 9, _ | 10, _ | 11, _ | 12, _ | 13, _ | 14, _ | 15, _ =>
      simp [anyType] at hj
      subst hj
      exact ⟨_, _, rfl, rfl, rfl⟩
  obtain ⟨k1, k2, k3⟩ := key i hlt
  obtain ⟨k, n, hn, rfl, hk⟩ := htag i ty h
  have hlen : anyReturns i < (anyType r t).alts.length := by
    have : (anyType r t).alts.length = 16 := rfl
    omega
  constructor
  · obtain ⟨u, hu⟩ : ∃ u, (anyType r t).alts[anyReturns i]? = some u := ⟨_, List.getElem?_eq_getElem hlen⟩
    obtain ⟨k', n', hn', rfl, hk'⟩ := htag _ u hu
    rw [k2, hn] at hn'
    simp only [Option.some.injEq] at hn'
    subst hn'
    rw [hk] at hk'
    simp only [Option.some.injEq] at hk'
    subst hk'
    exact hu
  · intro m t' hm ht' id hid hid'
    obtain ⟨k', n', hn', rfl, _⟩ := htag m t' ht'
    simp only [plainTy, Ty.outer, Ident.outer, List.mem_singleton] at hid hid'
    rw [hid] at hid'
    simp only [Id.mk.injEq, true_and] at hid'
    subst hid'
    exact k3 m hm (by rw [hn', hn])

/-- C85 for ANY: every value ANY can hold (times of 10 to 23 characters) encodes and decodes to the same value with the same
encoding, in alternative `anyReturns i`; only DateTime, Duration, GeneralizedTime, TimeOfDay and UTCTime change
alternative. -/
theorem C85_any_round_trip {o : Obj} {i : Nat} {x : Val} {e : Bytes} (h : (anyType r t).Rep o i x e) (hl : e.length < 2 ^ 64)
    (hv : ∀ ty, (anyType r t).alts[i]? = some ty → ty.Valid x) (o0 : Obj)
    {buf buf' : Bytes} {res : EncodeResult} (henc : (anyType r t).encode o buf = .ok (res, buf')) (hs : res.success = true)
    (suffix : Bytes) :
    ∃ o', (anyType r t).decode o0 (buf'.take res.length ++ suffix) = .ok (true, o') ∧
      (anyType r t).Rep o' (anyReturns i) x e := by
  obtain ⟨ty, _, _, hty, _⟩ := id h
  obtain ⟨k, n, rfl, _⟩ := any_leaf r t (List.mem_of_getElem? hty)
  obtain ⟨h1, h2⟩ := any_returns r t hty
  exact C85_round_trip_first_partial _ (any_wf r t) h hl hty trivial (hv _ hty) h1 h2 o0 henc hs suffix

/-- C85 for ANY (`_partial`: sane input, see C44): decoding succeeds exactly if the input begins with an element of one of the
universal types of `anyKind`, primitive and with contents this type can store; the object then holds these contents. -/
theorem C85_any_decode_partial {bs : Bytes} (hs : Sane bs) (o0 : Obj) :
    ∃ v b o', BerView.parse bs = .ok v ∧ (anyType r t).decode o0 bs = .ok (b, o') ∧
      (b = true ↔ ∃ k n x, anyKind r t n = some k ∧ leafReads k (univ n) v x) ∧
      (b = true → ∃ k n x i e, anyKind r t n = some k ∧ leafReads k (univ n) v x ∧
        (anyType r t).alts[i]? = some (plainTy k n) ∧ (anyType r t).Rep o' i x e) := by
  have hleaf : ∀ ty ∈ (anyType r t).alts, ty.Unamb ∧ ty.Guarded := by
    intro ty h
    obtain ⟨k, n, rfl, _⟩ := any_leaf r t h
    exact ⟨trivial, trivial⟩
  obtain ⟨v, b, o', h1, h2, h3, h4, _⟩ :=
    C85_decode_iff_partial _ (any_wf r t) (fun ty h => (hleaf ty h).1) (fun ty h => (hleaf ty h).2) hs o0
  refine ⟨v, b, o', h1, h2, ?_, ?_⟩
  · rw [h3]
    constructor
    · rintro ⟨u, i, n, ty, x, ⟨_, hu⟩, c2, c3, c4⟩
      have hu : u = v := hu
      subst hu
      obtain ⟨k, _, hk, rfl⟩ := any_first r t c3
      exact ⟨k, i.tag, x, hk, c4⟩
    · rintro ⟨k, n, x, hk, hx⟩
      obtain ⟨w, _, _, hm, _⟩ := id hx
      have hval := (matches_valid hm).1
      have hi : v.identifier = .ok ⟨.universal, n⟩ := matches_outer hm
      rcases first_or_none (anyType r t).alts ⟨.universal, n⟩ with ⟨m, ty, f1, f2, f3⟩ | hno
      · have hf : (anyType r t).First ⟨.universal, n⟩ m ty := ⟨f1, f2, f3⟩
        obtain ⟨k', _, hk', rfl⟩ := any_first r t hf
        rw [show (⟨Class.universal, n⟩ : Id).tag = n from rfl, hk] at hk'
        simp only [Option.some.injEq] at hk'
        subst hk'
        exact ⟨v, _, m, _, x, ⟨hval, rfl⟩, hi, hf, hx⟩
      · exact (hno _ (any_has r t hk) (by simp [plainTy, Ty.outer, Ident.outer])).elim
  · intro hb
    obtain ⟨u, i, n, ty, x, o1, e, ⟨_, hu⟩, _, c3, c4, rfl, c5, _⟩ := h4 hb
    have hu : u = v := hu
    subst hu
    obtain ⟨k, _, hk, rfl⟩ := any_first r t c3
    exact ⟨k, i.tag, x, n, e, hk, c4, c3.1, _, o1, e, c3.1, rfl, c5, rfl⟩

/-- C85 for ANY: an element with any other identifier is refused and the object keeps its value. -/
theorem C85_any_refuses {bs : Bytes} (hs : Sane bs) {v : BerView} (hv : BerView.parse bs = .ok v) {i : Id}
    (hi : v.identifier = .ok i) (hne : i.cls ≠ .universal ∨ anyKind r t i.tag = none) (o0 : Obj) :
    (anyType r t).decode o0 bs = .ok (false, o0) := by
  have hleaf : ∀ ty ∈ (anyType r t).alts, ty.Unamb ∧ ty.Guarded := by
    intro ty h
    obtain ⟨k, n, rfl, _⟩ := any_leaf r t h
    exact ⟨trivial, trivial⟩
  have hnf : ∀ n ty, ¬ (anyType r t).First i n ty := by
    intro n ty hf
    obtain ⟨k, h1, h2, _⟩ := any_first r t hf
    rcases hne with h | h
    · exact h h1
    · rw [h] at h2; cases h2
  obtain ⟨v', b, o', h1, h2, h3, _, h5⟩ :=
    C85_decode_iff_partial _ (any_wf r t) (fun ty h => (hleaf ty h).1) (fun ty h => (hleaf ty h).2) hs o0
  rw [hv] at h1
  simp only [Exec.ok.injEq] at h1
  subst h1
  have hcar : ∀ u j n ty, (anyType r t).Carries v u → u.identifier = .ok j → ¬ (anyType r t).First j n ty := by
    rintro u j n ty ⟨_, hu⟩ hj
    have hu : u = v := hu
    subst hu
    rw [hi] at hj
    simp only [Exec.ok.injEq] at hj
    subst hj
    exact hnf n ty
  rw [h2, h5 hcar]
  cases b with
  | false => rfl
  | true =>
    obtain ⟨u, j, n, ty, x, a1, a2, a3, _⟩ := h3.mp rfl
    exact (hcar u j n ty a1 a2 a3).elim

/-- An INTEGER and an OCTET STRING in ANY. -/
example : (anyType r t).Rep (.alt 7 (.raw [2, 1, 5, 0, 0, 0, 0, 0, 0, 0])) 7 (.content [5]) [2, 1, 5] ∧
    (anyType r t).encode (.alt 7 (.raw [2, 1, 5, 0, 0, 0, 0, 0, 0, 0])) [0, 0, 0, 9] = .ok (⟨true, 3⟩, [2, 1, 5, 9]) ∧
    (anyType r t).decode (.alt 8 (.raw [5, 0])) [2, 1, 5, 9] = .ok (true, .alt 7 (.raw [2, 1, 5, 0, 0, 0, 0, 0, 0, 0])) ∧
    (anyType r t).decode (.alt 8 (.raw [5, 0])) [4, 2, 0x61, 0x62] = .ok (true, .alt 10 (.cont ⟨[4, 2, 0x61, 0x62], 2⟩)) := by
  refine ⟨?_, rfl, rfl, rfl⟩
  exact ⟨_, _, _, rfl, rfl, ⟨[5], [0, 0, 0, 0, 0, 0, 0], rfl, by decide, by decide, by decide +kernel, rfl⟩, rfl⟩

/-- C85 is violated: ANY does not hold any type.  An empty SEQUENCE, a UTF8String, an ENUMERATED, a constructed OCTET STRING and
an element with a context tag are all refused. -/
theorem C85_violated_any (o0 : Obj) :
    (anyType r t).decode o0 [0x30, 0] = .ok (false, o0) ∧
    (anyType r t).decode o0 [0x0C, 1, 0x61] = .ok (false, o0) ∧
    (anyType r t).decode o0 [0x0A, 1, 3] = .ok (false, o0) ∧
    succeeded ((anyType r t).decode o0 [0x24, 3, 4, 1, 0x61]) = false ∧
    (anyType r t).decode o0 [0x80, 1, 3] = .ok (false, o0) := ⟨rfl, rfl, rfl, rfl, rfl⟩

/-- C85 is violated: a GeneralizedTime put into ANY (alternative 6) encodes, decodes as a Date (alternative 3), and the result
is not equal to the original, whatever the comparison of times. -/
theorem C85_violated_alternative :
    (anyType r t).Rep (.alt 6 (.cont ⟨[0x18, 15] ++ epochContent, 15⟩)) 6 (.content epochContent) ([0x18, 15] ++ epochContent) ∧
    (anyType r t).decode (.alt 6 (.cont ⟨[0x18, 15] ++ epochContent, 15⟩)) ([0x18, 15] ++ epochContent) =
      .ok (true, .alt 3 (.cont ⟨[0x18, 15] ++ epochContent, 15⟩)) ∧
    (anyType r t).equal (.alt 6 (.cont ⟨[0x18, 15] ++ epochContent, 15⟩)) (.alt 3 (.cont ⟨[0x18, 15] ++ epochContent, 15⟩)) =
      .ok false := by
  refine ⟨?_, rfl, rfl⟩
  exact ⟨_, _, _, rfl, rfl, ⟨_, _, rfl, rfl, by decide, ⟨rfl, rfl, rfl, rfl⟩, by decide, rfl, rfl⟩, rfl⟩

/-- C85: the identifiers the compiler takes an ANY to begin with, when it looks for clashes between alternatives and for the ends of
optional members, are exactly those of the alternatives of the library's ANY. -/
theorem C85_any_compiler (tree : Ast.Tree) (mod : Ast.Module) (fuel : Nat) :
    ∃ ids, Ast.outerIds tree (fuel + 1) mod (.leaf .any) = .ok ids ∧ (Ast.identifier tree (fuel + 1) mod (.leaf .any)).bind (fun i => .ok i.outerTags) = .ok ids ∧
      (∀ i ∈ ids, i.cls = .universal) ∧
      ∀ n : Nat, (∃ i ∈ ids, i.num = n) ↔ ∃ ty ∈ (anyType r t).alts, (⟨.universal, n⟩ : Id) ∈ ty.outer := by
  refine ⟨Ast.anyIds, rfl, rfl, by decide, fun n => ?_⟩
  have hl : (∃ i ∈ Ast.anyIds, i.num = n) ↔ n ∈ Ast.anyIds.map (·.num) := by simp [List.mem_map]
  have hr : (∃ ty ∈ (anyType r t).alts, (⟨.universal, n⟩ : Id) ∈ ty.outer) ↔ (n : Int) ∈ anyTags := by
    simp [anyType, anyTags, plainTy, Ty.outer, Ident.outer]
  rw [hl, hr]
  simp [Ast.anyIds, Ast.TagId.ofUniversal, anyTags]
  omega

end

end FastBer.Props
