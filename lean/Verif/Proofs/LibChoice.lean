import Verif.Spec.LibChoice
import Verif.Proofs.SchemaApi
/-! # The library's CHOICE: proofs -/
namespace FastBer.LibChoice
open FastBer Spec

theorem matchesId_iff {l : List Id} {c : Class} {t : Int} : matchesId l c t = true ↔ (⟨c, t⟩ : Id) ∈ l := by
  induction l with
  | nil => simp [matchesId]
  | cons i is ih =>
    rw [matchesId, List.mem_cons]
    by_cases h : Ident.checkIdMatch (.single i) c t = true
    · rw [if_pos h]
      simp only [Ident.checkIdMatch, Ident.outer, Bool.and_eq_true, beq_iff_eq] at h
      obtain ⟨rfl, rfl⟩ := h
      simp
    · rw [if_neg h, ih]
      constructor
      · exact .inr
      · rintro (h' | h')
        · exact (h (by simp [Ident.checkIdMatch, Ident.outer, ← h'])).elim
        · exact h'

theorem encodeIf_get : (ts : List Ty) → (n i : Nat) → (o : Obj) → (buf : Bytes) → (t : Ty) → ts[i]? = some t →
    encodeIf ts n (n + i) o buf = t.codec.encode o buf
  | [], n, i, o, buf, t, h => by simp at h
  | t' :: ts, n, 0, o, buf, t, h => by
    simp only [List.getElem?_cons_zero, Option.some.injEq] at h
    simp [encodeIf, h]
  | t' :: ts, n, i + 1, o, buf, t, h => by
    simp only [List.getElem?_cons_succ] at h
    rw [encodeIf, if_neg (by omega), show n + (i + 1) = n + 1 + i by omega]
    exact encodeIf_get ts (n + 1) i o buf t h

theorem rep_writes {c : LibChoice} (hw : c.WF) {o : Obj} {i : Nat} {x : Val} {e : Bytes} (h : c.Rep o i x e)
    (hl : e.length < 2 ^ 64) : c.encodedLength o = e.length ∧ Writes (c.encode o) e := by
  obtain ⟨t, o', e', ht, rfl, hr, rfl⟩ := h
  have hlaw := t.encLaws (hw.2.1 t (List.mem_of_getElem? ht))
  have hget : encodeIf c.alts 0 i o' = t.codec.encode o' := by
    funext buf
    have := encodeIf_get c.alts 0 i o' buf t ht
    rwa [Nat.zero_add] at this
  cases hid : c.id with
  | untagged ids =>
    rw [hid] at hl
    dsimp only at hl ⊢
    refine ⟨by simp only [encodedLength, ht, hid]; exact hlaw.size hr hl, ?_⟩
    have : c.encode (.alt i o') = t.codec.encode o' := by
      funext buf; simp only [encode, hid, hget]
    rw [this]; exact hlaw.writes hr hl
  | tagged id =>
    have hi := hw.2.2
    rw [hid] at hl hi
    dsimp only at hl hi ⊢
    have hc := content_le_tagged id .constructed e'
    refine ⟨?_, ?_⟩
    · simp only [encodedLength, ht, hid]
      rw [hlaw.size hr (by omega), tagged_length hi .constructed e' hl]
    · have : c.encode (.alt i o') = encodeWrapped id (t.codec.encode o') := by
        funext buf; simp only [encode, hid, hget]
      rw [this]
      exact encodeWrapped_writes id hi _ _ (hlaw.writes hr (by omega)) hl

/-- Nothing matches. -/
theorem decodeIf_none {ts : List Ty} (he : ∀ t ∈ ts, t.EncLaws) {v : BerView} {i : Id} (hi : v.identifier = .ok i)
    (hn : ∀ t ∈ ts, i ∉ t.outer) (n : Nat) (o : Obj) : decodeIf ts n o v = .ok (false, o) := by
  obtain ⟨hc, ht⟩ := identifier_eq_ok.mp hi
  induction ts generalizing n with
  | nil => rfl
  | cons t ts ih =>
    have h1 : matchesId t.codec.ids i.cls v.tag = false := by
      rw [Bool.eq_false_iff, ne_eq, matchesId_iff, (he t (by simp)).ids, ht]
      exact hn t (by simp)
    simp only [decodeIf, hc, Exec.ok_bind, h1, Bool.false_eq_true, if_false]
    exact ih (fun t h => he t (by simp [h])) (fun t h => hn t (by simp [h])) _

/-- The first match decides. -/
theorem decodeIf_first {ts : List Ty} (he : ∀ t ∈ ts, t.EncLaws) {v : BerView} {i : Id} (hi : v.identifier = .ok i)
    {k : Nat} {t : Ty} (ht : ts[k]? = some t) (hit : i ∈ t.outer)
    (hn : ∀ m t', m < k → ts[m]? = some t' → i ∉ t'.outer) (n : Nat) (o : Obj) :
    decodeIf ts n o v = (do let x ← t.codec.init; let r ← t.codec.decode x v; .ok (r.1, .alt (n + k) r.2)) := by
  obtain ⟨hc, htag⟩ := identifier_eq_ok.mp hi
  induction ts generalizing n k with
  | nil => simp at ht
  | cons t' ts ih =>
    cases k with
    | zero =>
      simp only [List.getElem?_cons_zero, Option.some.injEq] at ht
      subst ht
      have h1 : matchesId t'.codec.ids i.cls v.tag = true := by
        rw [matchesId_iff, (he t' (by simp)).ids, htag]; exact hit
      simp only [decodeIf, hc, Exec.ok_bind, h1, if_true, Nat.add_zero]
    | succ k =>
      simp only [List.getElem?_cons_succ] at ht
      have h1 : matchesId t'.codec.ids i.cls v.tag = false := by
        rw [Bool.eq_false_iff, ne_eq, matchesId_iff, (he t' (by simp)).ids, htag]
        exact hn 0 t' (by omega) rfl
      simp only [decodeIf, hc, Exec.ok_bind, h1, Bool.false_eq_true, if_false]
      rw [ih (fun t h => he t (by simp [h])) ht (fun m t'' hm h => hn (m + 1) t'' (by omega) h)]
      rw [show n + 1 + k = n + (k + 1) by omega]

/-- There is a first match or none. -/
theorem first_or_none (ts : List Ty) (i : Id) :
    (∃ (n : Nat) (t : Ty), ts[n]? = some t ∧ i ∈ t.outer ∧ ∀ (m : Nat) (t' : Ty), m < n → ts[m]? = some t' → i ∉ t'.outer) ∨
      ∀ t ∈ ts, i ∉ t.outer := by
  induction ts with
  | nil => right; simp
  | cons t ts ih =>
    by_cases h : i ∈ t.outer
    · exact .inl ⟨0, t, rfl, h, fun m _ hm => by omega⟩
    · rcases ih with ⟨n, t', h1, h2, h3⟩ | h1
      · refine .inl ⟨n + 1, t', h1, h2, ?_⟩
        intro m t'' hm ht
        cases m with
        | zero =>
          simp only [List.getElem?_cons_zero, Option.some.injEq] at ht
          rw [← ht]; exact h
        | succ m => exact h3 m t'' (by omega) ht
      · right
        intro t' ht'
        rcases List.mem_cons.mp ht' with rfl | h'
        · exact h
        · exact h1 t' h'

theorem first_unique {c : LibChoice} {i : Id} {n m : Nat} {t u : Ty} (h1 : c.First i n t) (h2 : c.First i m u) :
    n = m ∧ t = u := by
  have : n = m := by
    rcases Nat.lt_trichotomy n m with h | h | h
    · exact (h2.2.2 n t h h1.1 h1.2.1).elim
    · exact h
    · exact (h1.2.2 m u h h2.1 h2.2.1).elim
  subst this
  have := h1.1.symm.trans h2.1
  simp only [Option.some.injEq] at this
  exact ⟨rfl, this⟩

/-- Dispatch on the element that carries the alternative; without one nothing happens. -/
theorem decodeView_cases {c : LibChoice} {v : BerView} (hs : SaneView v) (o0 : Obj) :
    (∃ u, c.Carries v u ∧ SaneView u ∧ (Parsed v → Parsed u) ∧ c.decodeView o0 v = decodeIf c.alts 0 o0 u) ∨
    ((∀ u, ¬ c.Carries v u) ∧ c.decodeView o0 v = .ok (false, o0)) := by
  cases hid : c.id with
  | untagged ids =>
    cases hv : v.valid with
    | true =>
      exact .inl ⟨v, ⟨hv, by rw [hid]⟩, hs, fun h => h, by simp [decodeView, hid, hv]⟩
    | false =>
      refine .inr ⟨?_, by simp [decodeView, hid, hv]⟩
      rintro u ⟨h1, h2⟩
      rw [hid] at h2
      dsimp only at h2
      rw [h2, hv] at h1; cases h1
  | tagged id =>
    rcases hasCorrectHeader_cases hs id .constructed with ⟨h1, w, hm⟩ | ⟨h1, hno⟩
    · have hsw := matches_sane hs hm
      have hwv := (matches_valid hm).2
      have hwk : w.construction = .ok .constructed := by
        cases id with
        | single i => obtain ⟨_, _, h3, rfl⟩ := hm; exact h3
        | double o i => obtain ⟨_, _, _, _, _, _, _, _, h3⟩ := hm; exact h3
      have hsc := hsw.inner hwv hwk
      have hc := hsw.content
      generalize (w.mem.drop w.hdr).take w.len = bs at hsc hc
      obtain ⟨q, hq, hsq, _⟩ := hsc.assign 0
      have hci : childIter v id = .ok ⟨bs, q⟩ := by
        rw [childIter_of_matches hm hc, Iter.mk', BerView.parse, hq]; rfl
      cases hqv : q.valid with
      | true =>
        exact .inl ⟨q, ⟨hqv, by rw [hid]; exact ⟨w, bs, hm, hc, hq⟩⟩, hsq, fun _ => ⟨bs, 0, hq⟩,
          by simp [decodeView, hid, h1, hci, hqv]⟩
      | false =>
        refine .inr ⟨?_, by simp [decodeView, hid, h1, hci, hqv]⟩
        rintro u ⟨h2, h3⟩
        rw [hid] at h3
        obtain ⟨w', bs', hm', hc', hq'⟩ := h3
        have := matches_unique hm hm'
        subst this
        rw [hc] at hc'
        simp only [Exec.ok.injEq] at hc'
        subst hc'
        rw [BerView.parse, hq] at hq'
        simp only [Exec.ok.injEq] at hq'
        subst hq'
        rw [hqv] at h2; cases h2
    · refine .inr ⟨?_, by simp [decodeView, hid, h1]⟩
      rintro u ⟨_, h3⟩
      rw [hid] at h3
      obtain ⟨w', bs', hm', _⟩ := h3
      exact hno w' hm'

theorem carries_unique {c : LibChoice} {v u u' : BerView} (h : c.Carries v u) (h' : c.Carries v u') : u = u' := by
  obtain ⟨_, h⟩ := h
  obtain ⟨_, h'⟩ := h'
  cases hid : c.id with
  | untagged ids => rw [hid] at h h'; exact h.trans h'.symm
  | tagged id =>
    rw [hid] at h h'
    obtain ⟨w, bs, hm, hc, hq⟩ := h
    obtain ⟨w', bs', hm', hc', hq'⟩ := h'
    have := matches_unique hm hm'
    subst this
    rw [hc] at hc'
    simp only [Exec.ok.injEq] at hc'
    subst hc'
    rw [hq] at hq'
    simpa using hq'

/-- Decoding a sane element. -/
theorem decodeView_law {c : LibChoice} (hw : c.WF) (hg : ∀ t ∈ c.alts, t.Guarded) {v : BerView} (hs : SaneView v)
    (hp : Parsed v) (o0 : Obj) :
    (∃ u i n t r o' , c.Carries v u ∧ u.identifier = .ok i ∧ c.First i n t ∧ c.decodeView o0 v = .ok (r, .alt n o') ∧
      t.Holds o' ∧ (r = true → t.Accepted u o') ∧ (t.Unamb → (∃ x, t.Reads u x) → r = true)) ∨
    (c.decodeView o0 v = .ok (false, o0) ∧
      ∀ u, c.Carries v u → ∃ i, u.identifier = .ok i ∧ ∀ n t, ¬ c.First i n t) := by
  rcases decodeView_cases (c := c) hs o0 with ⟨u, hcar, hsu, hpu, hd⟩ | ⟨hno, hd⟩
  · obtain ⟨cl, _, hi⟩ := hsu.identifier hcar.1
    have he : ∀ t ∈ c.alts, t.EncLaws := fun t h => t.encLaws (hw.2.1 t h)
    rcases first_or_none c.alts ⟨cl, u.tag⟩ with ⟨n, t, h1, h2, h3⟩ | hnone
    · have hmem := List.mem_of_getElem? h1
      obtain ⟨oi, xi, ei, hin, hri, _⟩ := (he t hmem).init
      obtain ⟨r, o', b1, b2, b3, b4⟩ := t.decLaw (hw.2.1 t hmem) (hg t hmem) hsu (hpu hp) (fun _ => hcar.1) ⟨xi, ei, hri⟩
      refine .inl ⟨u, _, n, t, r, o', hcar, hi, ⟨h1, h2, h3⟩, ?_, b2, b3, b4⟩
      rw [hd, decodeIf_first he hi h1 h2 h3 0 o0]
      simp [hin, b1]
    · refine .inr ⟨by rw [hd]; exact decodeIf_none he hi hnone 0 o0, ?_⟩
      intro u' hu'
      have := carries_unique hcar hu'
      subst this
      exact ⟨_, hi, fun n t hf => hnone t (List.mem_of_getElem? hf.1) hf.2.1⟩
  · exact .inr ⟨hd, fun u hu => (hno u hu).elim⟩

/-- Decoding what was encoded. -/
theorem round {c : LibChoice} (hw : c.WF) {o : Obj} {i : Nat} {x : Val} {e : Bytes} (h : c.Rep o i x e)
    (hl : e.length < 2 ^ 64) {t : Ty} (ht : c.alts[i]? = some t) (hu : t.Unamb) (hv : t.Valid x) {j : Nat}
    (hj : c.alts[j]? = some t) (hn : ∀ m t', m < j → c.alts[m]? = some t' → ∀ id ∈ t.outer, id ∉ t'.outer)
    (o0 : Obj) (s : Bytes) :
    ∃ o', c.decode o0 (e ++ s) = .ok (true, o') ∧ c.Rep o' j x e := by
  obtain ⟨t', o1, e1, ht', rfl, hr, rfl⟩ := h
  have htt : t' = t := by rw [ht] at ht'; simpa using ht'.symm
  subst htt
  have he : ∀ t ∈ c.alts, t.EncLaws := fun t h => t.encLaws (hw.2.1 t h)
  have hlaw := he t' (List.mem_of_getElem? ht)
  obtain ⟨oi, xi, ei, hin, hri, _⟩ := hlaw.init
  -- what happens on the carrying element
  have key : ∀ {bs : Bytes} {u : BerView}, e1.length < 2 ^ 64 → BerView.assign (e1 ++ bs) 0 = .ok u → u.valid = true ∧
      ∃ o', decodeIf c.alts 0 o0 u = .ok (true, .alt j o') ∧ t'.Rep o' x e1 := by
    intro bs u hl1 hu1
    obtain ⟨v', k, h1, h2, _, _, h5, h6, _⟩ := elem_assign hlaw hr hl1 bs 0
    rw [hu1] at h1
    simp only [Exec.ok.injEq] at h1
    subst h1
    obtain ⟨o', hd, hr'⟩ := t'.roundLaw (hw.2.1 t' (List.mem_of_getElem? ht)) hu hr hv hl1 ⟨xi, ei, hri⟩ hu1
    refine ⟨h2, o', ?_, hr'⟩
    rw [decodeIf_first he h6 hj h5 (fun m t'' hm hm' => hn m t'' hm hm' k h5) 0 o0]
    simp [hin, hd]
  cases hid : c.id with
  | untagged ids =>
    rw [hid] at hl
    dsimp only at hl ⊢
    obtain ⟨u, _, h1, _⟩ := elem_assign hlaw hr hl s 0
    obtain ⟨h2, o', h3, h4⟩ := key hl h1
    exact ⟨.alt j o', by simp [decode, BerView.parse, h1, decodeView, hid, h2, h3], t', o', e1, hj, rfl, h4, by rw [hid]⟩
  | tagged id =>
    have hi := hw.2.2
    rw [hid] at hl hi
    dsimp only at hl hi ⊢
    have hc := content_le_tagged id .constructed e1
    obtain ⟨w, h1, h2, h3⟩ := matches_tagged id hi .constructed e1 s hl
    obtain ⟨u, _, h4, _⟩ := elem_assign hlaw hr (by omega) [] 0
    obtain ⟨h5, o', h6, h7⟩ := key (by omega) h4
    rw [List.append_nil] at h4
    have hit : childIter (taggedView id .constructed e1 s) id = .ok ⟨e1, u⟩ := by
      rw [childIter_of_matches h1 h2]; simp [Iter.mk', BerView.parse, h4]
    refine ⟨.alt j o', ?_, t', o', e1, hj, rfl, h7, by rw [hid]⟩
    simp only [decode, BerView.parse, assign_tagged id hi _ _ _ _ hl, Exec.ok_bind, decodeView, hid,
      hasCorrectHeader_true.mpr ⟨w, h1⟩, Bool.not_true, Bool.false_eq_true, if_false, hit, h5, h6]

end FastBer.LibChoice
