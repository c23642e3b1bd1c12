import Verif.Proofs.SchemaEnc
/-! # Leaves of generated types: encoding side -/
namespace FastBer
open Spec

/-- Laws of the encoding side of a type. -/
structure Ty.EncLaws (t : Ty) : Prop where
  unique : ∀ {o x e x' e'}, t.Rep o x e → t.Rep o x' e' → x = x' ∧ e = e'
  init : ∃ o x e, t.codec.init = .ok o ∧ t.Rep o x e ∧ t.Valid x
  size : ∀ {o x e}, t.Rep o x e → e.length < 2 ^ 64 → t.codec.size o = e.length
  writes : ∀ {o x e}, t.Rep o x e → e.length < 2 ^ 64 → Writes (t.codec.encode o) e
  elem : ∀ {o x e}, t.Rep o x e → e.length < 2 ^ 64 → ∃ v i, BerView.parse e = .ok v ∧ v.valid = true ∧
    v.hdr + v.len = e.length ∧ i ∈ t.outer ∧ v.identifier = .ok i
  ids : t.codec.ids = t.outer

theorem smallRep_iff {max : Nat} {id : Ident} {o : Obj} {x : Val} {e : Bytes} :
    smallRep max id o x e ↔ ∃ c d, x = .content c ∧ o = .raw d ∧ SmallWf id max c d ∧
      e = tagged id .primitive c := by
  constructor
  · rintro ⟨c, junk, rfl, h1, h2, rfl, rfl⟩
    exact ⟨c, _, rfl, rfl, ⟨h1, junk, rfl, h2⟩, rfl⟩
  · rintro ⟨c, d, rfl, rfl, ⟨h1, junk, rfl, h2⟩, rfl⟩
    exact ⟨c, junk, rfl, h1, h2, rfl, rfl⟩

theorem contRep_iff {id : Ident} {o : Obj} {x : Val} {e : Bytes} :
    contRep id o x e ↔ ∃ c : Cont, o = .cont c ∧ ContWf id c ∧ e = c.data ∧
      x = .content (c.data.drop (c.data.length - c.len)) := by
  constructor
  · rintro ⟨v, w, h1, h2, h3, h4, h5, rfl, rfl⟩
    exact ⟨_, rfl, ⟨v, w, h1, h4, h2, h3, rfl, h5⟩, rfl, rfl⟩
  · rintro ⟨⟨d, n⟩, rfl, ⟨v, w, h1, h4, h2, h3, h6, h5⟩, rfl, rfl⟩
    dsimp only at h6 h1 h2 h3 h5
    subst h6
    exact ⟨v, w, h1, h2, h3, h4, h5, rfl, rfl⟩

theorem writes_array (d : Bytes) : Writes (fun buf => .ok (encodeArray d buf)) d := by
  constructor
  · intro buf h; simp [encodeArray_eq, h]
  · intro buf h
    exact ⟨buf, by dsimp only; rw [encodeArray_eq, if_neg (by omega)]; rfl, rfl⟩

theorem elem_tagged (id : Ident) (hid : identOk id) (k : Construction) (c : Bytes)
    (hl : (tagged id k c).length < 2 ^ 64) :
    ∃ v i, BerView.parse (tagged id k c) = .ok v ∧ v.valid = true ∧ v.hdr + v.len = (tagged id k c).length ∧
      i ∈ [id.outer] ∧ v.identifier = .ok i := by
  have h1 := assign_tagged id hid k c [] 0 hl
  obtain ⟨h2, h3, _⟩ := taggedView_hdr_len id k c []
  obtain ⟨w, hw, _⟩ := matches_tagged id hid k c [] hl
  exact ⟨_, id.outer, by simpa [BerView.parse] using h1, h3, h2, by simp, matches_outer hw⟩

section small
variable {id : Ident} (hid : identOk id) {max : Nat} (hmax : max ≤ 100)
include hid hmax

theorem small_lt {c : Bytes} (h : c.length ≤ max) : (tagged id .primitive c).length < 2 ^ 64 := by
  have := Ident.encodedLength_lt id c.length
  rw [length_tagged hid _ _ (by omega)]; omega

theorem small_unique {o : Obj} {x x' : Val} {e e' : Bytes} (h : smallRep max id o x e)
    (h' : smallRep max id o x' e') : x = x' ∧ e = e' := by
  obtain ⟨c, d, rfl, rfl, hw, rfl⟩ := smallRep_iff.mp h
  obtain ⟨c', d', rfl, hd, hw', rfl⟩ := smallRep_iff.mp h'
  simp only [Obj.raw.injEq] at hd
  subst hd
  have h1 := hw.content hid hmax
  have h2 := hw'.content hid hmax
  rw [h1] at h2
  simp only [Exec.ok.injEq] at h2
  subst h2
  exact ⟨rfl, rfl⟩

theorem small_writes {o : Obj} {x : Val} {e : Bytes} (h : smallRep max id o x e) :
    ∃ d, o = .raw d ∧ Writes (Small.encode id d) e ∧ Small.berLength id d = e.length := by
  obtain ⟨c, d, rfl, rfl, hw, rfl⟩ := smallRep_iff.mp h
  refine ⟨d, rfl, ⟨?_, ?_⟩, hw.berLength hid hmax⟩
  · intro buf hb; rw [hw.encode hid hmax, if_pos hb]
  · intro buf hb; rw [hw.encode hid hmax, if_neg (by omega)]; exact ⟨buf, rfl, rfl⟩

theorem small_elem {o : Obj} {x : Val} {e : Bytes} (h : smallRep max id o x e) :
    ∃ v i, BerView.parse e = .ok v ∧ v.valid = true ∧ v.hdr + v.len = e.length ∧ i ∈ [id.outer] ∧
      v.identifier = .ok i := by
  obtain ⟨c, d, rfl, rfl, hw, rfl⟩ := smallRep_iff.mp h
  exact elem_tagged id hid _ c (small_lt hid hmax hw.1)

end small

theorem cont_unique {id : Ident} {o : Obj} {x x' : Val} {e e' : Bytes} (h : contRep id o x e)
    (h' : contRep id o x' e') : x = x' ∧ e = e' := by
  obtain ⟨c, rfl, _, rfl, rfl⟩ := contRep_iff.mp h
  obtain ⟨c', hc, _, rfl, rfl⟩ := contRep_iff.mp h'
  simp only [Obj.cont.injEq] at hc
  subst hc
  exact ⟨rfl, rfl⟩

theorem cont_elem {id : Ident} {o : Obj} {x : Val} {e : Bytes} (h : contRep id o x e) :
    ∃ v i, BerView.parse e = .ok v ∧ v.valid = true ∧ v.hdr + v.len = e.length ∧ i ∈ [id.outer] ∧
      v.identifier = .ok i := by
  obtain ⟨v, w, h1, h2, h3, h4, h5, rfl, rfl⟩ := h
  exact ⟨v, id.outer, h1, (matches_valid h4).1, h2, by simp, matches_outer h4⟩

theorem cont_writes {id : Ident} {o : Obj} {x : Val} {e : Bytes} (h : contRep id o x e) :
    ∃ c : Cont, o = .cont c ∧ Writes (fun buf => .ok (c.encode buf)) e ∧ c.encodedLength = e.length := by
  obtain ⟨c, rfl, _, rfl, rfl⟩ := contRep_iff.mp h
  refine ⟨c, rfl, ?_, rfl⟩
  have := writes_array c.data
  exact this

theorem canon_rep {id : Ident} (hid : identOk id) {c : Cont} {x : Bytes} (h : ContCanon id x c)
    (hl : (tagged id .primitive x).length < 2 ^ 64) : contRep id (.cont c) (.content x) (tagged id .primitive x) := by
  have hw := h.wf hid hl
  rw [contRep_iff]
  refine ⟨c, rfl, hw, by rw [h], ?_⟩
  have h1 := hw.content
  have h2 := h.content
  rw [h1] at h2
  simp only [Exec.ok.injEq] at h2
  rw [h2]

theorem default_int_rep {id : Ident} (hid : identOk id) :
    ∃ d, Integer.default id = .ok d ∧ smallRep 8 id (.raw d) (.content [0]) (tagged id .primitive [0]) := by
  obtain ⟨d, hd, hw⟩ := (SmallWf.init hid 8).assignContent hid (by omega) [0] (by simp)
  exact ⟨d, hd, smallRep_iff.mpr ⟨[0], d, rfl, rfl, hw, rfl⟩⟩

theorem leaf_laws (k : Leaf) (id : Ident) (hid : identOk id) : (Ty.leaf k id).EncLaws := by
  have htl : ∀ (x : Bytes), x.length ≤ 100 → (tagged id .primitive x).length < 2 ^ 64 :=
    fun x hx => small_lt hid (Nat.le_refl 100) hx
  cases k with
  | int =>
    constructor
    · exact fun h h' => small_unique hid (by omega) h h'
    · obtain ⟨d, h1, h2⟩ := default_int_rep hid
      exact ⟨.raw d, _, _, by simp [Ty.codec, Leaf.codec, intCodec, h1], h2, trivial⟩
    · intro o x e h _
      obtain ⟨d, rfl, _, h3⟩ := small_writes hid (by omega) h
      exact h3
    · intro o x e h _
      obtain ⟨d, rfl, h2, _⟩ := small_writes hid (by omega) h
      exact h2
    · intro o x e h _
      exact small_elem hid (by omega) h
    · rfl
  | enum =>
    constructor
    · exact fun h h' => small_unique hid (by omega) h h'
    · obtain ⟨d, h1, h2⟩ := default_int_rep hid
      exact ⟨.raw d, _, _, by simp [Ty.codec, Leaf.codec, enumCodec, Enumerated.default, h1], h2, trivial⟩
    · intro o x e h _
      obtain ⟨d, rfl, _, h3⟩ := small_writes hid (by omega) h
      exact h3
    · intro o x e h _
      obtain ⟨d, rfl, h2, _⟩ := small_writes hid (by omega) h
      exact h2
    · intro o x e h _
      exact small_elem hid (by omega) h
    · rfl
  | real cmp =>
    constructor
    · exact fun h h' => small_unique hid (by omega) h h'
    · exact ⟨.raw (Small.init id 100), .content [], _, rfl,
        smallRep_iff.mpr ⟨[], _, rfl, rfl, SmallWf.init hid 100, rfl⟩, trivial⟩
    · intro o x e h _
      obtain ⟨d, rfl, _, h3⟩ := small_writes hid (by omega) h
      exact h3
    · intro o x e h _
      obtain ⟨d, rfl, h2, _⟩ := small_writes hid (by omega) h
      exact h2
    · intro o x e h _
      exact small_elem hid (by omega) h
    · rfl
  | bool =>
    constructor
    · rintro o x e x' e' ⟨b, rfl, rfl, rfl⟩ ⟨b', rfl, rfl, h⟩
      simp only [Obj.raw.injEq] at h
      have h1 := getLastD_tagged id b
      have h2 := getLastD_tagged id b'
      rw [h, h2] at h1
      subst h1
      exact ⟨rfl, rfl⟩
    · refine ⟨.raw (Boolean.default id), _, _, rfl, ⟨0, rfl, rfl, ?_⟩, trivial⟩
      rw [Boolean.default, encodedHeaderArray_eq hid (by omega)]
      rfl
    · rintro o x e ⟨b, rfl, rfl, rfl⟩ _
      have := tagged_length hid .primitive [b] (htl _ (by simp))
      exact this
    · rintro o x e ⟨b, rfl, rfl, rfl⟩ _
      exact writes_array _
    · rintro o x e ⟨b, rfl, rfl, rfl⟩ hl
      exact elem_tagged id hid _ _ hl
    · rfl
  | null =>
    constructor
    · rintro o x e x' e' ⟨rfl, rfl, rfl⟩ ⟨rfl, rfl, h⟩
      exact ⟨rfl, rfl⟩
    · refine ⟨.raw (Null.default id), _, _, rfl, ⟨rfl, rfl, ?_⟩, trivial⟩
      rw [Null.default, encodedHeaderArray_eq hid (by omega)]
      rfl
    · rintro o x e ⟨rfl, rfl, rfl⟩ _
      have := tagged_length hid .primitive [] (htl _ (by simp))
      exact this
    · rintro o x e ⟨rfl, rfl, rfl⟩ _
      exact writes_array _
    · rintro o x e ⟨rfl, rfl, rfl⟩ hl
      exact elem_tagged id hid _ _ hl
    · rfl
  | str =>
    constructor
    · exact fun h h' => cont_unique h h'
    · exact ⟨.cont (Cont.default id), _, _, rfl, canon_rep hid (default_canon hid) (htl _ (by simp)), trivial⟩
    · intro o x e h _
      obtain ⟨c, rfl, _, h3⟩ := cont_writes h
      exact h3
    · intro o x e h _
      obtain ⟨c, rfl, h2, _⟩ := cont_writes h
      exact h2
    · exact fun h _ => cont_elem h
    · rfl
  | oid =>
    constructor
    · exact fun h h' => cont_unique h h'
    · exact ⟨.cont (Cont.default id), _, _, rfl, canon_rep hid (default_canon hid) (htl _ (by simp)), trivial⟩
    · intro o x e h _
      obtain ⟨c, rfl, _, h3⟩ := cont_writes h
      exact h3
    · intro o x e h _
      obtain ⟨c, rfl, h2, _⟩ := cont_writes h
      exact h2
    · exact fun h _ => cont_elem h
    · rfl
  | time cmp =>
    constructor
    · exact fun h h' => cont_unique h h'
    · have hx : epochContent.length = 15 := rfl
      have := Ident.encodedLength_lt id epochContent.length
      refine ⟨_, _, _, rfl, canon_rep hid (assignContent_canon hid (Cont.default id) epochContent (by omega))
        (htl _ (by omega)), ?_⟩
      exact ⟨by omega, by omega⟩
    · intro o x e h _
      obtain ⟨c, rfl, _, h3⟩ := cont_writes h
      exact h3
    · intro o x e h _
      obtain ⟨c, rfl, h2, _⟩ := cont_writes h
      exact h2
    · exact fun h _ => cont_elem h
    · rfl

end FastBer
