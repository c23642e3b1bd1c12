import Verif.Proofs.SchemaMin
/-! # Decoding arbitrary input: leaves and SEQUENCE OF -/
namespace FastBer
open Spec

/-- The view came out of the element reader. -/
def Parsed (v : BerView) : Prop := ∃ bs tag0, BerView.assign bs tag0 = .ok v

/-- The object holds a value read from the element. -/
def Ty.Accepted (t : Ty) (v : BerView) (o : Obj) : Prop :=
  ∃ x e i, t.Rep o x e ∧ t.Valid x ∧ e.length ≤ v.hdr + v.len ∧ v.valid = true ∧ v.identifier = .ok i ∧
    i ∈ t.outer ∧ (t.Proper → t.Reads v x)

theorem Ty.Accepted.holds {t : Ty} {v : BerView} {o : Obj} (h : t.Accepted v o) : t.Holds o := by
  obtain ⟨x, e, _, h, _⟩ := h; exact ⟨x, e, h⟩

/-- Decoding any sane element finishes; success means the element was read, and whatever can be read
is. -/
def Ty.DecLaw (t : Ty) : Prop :=
  ∀ {v}, SaneView v → Parsed v → (t.isUntaggedChoice → v.valid = true) → ∀ {o0}, t.Holds o0 →
    ∃ r o', t.codec.decode o0 v = .ok (r, o') ∧ t.Holds o' ∧ (r = true → t.Accepted v o') ∧
      (t.Unamb → (∃ x, t.Reads v x) → r = true)

/-! ## Leaves -/

theorem small_safe {id : Ident} (hid : identOk id) {max : Nat} (hmax : max ≤ 100) {v : BerView} (hs : SaneView v)
    (hp : Parsed v) {o0 : Obj} {x0 : Val} {e0 : Bytes} (h0 : smallRep max id o0 x0 e0) :
    (∃ w c o', Matches v id .primitive w ∧ w.content = .ok c ∧ c.length ≤ max ∧
      onRaw (fun d => Small.decode id max d v) o0 = .ok (true, o') ∧
      smallRep max id o' (.content c) (tagged id .primitive c) ∧ (tagged id .primitive c).length ≤ v.hdr + v.len) ∨
    (onRaw (fun d => Small.decode id max d v) o0 = .ok (false, o0) ∧
      ∀ w c, Matches v id .primitive w → w.content = .ok c → ¬ c.length ≤ max) := by
  obtain ⟨c0, d0, rfl, rfl, hw0, rfl⟩ := smallRep_iff.mp h0
  rcases hw0.decode hid hmax v hs with ⟨w, c, d', hm, hc, hl, hd, hw'⟩ | ⟨hno, hd⟩
  · exact .inl ⟨w, c, .raw d', hm, hc, hl, by simp [onRaw, hd], smallRep_iff.mpr ⟨c, d', rfl, rfl, hw', rfl⟩,
      matches_min hid hs hp hm _ _ (by rw [content_ok_length hc]; exact Nat.le_refl _)⟩
  · refine .inr ⟨by simp [onRaw, hd], fun w c hm hc hl => ?_⟩
    have := hno w hm
    rw [content_ok_length hc] at hl
    omega

theorem cont_safe {id : Ident} (v : BerView) (hs : SaneView v) (hp : Parsed v) (c0 : Cont) :
    (∃ w c c' n, Matches v id .primitive w ∧ w.content = .ok c ∧ c'.length = c.length ∧
      Cont.decode id c0 v = .ok (true, n) ∧ n.len = c.length ∧
      contRep id (.cont n) (.content c') n.data ∧ n.data.length ≤ v.hdr + v.len ∧ (Fills v id w → c' = c)) ∨
    (Cont.decode id c0 v = .ok (false, c0) ∧ ∀ w, ¬ Matches v id .primitive w) := by
  rcases Cont.decode_cases id c0 v hs with ⟨w, hm, hd⟩ | ⟨hno, hd⟩
  · have hwf := decode_wf hs hm hp
    have hsw := matches_sane hs hm
    have hwv := (matches_valid hm).2
    have hv := (matches_valid hm).1
    have hc := hsw.content
    have hcl := content_ok_length hc
    obtain ⟨h2, hb, _⟩ := hs.bound hv
    have hle := (matches_len_le hs hm).1
    have hdl : (v.mem.take (v.hdr + v.len)).length = v.hdr + v.len := by rw [List.length_take]; omega
    refine .inl ⟨w, _, _, _, hm, hc, ?_, hd, hcl.symm, contRep_iff.mpr ⟨_, rfl, hwf, rfl, rfl⟩, ?_, ?_⟩
    · rw [hcl]
      show ((v.mem.take (v.hdr + v.len)).drop ((v.mem.take (v.hdr + v.len)).length - w.len)).length = w.len
      rw [List.length_drop, hdl]; omega
    · show (v.mem.take (v.hdr + v.len)).length ≤ _
      omega
    · intro hf
      show (v.mem.take (v.hdr + v.len)).drop ((v.mem.take (v.hdr + v.len)).length - w.len) = _
      rw [hdl]
      cases id with
      | single i =>
        obtain ⟨_, _, _, rfl⟩ := hm
        rw [Nat.add_sub_cancel, List.drop_take, Nat.add_sub_cancel_left]
      | double o i =>
        obtain ⟨_, _, _, c0, hc0, hpar, _⟩ := hm
        obtain ⟨hwm, _⟩ := assign_valid hpar hwv
        rw [hs.content] at hc0
        simp only [Exec.ok.injEq] at hc0
        subst hc0
        simp only [Fills] at hf
        rw [hwm, hf, List.drop_take, List.drop_take, List.take_take, List.drop_drop]
        rw [show v.hdr + (w.hdr + w.len) - w.len = v.hdr + w.hdr by omega,
          show v.hdr + (w.hdr + w.len) - (v.hdr + w.hdr) = w.len by omega,
          show min w.len (w.hdr + w.len - w.hdr) = w.len by omega]
  · exact .inr ⟨hd, hno⟩

theorem leaf_dec (k : Leaf) (id : Ident) (hid : identOk id) : (Ty.leaf k id).DecLaw := by
  intro v hs hp _ o0 ⟨x0, e0, h0⟩
  have small : ∀ max, max ≤ 100 → (Ty.leaf k id).Rep = smallRep max id → (∀ c, (Ty.leaf k id).Valid (.content c)) →
      (∀ n, leafTakes k n ↔ n ≤ max) → (∀ w c, Matches v id .primitive w → w.content = .ok c → c.length ≤ max →
        leafReads k id v (.content c)) → (∀ o, (Ty.leaf k id).codec.decode o v = onRaw (fun d => Small.decode id max d v) o) →
      ∃ r o', (Ty.leaf k id).codec.decode o0 v = .ok (r, o') ∧ (Ty.leaf k id).Holds o' ∧
        (r = true → (Ty.leaf k id).Accepted v o') ∧ ((Ty.leaf k id).Unamb → (∃ x, (Ty.leaf k id).Reads v x) → r = true) := by
    intro max hmax hrep hval htk hrd hdec
    rw [hrep] at h0
    rcases small_safe hid hmax hs hp h0 with ⟨w, c, o', hm, hc, hl, hd, hr, hle⟩ | ⟨hd, hno⟩
    · have hacc : (Ty.leaf k id).Accepted v o' := ⟨.content c, _, id.outer, by rw [hrep]; exact hr, hval c, hle,
        (matches_valid hm).1, matches_outer hm, by simp [Ty.outer], fun _ => hrd w c hm hc hl⟩
      exact ⟨true, o', by rw [hdec]; exact hd, hacc.holds, fun _ => hacc, fun _ _ => rfl⟩
    · refine ⟨false, o0, by rw [hdec]; exact hd, ⟨x0, e0, by rw [hrep]; exact h0⟩, (fun h => nomatch h), ?_⟩
      rintro _ ⟨x, w, c, c', hm, hc, htl, _⟩
      exact (hno w c hm hc ((htk _).mp htl)).elim
  have cont : (Ty.leaf k id).Rep = contRep id → (∀ c, (Ty.leaf k id).Valid (.content c)) →
      (∀ n, leafTakes k n) → (∀ w c c', Matches v id .primitive w → w.content = .ok c → c'.length = c.length →
        (Fills v id w → c' = c) → leafReads k id v (.content c')) →
      (∀ o, (Ty.leaf k id).codec.decode o v = onCont (fun c => Cont.decode id c v) o) →
      ∃ r o', (Ty.leaf k id).codec.decode o0 v = .ok (r, o') ∧ (Ty.leaf k id).Holds o' ∧
        (r = true → (Ty.leaf k id).Accepted v o') ∧ ((Ty.leaf k id).Unamb → (∃ x, (Ty.leaf k id).Reads v x) → r = true) := by
    intro hrep hval htk hrd hdec
    rw [hrep] at h0
    obtain ⟨c0, rfl, hwf0, rfl, rfl⟩ := contRep_iff.mp h0
    rcases cont_safe (id := id) v hs hp c0 with ⟨w, c, c', n, hm, hc, hl, hd, _, hr, hle, hf⟩ | ⟨hd, hno⟩
    · have hacc : (Ty.leaf k id).Accepted v (.cont n) := ⟨.content c', _, id.outer, by rw [hrep]; exact hr, hval c', hle,
        (matches_valid hm).1, matches_outer hm, by simp [Ty.outer], fun _ => hrd w c c' hm hc hl hf⟩
      exact ⟨true, .cont n, by rw [hdec]; simp [onCont, hd], hacc.holds, fun _ => hacc, fun _ _ => rfl⟩
    · refine ⟨false, .cont c0, by rw [hdec]; simp [onCont, hd], ⟨_, _, by rw [hrep]; exact h0⟩, (fun h => nomatch h), ?_⟩
      rintro _ ⟨x, w, c, c', hm, _⟩
      exact (hno w hm).elim
  cases k with
  | int =>
    exact small 8 (by omega) rfl (fun _ => trivial) (fun _ => Iff.rfl)
      (fun w c hm hc hl => ⟨w, c, c, hm, hc, hl, rfl, rfl, rfl⟩) (fun _ => rfl)
  | enum =>
    exact small 8 (by omega) rfl (fun _ => trivial) (fun _ => Iff.rfl)
      (fun w c hm hc hl => ⟨w, c, c, hm, hc, hl, rfl, rfl, rfl⟩) (fun _ => rfl)
  | real cmp =>
    exact small 100 (by omega) rfl (fun _ => trivial) (fun _ => Iff.rfl)
      (fun w c hm hc hl => ⟨w, c, c, hm, hc, hl, rfl, rfl, rfl⟩) (fun _ => rfl)
  | str =>
    exact cont rfl (fun _ => trivial) (fun _ => trivial)
      (fun w c c' hm hc hl hf => ⟨w, c, c', hm, hc, trivial, rfl, hl, hf⟩) (fun _ => rfl)
  | oid =>
    exact cont rfl (fun _ => trivial) (fun _ => trivial)
      (fun w c c' hm hc hl hf => ⟨w, c, c', hm, hc, trivial, rfl, hl, hf⟩) (fun _ => rfl)
  | bool =>
    obtain ⟨b0, rfl, rfl, rfl⟩ := h0
    rcases Boolean.decode_cases id (tagged id .primitive [b0]) v hs with ⟨w, b, hm, hc, hd⟩ | ⟨hno, hd⟩
    · rw [setBack_tagged] at hd
      have hacc : (Ty.leaf .bool id).Accepted v (.raw (tagged id .primitive [b])) :=
        ⟨.content [b], _, id.outer, ⟨b, rfl, rfl, rfl⟩, trivial,
        matches_min hid hs hp hm _ _ (by rw [content_ok_length hc]; exact Nat.le_refl _),
        (matches_valid hm).1, matches_outer hm, by simp [Ty.outer], fun _ => ⟨w, [b], [b], hm, hc, rfl, rfl, rfl, rfl⟩⟩
      exact ⟨true, _, by simp [Ty.codec, Leaf.codec, boolCodec, onRaw, hd], hacc.holds, fun _ => hacc, fun _ _ => rfl⟩
    · refine ⟨false, _, by simp only [Ty.codec, Leaf.codec, boolCodec, onRaw, hd]; rfl, ⟨_, _, b0, rfl, rfl, rfl⟩, (fun h => nomatch h), ?_⟩
      rintro _ ⟨x, w, c, c', hm, hc, htl, _⟩
      exact (hno w c hm hc htl).elim
  | null =>
    obtain ⟨rfl, rfl, rfl⟩ := h0
    rcases Null.decode_cases id (tagged id .primitive []) v hs with ⟨w, hm, hc, hd⟩ | ⟨hno, hd⟩
    · have hacc : (Ty.leaf .null id).Accepted v (.raw (tagged id .primitive [])) :=
        ⟨.content [], _, id.outer, ⟨rfl, rfl, rfl⟩, trivial,
        matches_min hid hs hp hm _ _ (by rw [content_ok_length hc]; exact Nat.le_refl _),
        (matches_valid hm).1, matches_outer hm, by simp [Ty.outer], fun _ => ⟨w, [], [], hm, hc, rfl, rfl, rfl, rfl⟩⟩
      exact ⟨true, _, by simp [Ty.codec, Leaf.codec, nullCodec, onRaw, hd], hacc.holds, fun _ => hacc, fun _ _ => rfl⟩
    · refine ⟨false, _, by simp only [Ty.codec, Leaf.codec, nullCodec, onRaw, hd]; rfl, ⟨_, _, rfl, rfl, rfl⟩, (fun h => nomatch h), ?_⟩
      rintro _ ⟨x, w, c, c', hm, hc, htl, _⟩
      exact (hno w c hm hc (List.length_eq_zero_iff.mp htl)).elim
  | time cmp =>
    obtain ⟨c0, rfl, hwf0, rfl, rfl⟩ := contRep_iff.mp (show contRep id o0 x0 e0 from h0)
    rcases cont_safe (id := id) v hs hp c0 with ⟨w, c, c', n, hm, hc, hl, hd, hnl, hr, hle, hf⟩ | ⟨hd, hno⟩
    · by_cases hlen : n.len < 10 ∨ n.len > 23
      · refine ⟨false, .cont n, by simp [Ty.codec, Leaf.codec, timeCodec, onCont, timeDecode, hd, hlen], ⟨_, _, hr⟩,
          (fun h => nomatch h), ?_⟩
        rintro _ ⟨x, w', d, d', hm', hc', htl, _⟩
        have := matches_unique hm hm'
        subst this
        rw [hc] at hc'
        simp only [Exec.ok.injEq] at hc'
        subst hc'
        have : 10 ≤ c.length ∧ c.length ≤ 23 := htl
        omega
      · have hacc : (Ty.leaf (.time cmp) id).Accepted v (.cont n) := ⟨.content c', _, id.outer, hr,
          (show 10 ≤ c'.length ∧ c'.length ≤ 23 by omega), hle,
          (matches_valid hm).1, matches_outer hm, by simp [Ty.outer],
          fun _ => ⟨w, c, c', hm, hc, (show 10 ≤ c.length ∧ c.length ≤ 23 by omega), rfl, hl, hf⟩⟩
        exact ⟨true, .cont n, by simp [Ty.codec, Leaf.codec, timeCodec, onCont, timeDecode, hd, hlen], hacc.holds,
          fun _ => hacc, fun _ _ => rfl⟩
    · refine ⟨false, .cont c0, ?_, ⟨_, _, h0⟩, (fun h => nomatch h), ?_⟩
      · by_cases hlen : c0.len < 10 ∨ c0.len > 23 <;>
          simp [Ty.codec, Leaf.codec, timeCodec, onCont, timeDecode, hd, hlen]
      · rintro _ ⟨x, w, c, c', hm, _⟩
        exact (hno w hm).elim

/-! ## Elements -/

theorem Elements.unique {bs : Bytes} {vs vs' : List BerView} (h : Elements bs vs) (h' : Elements bs vs') : vs = vs' := by
  induction h generalizing vs' with
  | stop ha hv =>
    cases h' with
    | stop => rfl
    | step hb hw _ =>
      rw [ha] at hb; simp only [Exec.ok.injEq] at hb; subst hb; rw [hv] at hw; cases hw
  | step ha hv _ ih =>
    cases h' with
    | stop hb hw => rw [ha] at hb; simp only [Exec.ok.injEq] at hb; subst hb; rw [hv] at hw; cases hw
    | step hb hw hr =>
      rw [ha] at hb; simp only [Exec.ok.injEq] at hb; subst hb
      rw [ih hr]

/-- Elements of sane content: they exist, and every one of them is sane. -/
theorem sane_elements {bs : Bytes} (h : Sane bs) :
    ∃ vs, Elements bs vs ∧ (∀ v ∈ vs, v.valid = true ∧ SaneView v ∧ Parsed v) ∧
      (vs.map fun v => v.hdr + v.len).sum ≤ bs.length := by
  induction h with
  | stop h =>
    obtain ⟨v, h1, h2⟩ := h 0
    exact ⟨[], .stop h1 h2, by simp, by simp⟩
  | @elem bs v ha hv hw hpk hin hrest ih1 ih2 =>
    obtain ⟨vs, h1, h2, h3⟩ := ih2
    obtain ⟨v', ha', hs', _⟩ := (Sane.elem ha hv hw hpk hin hrest).assign 0
    rw [ha] at ha'
    simp only [Exec.ok.injEq] at ha'
    subst ha'
    obtain ⟨hm, _⟩ := assign_valid ha hv
    obtain ⟨_, hb, _⟩ := hs'.bound hv
    rw [hm] at hb
    rw [List.length_drop] at h3
    refine ⟨v :: vs, .step ha hv h1, ?_, by simp only [List.map_cons, List.sum_cons]; omega⟩
    intro u hu
    rcases List.mem_cons.mp hu with rfl | hu
    · exact ⟨hv, hs', bs, 0, ha⟩
    · exact h2 u hu

/-! ## SEQUENCE OF -/

theorem holds_list {t : Ty} {os : List Obj} (h : ∀ o ∈ os, t.Holds o) : ∃ xs es, all3 t.Rep os xs es := by
  induction os with
  | nil => exact ⟨[], [], trivial⟩
  | cons o os ih =>
    obtain ⟨xs, es, h1⟩ := ih fun o ho => h o (by simp [ho])
    obtain ⟨x, e, h2⟩ := h o (by simp)
    exact ⟨x :: xs, e :: es, h2, h1⟩

theorem decodeChildren_safe {t : Ty} (ht : t.EncLaws) (hd : t.DecLaw) {buf : Bytes} {vs : List BerView}
    (h : Elements buf vs) (hs : Sane buf) (tag0 : Int) :
    ∃ r os, decodeChildren t.codec.init t.codec.decode buf tag0 = .ok (r, os) ∧ (∀ o ∈ os, t.Holds o) ∧
      (r = true → ∃ xs es, all3 t.Rep os xs es ∧ (∀ y ∈ xs, t.Valid y) ∧ es.flatten.length ≤ buf.length ∧
        (t.Proper → all2 t.Reads vs xs)) ∧
      (t.Unamb → (∃ xs, all2 t.Reads vs xs) → r = true) := by
  induction h generalizing tag0 with
  | @stop bs v ha hv =>
    obtain ⟨v', ha', hv'⟩ := assign_invalid_indep ha hv tag0
    refine ⟨true, [], by rw [decodeChildren, ha']; simp [hv'], by simp, fun _ => ⟨[], [], trivial, by simp, by simp, fun _ => trivial⟩, fun _ _ => rfl⟩
  | @step bs v vs ha hv hr ih =>
    obtain ⟨v', ha', hsv, hrest⟩ := hs.assign tag0
    rw [assign_tag_indep ha hv tag0] at ha'
    simp only [Exec.ok.injEq] at ha'
    subst ha'
    obtain ⟨hm, hsr⟩ := hrest hv
    obtain ⟨h2, hb, _⟩ := hsv.bound hv
    rw [hm] at hb
    obtain ⟨o, x0, e0, hi, hrep, _⟩ := ht.init
    obtain ⟨r, o', h3, h4, h5, h6⟩ := hd hsv ⟨bs, 0, ha⟩ (fun _ => hv) ⟨x0, e0, hrep⟩
    have hbl := hsv.berLength
    cases r with
    | false =>
      refine ⟨false, [o'], ?_, by simpa using h4, (fun h => nomatch h), ?_⟩
      · rw [decodeChildren, assign_tag_indep ha hv tag0]; simp [hv, hi, h3]
      · rintro hu ⟨xs, hx⟩
        cases xs with
        | nil => exact hx.elim
        | cons x xs => exact h6 hu ⟨x, hx.1⟩
    | true =>
      obtain ⟨r', os, h7, h8, h9, h10⟩ := ih hsr v.tag
      obtain ⟨x, e, i, a1, a2, a3, a4, a5, a6, a7⟩ := h5 rfl
      refine ⟨r', o' :: os, ?_, ?_, ?_, ?_⟩
      · rw [decodeChildren, assign_tag_indep ha hv tag0]
        simp only [hv, if_true, hi, Exec.ok_bind, h3, Bool.not_true, Bool.false_eq_true, if_false]
        rw [dif_pos ⟨by omega, by omega⟩, hbl, ← hi, h7]
        rfl
      · intro u hu
        rcases List.mem_cons.mp hu with rfl | hu
        · exact h4
        · exact h8 u hu
      · intro hrt
        obtain ⟨xs, es, b1, b2, b3, b4⟩ := h9 hrt
        refine ⟨x :: xs, e :: es, ⟨a1, b1⟩, ?_, ?_, fun hu => ⟨a7 hu, b4 hu⟩⟩
        · intro y hy
          rcases List.mem_cons.mp hy with rfl | hy
          · exact a2
          · exact b2 y hy
        · rw [List.length_drop] at b3
          rw [List.flatten_cons, List.length_append]
          omega
      · rintro hu ⟨xs, hx⟩
        cases xs with
        | nil => exact hx.elim
        | cons x xs => exact h10 hu ⟨xs, hx.2⟩

theorem seqOf_dec (id : Ident) (hid : identOk id) (t : Ty) (ht : t.EncLaws) (hd : t.DecLaw) :
    (Ty.seqOf id t).DecLaw := by
  rintro v hs hp _ o0 ⟨x0, e0, os0, xs0, es0, rfl, rfl, rfl, h0⟩
  rcases hasCorrectHeader_cases hs id .constructed with ⟨h1, w, hm⟩ | ⟨h1, hno⟩
  · have hsw := matches_sane hs hm
    have hwv := (matches_valid hm).2
    have hwk : w.construction = .ok .constructed := by
      cases id with
      | single i => obtain ⟨_, _, h3, rfl⟩ := hm; exact h3
      | double o i => obtain ⟨_, _, _, _, _, _, _, _, h3⟩ := hm; exact h3
    have hsc := hsw.inner hwv hwk
    have hc := hsw.content
    have hcl := content_ok_length hc
    generalize (w.mem.drop w.hdr).take w.len = c at hsc hc hcl
    obtain ⟨vs, hel, _⟩ := sane_elements hsc
    obtain ⟨r, os, h2, h3, h4, h5⟩ := decodeChildren_safe ht hd hel hsc 0
    refine ⟨r, .list os, ?_, ?_, ?_, ?_⟩
    · simp [Ty.codec, seqOfCodec, h1, innerView_of_matches hm, hc, h2]
    · obtain ⟨xs, es, h6⟩ := holds_list h3
      exact ⟨_, _, os, xs, es, rfl, rfl, rfl, h6⟩
    · intro hr
      obtain ⟨xs, es, b1, b2, b3, b4⟩ := h4 hr
      exact ⟨.list xs, _, id.outer, ⟨os, xs, es, rfl, rfl, rfl, b1⟩, b2,
        matches_min hid hs hp hm _ _ (by omega), (matches_valid hm).1, matches_outer hm, by simp [Ty.outer],
        fun hu => ⟨w, c, vs, xs, hm, hc, hel, rfl, b4 hu⟩⟩
    · rintro hu ⟨x, w', c', vs', xs, hm', hc', hel', rfl, hall⟩
      have := matches_unique hm hm'
      subst this
      rw [hc] at hc'
      simp only [Exec.ok.injEq] at hc'
      subst hc'
      have := hel.unique hel'
      subst this
      exact h5 hu ⟨xs, hall⟩
  · refine ⟨false, .list [], by simp [Ty.codec, seqOfCodec, h1], ⟨_, _, [], [], [], rfl, rfl, rfl, trivial⟩, (fun h => nomatch h), ?_⟩
    rintro _ ⟨x, w, c, vs, xs, hm, _⟩
    exact (hno w hm).elim

end FastBer
