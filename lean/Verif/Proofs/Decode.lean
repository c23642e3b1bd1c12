import Verif.Model.Prims
import Verif.Proofs.Reader
/-! # Lemmas about decoding arbitrary views -/
namespace FastBer
open Spec

theorem assign_tag_indep {bs : Bytes} {tag0 : Int} {v : BerView} (h : BerView.assign bs tag0 = .ok v)
    (hv : v.valid = true) (tag1 : Int) : BerView.assign bs tag1 = .ok v := by
  have := assign_append h hv [] tag1
  obtain ⟨hm, _⟩ := assign_valid h hv
  simp only [List.append_nil] at this
  rw [this, ← hm]

theorem assign_invalid_indep {bs : Bytes} {tag0 : Int} {v : BerView} (h : BerView.assign bs tag0 = .ok v)
    (hv : v.valid = false) (tag1 : Int) : ∃ v', BerView.assign bs tag1 = .ok v' ∧ v'.valid = false := by
  cases hx : BerView.assign bs tag1 with
  | loop => exact absurd hx (assign_not_loop _ _)
  | ub =>
    have := (assign_ub_iff_tag bs tag1).mp hx
    rw [← assign_ub_iff_tag bs tag0, h] at this
    cases this
  | ok v' =>
    refine ⟨v', rfl, ?_⟩
    cases hv' : v'.valid with
    | false => rfl
    | true =>
      rw [assign_tag_indep hx hv' tag0] at h
      simp only [Exec.ok.injEq] at h
      subst h; rw [hv] at hv'; cases hv'

/-- A view whose memory is good and, if constructed, whose content is sane. -/
structure SaneView (v : BerView) : Prop where
  inval : v.valid = false → v.mem = [] ∧ v.hdr = 0 ∧ v.len = 0
  bound : v.valid = true → 2 ≤ v.hdr ∧ v.hdr + v.len ≤ v.mem.length ∧ v.hdr + v.len < 2 ^ 64
  peek : v.valid = true → ∃ w, BerView.parse ((v.mem.drop v.hdr).take v.len) = .ok w
  inner : v.valid = true → v.construction = .ok .constructed → Sane ((v.mem.drop v.hdr).take v.len)

theorem Spec.Sane.assign {bs : Bytes} (h : Sane bs) (tag0 : Int) :
    ∃ v, BerView.assign bs tag0 = .ok v ∧ SaneView v ∧
      (v.valid = true → v.mem = bs ∧ Sane (bs.drop (v.hdr + v.len))) := by
  cases h with
  | stop h =>
    obtain ⟨v, hv, hval⟩ := h tag0
    refine ⟨v, hv, ⟨fun _ => assign_invalid hv hval, ?_, ?_, ?_⟩, ?_⟩ <;> (intro hc; rw [hval] at hc; cases hc)
  | @elem _ v ha hv hw hpk hin hrest =>
    obtain ⟨hm, h2, hh, _, hb, _⟩ := assign_valid ha hv
    rw [BerView.berLength, u64_of_lt hw] at hb
    refine ⟨v, assign_tag_indep ha hv tag0, ⟨?_, fun _ => ⟨h2, by rw [hm]; exact hb, hw⟩, fun _ => by rw [hm]; exact hpk, ?_⟩,
      fun _ => ⟨hm, hrest⟩⟩
    · intro hc; rw [hv] at hc; cases hc
    · intro _ hk; rw [hm]; exact hin hk

theorem SaneView.berLength {v : BerView} (h : SaneView v) : v.berLength = v.hdr + v.len := by
  cases hv : v.valid with
  | true => exact u64_of_lt (h.bound hv).2.2
  | false => obtain ⟨_, h2, h3⟩ := h.inval hv; simp [BerView.berLength, h2, h3, u64]

theorem SaneView.content {v : BerView} (h : SaneView v) : v.content = .ok ((v.mem.drop v.hdr).take v.len) := by
  rw [BerView.content, if_pos]
  cases hv : v.valid with
  | true => exact (h.bound hv).2.1
  | false => obtain ⟨h1, h2, h3⟩ := h.inval hv; simp [h1, h2, h3]

theorem SaneView.first {v : BerView} (h : SaneView v) (hv : v.valid = true) : ∃ b tl, v.mem = b :: tl := by
  have := h.bound hv
  cases hm : v.mem with
  | nil => rw [hm] at this; simp at this; omega
  | cons b tl => exact ⟨b, tl, rfl⟩

theorem SaneView.cls {v : BerView} (h : SaneView v) (hv : v.valid = true) : ∃ c, v.cls = .ok c := by
  obtain ⟨b, tl, e⟩ := h.first hv
  exact ⟨getClass b, by rw [BerView.cls, e]⟩

theorem SaneView.construction {v : BerView} (h : SaneView v) (hv : v.valid = true) :
    ∃ c, v.construction = .ok c := by
  obtain ⟨b, tl, e⟩ := h.first hv
  exact ⟨getConstruction b, by rw [BerView.construction, e]⟩

theorem SaneView.identifier {v : BerView} (h : SaneView v) (hv : v.valid = true) :
    ∃ c, v.cls = .ok c ∧ v.identifier = .ok ⟨c, v.tag⟩ := by
  obtain ⟨c, hc⟩ := h.cls hv
  exact ⟨c, hc, by simp [BerView.identifier, hc]⟩

theorem SaneView.begin {v : BerView} (h : SaneView v) (hv : v.valid = true)
    (hk : v.construction = .ok .constructed) :
    ∃ it, v.begin = .ok it ∧ it.buf = (v.mem.drop v.hdr).take v.len ∧ Sane it.buf ∧
      BerView.assign it.buf 0 = .ok it.view ∧ SaneView it.view := by
  have hs := h.inner hv hk
  obtain ⟨w, hw, hsw, _⟩ := hs.assign 0
  exact ⟨⟨_, w⟩, by simp [BerView.begin, h.content, Iter.mk', BerView.parse, hw], rfl, hs, hw, hsw⟩

theorem identifier_eq_ok {v : BerView} {i : Id} :
    v.identifier = .ok i ↔ v.cls = .ok i.cls ∧ v.tag = i.tag := by
  rw [BerView.identifier, Exec.bind_eq_ok]
  constructor
  · rintro ⟨c, h1, h2⟩
    simp only [Exec.ok.injEq] at h2
    subst h2; exact ⟨h1, rfl⟩
  · rintro ⟨h1, h2⟩
    exact ⟨i.cls, h1, by cases i; simp_all⟩

/-- `has_correct_header` says exactly that the element carries the identifier. -/
theorem hasCorrectHeader_true {v : BerView} {id : Ident} {k : Construction} :
    hasCorrectHeader v id k = .ok true ↔ ∃ w, Matches v id k w := by
  cases id with
  | single i =>
    simp only [hasCorrectHeader, Matches, identifier_eq_ok]
    cases hv : v.valid with
    | false => simp
    | true =>
      simp only [Bool.not_true, Bool.false_eq_true, if_false, Exec.bind_eq_ok, Exec.ok.injEq, Bool.and_eq_true,
        beq_iff_eq]
      constructor
      · rintro ⟨c, h1, c', h2, ⟨rfl, h3⟩, rfl⟩
        exact ⟨v, trivial, ⟨h1, h3⟩, h2, rfl⟩
      · rintro ⟨w, -, ⟨h1, h3⟩, h2, -⟩
        exact ⟨_, h1, _, h2, ⟨rfl, h3⟩, rfl⟩
  | double o i =>
    simp only [hasCorrectHeader, Matches]
    cases hv : v.valid with
    | false => simp
    | true =>
      simp only [Bool.not_true, Bool.false_eq_true, if_false, Exec.bind_eq_ok]
      constructor
      · rintro ⟨a, h1, c', h2, h3⟩
        split at h3
        · simp at h3
        · rename_i ha
          split at h3
          · simp at h3
          · rename_i hc
            rw [Exec.bind_eq_ok] at h3
            obtain ⟨it, hit, h3⟩ := h3
            split at h3
            · simp at h3
            · rename_i hval
              simp only [Exec.bind_eq_ok, Exec.ok.injEq, Bool.and_eq_true, beq_iff_eq] at h3
              obtain ⟨a', h4, k', h5, rfl, rfl⟩ := h3
              have ha : a = o := by simpa using ha
              have hc : c' = .constructed := by simpa using hc
              have hval : it.view.valid = true := by simpa using hval
              subst ha hc
              rw [BerView.begin, Exec.bind_eq_ok] at hit
              obtain ⟨c, hcc, hit⟩ := hit
              rw [Iter.mk', Exec.bind_eq_ok] at hit
              obtain ⟨w, hw, hit⟩ := hit
              simp only [Exec.ok.injEq] at hit
              subst hit
              exact ⟨w, trivial, h1, h2, c, hcc, hw, hval, h4, h5⟩
      · rintro ⟨w, -, h1, h2, c, hcc, hw, hval, h4, h5⟩
        refine ⟨o, h1, .constructed, h2, ?_⟩
        simp only [bne_self_eq_false, Bool.false_eq_true, if_false]
        rw [Exec.bind_eq_ok]
        refine ⟨⟨c, w⟩, by simp [BerView.begin, hcc, Iter.mk', hw], ?_⟩
        simp [hval, h4, h5]

theorem innerView_of_matches {v w : BerView} {id : Ident} {k : Construction} (h : Matches v id k w) :
    innerView v id = .ok w := by
  cases id with
  | single i => obtain ⟨_, _, _, rfl⟩ := h; rfl
  | double o i =>
    obtain ⟨_, _, _, c, hc, hw, _⟩ := h
    simp [innerView, BerView.begin, hc, Iter.mk', hw]

theorem matches_valid {v w : BerView} {id : Ident} {k : Construction} (h : Matches v id k w) :
    v.valid = true ∧ w.valid = true := by
  cases id with
  | single i => obtain ⟨h1, _, _, rfl⟩ := h; exact ⟨h1, h1⟩
  | double o i => obtain ⟨h1, _, _, c, _, _, h2, _⟩ := h; exact ⟨h1, h2⟩

theorem matches_outer {v w : BerView} {id : Ident} {k : Construction} (h : Matches v id k w) :
    v.identifier = .ok id.outer := by
  cases id with
  | single i => exact h.2.1
  | double o i => exact h.2.1

theorem matches_unique {v w w' : BerView} {id : Ident} {k k' : Construction} (h : Matches v id k w)
    (h' : Matches v id k' w') : w = w' := by
  have := innerView_of_matches h
  rw [innerView_of_matches h'] at this
  simpa using this.symm

theorem matches_sane {v w : BerView} {id : Ident} {k : Construction} (hs : SaneView v) (h : Matches v id k w) :
    SaneView w := by
  cases id with
  | single i => obtain ⟨_, _, _, rfl⟩ := h; exact hs
  | double o i =>
    obtain ⟨h1, _, h2, c, hc, hw, _⟩ := h
    obtain ⟨it, e, hb, _, ha, hsv⟩ := hs.begin h1 h2
    rw [hs.content] at hc
    simp only [Exec.ok.injEq] at hc
    rw [hb, hc] at ha
    rw [BerView.parse, ha] at hw
    simp only [Exec.ok.injEq] at hw
    subst hw; exact hsv

theorem hasCorrectHeader_safe {v : BerView} (hs : SaneView v) (id : Ident) (k : Construction) :
    ∃ b, hasCorrectHeader v id k = .ok b := by
  cases hv : v.valid with
  | false => exact ⟨false, by cases id <;> simp [hasCorrectHeader, hv]⟩
  | true =>
    obtain ⟨c, hc, hid⟩ := hs.identifier hv
    obtain ⟨k', hk⟩ := hs.construction hv
    cases id with
    | single i => exact ⟨_, by simp only [hasCorrectHeader, hv, hc, hk]; rfl⟩
    | double o i =>
      simp only [hasCorrectHeader, hv, hid, hk, Bool.not_true, Bool.false_eq_true, if_false, Exec.ok_bind]
      split
      · exact ⟨_, rfl⟩
      · split
        · exact ⟨_, rfl⟩
        · rename_i hcon
          have hcon : k' = .constructed := by simpa using hcon
          subst hcon
          obtain ⟨it, e, _, _, _, hsv⟩ := hs.begin hv hk
          rw [e]; simp only [Exec.ok_bind]
          cases hiv : it.view.valid with
          | false => exact ⟨_, rfl⟩
          | true =>
            obtain ⟨c2, _, hid2⟩ := hsv.identifier hiv
            obtain ⟨k2, hk2⟩ := hsv.construction hiv
            simp only [Bool.not_true, Bool.false_eq_true, if_false, hid2, hk2, Exec.ok_bind]
            exact ⟨_, rfl⟩

/-- Outcome of `has_correct_header` on a sane view. -/
theorem hasCorrectHeader_cases {v : BerView} (hs : SaneView v) (id : Ident) (k : Construction) :
    (hasCorrectHeader v id k = .ok true ∧ ∃ w, Matches v id k w) ∨
    (hasCorrectHeader v id k = .ok false ∧ ∀ w, ¬ Matches v id k w) := by
  obtain ⟨b, hb⟩ := hasCorrectHeader_safe hs id k
  cases b with
  | true => exact .inl ⟨hb, hasCorrectHeader_true.mp hb⟩
  | false =>
    refine .inr ⟨hb, fun w hw => ?_⟩
    have := hasCorrectHeader_true.mpr ⟨w, hw⟩
    rw [hb] at this; cases this

/-- The element of a tagged encoding carries the identifier; its content element is the inner one. -/
theorem matches_tagged (id : Ident) (h : identOk id) (k : Construction) (content suffix : Bytes)
    (hlen : (tagged id k content).length < 2 ^ 64) :
    ∃ w, Matches (taggedView id k content suffix) id k w ∧ w.content = .ok content ∧ w.len = content.length := by
  obtain ⟨w, hw⟩ := hasCorrectHeader_true.mp (hasCorrectHeader_tagged id h k content suffix hlen)
  refine ⟨w, hw, ?_⟩
  cases id with
  | single i =>
    obtain ⟨_, _, _, rfl⟩ := hw
    simp [taggedView]
  | double o i =>
    have h1 := innerView_of_matches hw
    have h2 := elementId_le_tagged o i k content
    rw [innerView, begin_double o i h.2 k content suffix (by omega)] at h1
    simp only [Exec.ok_bind, Exec.ok.injEq] at h1
    subst h1; simp

theorem Spec.Tame.sane {bs : Bytes} (h : Tame bs) : Sane bs := by
  induction hn : bs.length using Nat.strongRecOn generalizing bs with
  | ind n ih =>
    subst hn
    obtain ⟨v, hv, hw⟩ := h.assign 0
    cases hval : v.valid with
    | false =>
      refine .stop fun tag0 => ?_
      exact assign_invalid_indep hv hval tag0
    | true =>
      obtain ⟨hm, h2, hh, _, hb, _⟩ := assign_valid hv hval
      rw [BerView.berLength, u64_of_lt hw] at hb
      refine .elem hv hval hw ?_ (fun _ => ?_) ?_
      · obtain ⟨w, hw, _⟩ := (h.infix (((List.take_prefix v.len (bs.drop v.hdr)).isInfix).trans
          (List.drop_suffix _ _).isInfix)).assign 0
        exact ⟨w, hw⟩
      · exact ih _ (by simp; omega)
          (h.infix (((List.take_prefix _ _).isInfix).trans (List.drop_suffix _ _).isInfix)) rfl
      · exact ih _ (by simp; omega) (h.infix (List.drop_suffix _ _).isInfix) rfl

end FastBer

namespace FastBer
open Spec

theorem sane_nil : Sane [] := .stop fun tag0 => ⟨BerView.invalid tag0, by
  simp [BerView.assign, extractTag, extractLength], rfl⟩

end FastBer
