import Verif.Proofs.Viewer
import Verif.Props.Time
/-!
# Printing any octets
-/
namespace FastBer.Viewer
open FastBer FastBer.Spec FastBer.Viewer.Spec

theorem allPrint_safe {h : Host} (hh : ∀ b, 128 ≤ b.toNat → (h.high b).Safe) (s : Bytes) : (allPrint h s).Safe := by
  induction s with
  | nil => exact ⟨_, rfl⟩
  | cons b s ih =>
    rw [allPrint]
    by_cases hb : b.toNat < 128
    · rw [if_pos hb, Exec.ok_bind]
      dsimp only
      split
      · exact ih
      · exact ⟨_, rfl⟩
    · obtain ⟨p, hp⟩ := hh b (by omega)
      rw [if_neg hb, hp, Exec.ok_bind]
      dsimp only
      split
      · exact ih
      · exact ⟨_, rfl⟩

theorem showString_safe {h : Host} (hh : ∀ b, 128 ≤ b.toNat → (h.high b).Safe) {c : Cont} {x : Bytes} (hc : c.content = .ok x) :
    (showString h c).Safe := by
  obtain ⟨p, hp⟩ := allPrint_safe hh x
  exact ⟨_, by rw [showString, hc, Exec.ok_bind, hp, Exec.ok_bind]⟩

theorem showContent_safe {h : Host} (hh : ∀ b, 128 ≤ b.toNat → (h.high b).Safe) {v : BerView} (hs : SaneView v)
    (hl : v.mem.length < 2 ^ 64 - 64) : (showContent h v).Safe := by
  rw [showContent, hs.content, Exec.ok_bind]
  have hid := plainId_ok 4 (by decide)
  have := Ident.encodedLength_lt (plainId 4) ((v.mem.drop v.hdr).take v.len).length
  have hle : ((v.mem.drop v.hdr).take v.len).length ≤ v.mem.length := by rw [List.length_take, List.length_drop]; omega
  exact showString_safe hh (assignContent_canon hid _ _ (by omega)).content

/-- An object made from the view has a content; if the identifier is the one of the type, it is as long as the content of the
view. -/
theorem decode_any {v : BerView} (hs : SaneView v) (t : Int) (ht : 0 ≤ t ∧ t ≤ 30) :
    ∃ ok c x, Cont.decode (plainId t) (Cont.default (plainId t)) v = .ok (ok, c) ∧ c.content = .ok x ∧
      (v.valid = true → v.cls = .ok .universal → v.construction = .ok .primitive → v.tag = t → c.len = v.len) := by
  rcases Cont.decode_cases (plainId t) (Cont.default (plainId t)) v hs with ⟨w, hw, he⟩ | ⟨hn, he⟩
  · obtain ⟨hv, hi, hk, rfl⟩ := hw
    have hb := hs.bound hv
    refine ⟨_, _, (w.mem.take (w.hdr + w.len)).drop ((w.mem.take (w.hdr + w.len)).length - w.len), he, ?_, fun _ _ _ _ => rfl⟩
    rw [Cont.content, if_pos]
    simp only [List.length_take]; omega
  · refine ⟨_, _, _, he, (default_canon (plainId_ok t ht)).content, fun hv hc hk htag => absurd ⟨hv, ?_, hk, rfl⟩ (hn v)⟩
    rw [identifier_eq_ok]
    exact ⟨hc, htag⟩

theorem showStringOf_safe {h : Host} (hh : ∀ b, 128 ≤ b.toNat → (h.high b).Safe) {v : BerView} (hs : SaneView v) (t : Int)
    (ht : 0 ≤ t ∧ t ≤ 30) : (showStringOf h t v).Safe := by
  obtain ⟨ok, c, x, h1, h2, _⟩ := decode_any hs t ht
  rw [showStringOf, h1, Exec.ok_bind]
  exact showString_safe hh h2

theorem showOid_safe {v : BerView} (hs : SaneView v) : (showOid v).Safe := by
  obtain ⟨ok, c, x, h1, h2, _⟩ := decode_any hs 6 (by decide)
  exact ⟨_, by rw [showOid, h1, Exec.ok_bind, Oid.value, h2, Exec.ok_bind]; rfl⟩

theorem showBoolean_safe {v : BerView} (hs : SaneView v) : (showBoolean v).Safe := by
  rw [showBoolean]
  rcases Boolean.decode_cases (plainId 1) (Boolean.default (plainId 1)) v hs with ⟨_, _, _, _, e⟩ | ⟨_, e⟩ <;>
  · rw [e]; exact ⟨_, rfl⟩

theorem showNull_safe {v : BerView} (hs : SaneView v) : (showNull v).Safe := by
  rw [showNull]
  rcases Null.decode_cases (plainId 5) (Null.default (plainId 5)) v hs with ⟨_, _, _, e⟩ | ⟨_, e⟩ <;>
  · rw [e]; exact ⟨_, rfl⟩

theorem showInteger_safe {v : BerView} (hs : SaneView v) : (showInteger v).Safe := by
  have hid := plainId_ok 2 (by decide)
  rw [showInteger, Integer.decode]
  have key : ∀ {d c}, SmallWf (plainId 2) 8 c d → (Integer.value (plainId 2) d).Safe := by
    intro d c hw
    exact ⟨_, by rw [Integer.value, hw.content hid (by omega), Exec.ok_bind]⟩
  rcases (SmallWf.init hid 8).decode hid (by omega) v hs with ⟨w, c, d', _, _, _, e, hw⟩ | ⟨_, e⟩
  · obtain ⟨x, hx⟩ := key hw
    exact ⟨_, by rw [e, Exec.ok_bind, hx, Exec.ok_bind]⟩
  · obtain ⟨x, hx⟩ := key (SmallWf.init hid 8)
    exact ⟨_, by rw [e, Exec.ok_bind, hx, Exec.ok_bind]⟩

theorem showTime_safe {h : Host} (hh : ∀ b, 128 ≤ b.toNat → (h.high b).Safe) {v : BerView} (hs : SaneView v)
    (hl : v.mem.length < 2 ^ 64 - 64) (hv : v.valid = true) (hc : v.cls = .ok .universal) (hk : v.construction = .ok .primitive)
    (ht : 0 ≤ v.tag ∧ v.tag ≤ 30) (h5 : 5 ≤ v.len) : (showTime h v.tag v).Safe := by
  obtain ⟨ok, c, x, h1, h2, h3⟩ := decode_any hs v.tag ht
  have h3 := h3 hv hc hk rfl
  obtain ⟨f, hf⟩ := Props.format_ok h2 (Props.content_length h2) (by omega)
  rw [showTime, timeDecode, h1, Exec.ok_bind]
  have key : ∀ b, (do let x ← Time.time h.time ((b, c) : Bool × Cont).2
                      match x with
                      | some s => Exec.ok s
                      | none => showContent h v).Safe := by
    intro b
    have : (Time.time h.time c).Safe := by
      rw [Time.time, hf, Exec.ok_bind, Time.string, h2, Exec.ok_bind]
      cases f <;> exact ⟨_, rfl⟩
    obtain ⟨y, hy⟩ := this
    simp only [hy, Exec.ok_bind]
    cases y with
    | some s => exact ⟨_, rfl⟩
    | none => exact showContent_safe hh hs hl
  split
  · exact key false
  · exact key ok

theorem showPrimitive_safe {h : Host} (hh : ∀ b, 128 ≤ b.toNat → (h.high b).Safe) {v : BerView} (hs : SaneView v)
    (hl : v.mem.length < 2 ^ 64 - 64) (hv : v.valid = true) (hk : v.construction = .ok .primitive)
    (h5 : v.cls = .ok .universal → v.tag = 23 ∨ v.tag = 24 → 5 ≤ v.len) : (showPrimitive h v).Safe := by
  obtain ⟨c, hc⟩ := hs.cls hv
  rw [showPrimitive, hc, Exec.ok_bind]
  split
  · rename_i e
    subst e
    split
    · exact showBoolean_safe hs
    split
    · exact showInteger_safe hs
    split
    · exact showNull_safe hs
    split
    · exact showOid_safe hs
    split
    · exact ⟨_, rfl⟩
    split
    · exact showInteger_safe hs
    split
    · rename_i ht
      exact showTime_safe hh hs hl hv hc hk (by omega) (h5 hc ht)
    split
    · exact showStringOf_safe hh hs _ (by omega)
    · exact showContent_safe hh hs hl
  · exact showContent_safe hh hs hl

/-- Times met while printing have at least five octets. -/
def NoShortTime (bs : Bytes) : Prop :=
  ∀ s, s <:+: bs → ∀ tag0 v, BerView.assign s tag0 = .ok v → v.valid = true → v.cls = .ok .universal →
    v.construction = .ok .primitive → v.tag = 23 ∨ v.tag = 24 → 5 ≤ v.len

theorem show_safe {h : Host} (hh : ∀ b, 128 ≤ b.toNat → (h.high b).Safe) (n : Nat) (hn : n < 2 ^ 64 - 64) :
    (∀ bs v tag0, bs.length = n → BerView.assign bs tag0 = .ok v → SaneView v → NoShortTime bs → (showView h v).Safe) ∧
    (∀ bs tag0 first, bs.length = n → Sane bs → NoShortTime bs → (showChildren h bs tag0 first).Safe) := by
  induction n using Nat.strongRecOn with
  | ind n ih =>
    have first : ∀ bs v tag0, bs.length = n → BerView.assign bs tag0 = .ok v → SaneView v → NoShortTime bs → (showView h v).Safe := by
      intro bs v tag0 hlen ha hs ht
      rw [showView]
      by_cases hv : v.valid = false
      · rw [if_pos hv]; exact ⟨_, rfl⟩
      rw [if_neg hv]
      simp only [Bool.not_eq_false] at hv
      obtain ⟨hm, _⟩ := assign_valid ha hv
      have hb := hs.bound hv
      obtain ⟨c, hc, hi⟩ := hs.identifier hv
      obtain ⟨k, hk⟩ := hs.construction hv
      rw [hi, Exec.ok_bind, hk, Exec.ok_bind]
      cases k with
      | primitive =>
        obtain ⟨s, e⟩ := showPrimitive_safe hh hs (by rw [hm]; omega) hv hk
          (fun hu hg => ht bs (List.infix_refl _) tag0 v ha hv hu hk hg)
        simp only [e, Exec.ok_bind]
        exact ⟨_, rfl⟩
      | constructed =>
        have hin := hs.inner hv hk
        have hcl : ((v.mem.drop v.hdr).take v.len).length < v.mem.length := by rw [List.length_take, List.length_drop]; omega
        simp only [hs.content]
        rw [dif_pos hcl]
        obtain ⟨s, e⟩ := (ih ((v.mem.drop v.hdr).take v.len).length (by rw [hm] at hcl ⊢; omega) (by rw [hm] at hcl ⊢; omega)).2 _ 0 true rfl hin
          (fun s h' => ht s (h'.trans (by
            rw [hm]
            exact ((List.take_prefix _ _).isInfix).trans (List.drop_suffix _ _).isInfix)))
        simp only [e, Exec.ok_bind]
        exact ⟨_, rfl⟩
    refine ⟨first, ?_⟩
    intro bs tag0 fst hlen hs ht
    obtain ⟨v, ha, hsv, hrest⟩ := hs.assign tag0
    rw [showChildren, ha]
    dsimp only
    split
    · rename_i hv
      obtain ⟨hm, hr⟩ := hrest hv
      have hb := hsv.bound hv
      have hbl := hsv.berLength
      rw [hm] at hb
      rw [dif_pos ⟨by omega, by omega, by rw [hm]⟩]
      obtain ⟨s1, e1⟩ := first bs v tag0 hlen ha hsv ht
      have hlt : (bs.drop v.berLength).length < n := by rw [List.length_drop]; omega
      obtain ⟨s2, e2⟩ := (ih (bs.drop v.berLength).length hlt (by omega)).2 _ v.tag false rfl (by rw [hbl]; exact hr)
        (fun s h' => ht s (h'.trans (List.drop_suffix _ _).isInfix))
      exact ⟨_, by rw [e1, Exec.ok_bind, e2, Exec.ok_bind]⟩
    · exact ⟨_, rfl⟩

end FastBer.Viewer
