import Verif.Model.Time
import Verif.Proofs.Container
/-! # Properties C30, C69, C70: GeneralizedTime -/
namespace FastBer.Props
open FastBer Spec

/-- Reading the format of 5 or more characters is within bounds. -/
theorem format_ok {c : Cont} {x : Bytes} (hc : c.content = .ok x) (hl : x.length = c.len) (h5 : 5 ≤ c.len) :
    ∃ f, Time.format c = .ok f := by
  have hne : x ≠ [] := by intro h; rw [h] at hl; simp at hl; omega
  have hlt : c.len - 5 < x.length := by omega
  rw [Time.format, hc, Exec.ok_bind, List.getLast?_eq_some_getLast hne]
  dsimp only
  by_cases h1 : x.getLast hne = 0x5A
  · exact ⟨_, by rw [if_pos h1]⟩
  · rw [if_neg h1, if_neg (by omega), List.getElem?_eq_getElem hlt]
    dsimp only
    split
    · exact ⟨_, rfl⟩
    · exact ⟨_, rfl⟩

theorem content_length {c : Cont} {x : Bytes} (hc : c.content = .ok x) : x.length = c.len := by
  unfold Cont.content at hc
  split at hc
  · cases hc; simp; omega
  · cases hc

/-- C30.  Whatever the view (obtained from any input without length overflow) and the previous state: if `decode` reports
success, the content is as long as the content of the matching element and has 10 to 23 characters, and `format()` stays within it. -/
theorem C30_accepted_bounds (id : Ident) (c c' : Cont) (v : BerView) (hs : SaneView v)
    (h : timeDecode id c v = .ok (true, c')) :
    ∃ x f w, Matches v id .primitive w ∧ c'.content = .ok x ∧ x.length = w.len ∧ 10 ≤ x.length ∧ x.length ≤ 23 ∧
      Time.format c' = .ok f := by
  rcases Cont.decode_cases id c v hs with ⟨w, hw, he⟩ | ⟨_, he⟩
  · rw [timeDecode, he, Exec.ok_bind] at h
    dsimp only at h
    by_cases hb : w.len < 10 ∨ w.len > 23
    · rw [if_pos hb] at h; cases h
    · rw [if_neg hb] at h
      simp only [Exec.ok.injEq, Prod.mk.injEq, true_and] at h
      subst h
      have hle := matches_len_le hs hw
      have hbd := hs.bound (matches_valid hw).1
      have hdl : (v.mem.take (v.hdr + v.len)).length = v.hdr + v.len := by rw [List.length_take]; omega
      have hx : Cont.content ⟨v.mem.take (v.hdr + v.len), w.len⟩ =
          .ok ((v.mem.take (v.hdr + v.len)).drop (v.hdr + v.len - w.len)) := by
        simp only [Cont.content, hdl]; rw [if_pos hle.1]
      have hxl := content_length hx
      obtain ⟨f, hf⟩ := format_ok hx hxl (by simp only; omega)
      simp only at hxl
      exact ⟨_, f, w, hw, hx, hxl, by omega, by omega, hf⟩
  · rw [timeDecode, he, Exec.ok_bind] at h
    dsimp only at h
    split at h <;> cases h

/-- C30 met by a 15 character time. -/
example : ∃ v, BerView.parse ([0x18, 15] ++ epochContent) = .ok v ∧
    timeDecode (.single ⟨.universal, 24⟩) (Cont.default (.single ⟨.universal, 24⟩)) v =
      .ok (true, ⟨[0x18, 15] ++ epochContent, 15⟩) := ⟨_, rfl, by decide +kernel⟩

/-! ## C69: the text of a time -/

theorem getLast_append_one (x : Bytes) (b : UInt8) : (x ++ [b]).getLast? = some b := by simp

/-- C69 (a).  `set_time(t)`: the content is the text of the time followed by `Z`; the format is universal, and `time()`
parses exactly the text. -/
theorem C69_universal {T : Type} (parse : Bytes → Option T) (id : Ident) (hid : identOk id) (c : Cont) (text : Bytes)
    (hl : id.encodedLength (text.length + 1) < 2 ^ 64) :
    (Time.setTime id c text).content = .ok (text ++ [0x5A]) ∧ Time.format (Time.setTime id c text) = .ok .universal ∧
    Time.time parse (Time.setTime id c text) = .ok (parse text) := by
  have hc := (assignContent_canon hid c (text ++ [0x5A]) (by simpa using hl)).content
  have hf : Time.format (Time.setTime id c text) = .ok .universal := by
    rw [Time.format, Time.setTime, hc, Exec.ok_bind, getLast_append_one]; rfl
  refine ⟨hc, hf, ?_⟩
  rw [Time.time, hf, Exec.ok_bind, Time.string, Time.setTime, hc, Exec.ok_bind]
  simp

theorem twoDigits_length {n : Nat} (h : n < 100) : (Time.twoDigits n).length = 2 := by
  unfold Time.twoDigits
  split
  · rfl
  · rw [Time.decDigits, if_neg (by omega), Time.decDigits, if_pos (by omega)]; rfl

theorem twoDigits_eq {n : Nat} (h : n < 100) : Time.twoDigits n = [Time.digit (n / 10), Time.digit n] := by
  unfold Time.twoDigits
  split
  · rw [show n / 10 = 0 by omega]; rfl
  · rw [Time.decDigits, if_neg (by omega), Time.decDigits, if_pos (by omega)]; rfl

/-- The timezone text is a sign, two digits of hours and two of minutes. -/
theorem C69_timezone_text (minutes : Int) (h : minutes.natAbs < 6000) :
    Time.timezoneText minutes = [if minutes ≥ 0 then 0x2B else 0x2D,
      Time.digit (minutes.natAbs / 60 / 10), Time.digit (minutes.natAbs / 60),
      Time.digit (minutes.natAbs % 60 / 10), Time.digit (minutes.natAbs % 60)] := by
  rw [Time.timezoneText, twoDigits_eq (show minutes.natAbs / 60 < 100 by omega),
    twoDigits_eq (show minutes.natAbs % 60 < 100 by omega)]
  rfl

theorem digit_ne (n : Nat) : Time.digit n ≠ 0x5A ∧ Time.digit n ≠ 0x2D ∧ Time.digit n ≠ 0x2B := by
  have h : (Time.digit n).toNat = 48 + n % 10 := by rw [Time.digit, toNat_ofNat]; omega
  refine ⟨fun e => ?_, fun e => ?_, fun e => ?_⟩ <;> rw [e] at h
  · have : (0x5A : UInt8).toNat = 90 := rfl
    omega
  · have : (0x2D : UInt8).toNat = 45 := rfl
    omega
  · have : (0x2B : UInt8).toNat = 43 := rfl
    omega

/-- C69 (b).  `set_time(t, minutes)` for every offset below 100 hours: the content is the text of the time, the sign, and
the hours and minutes of the offset in two digits each; the format is "with timezone", and `time()` parses exactly the text
(the offset is ignored on both sides). -/
theorem C69_timezone {T : Type} (parse : Bytes → Option T) (id : Ident) (hid : identOk id) (c : Cont) (text : Bytes)
    (minutes : Int) (hm : minutes.natAbs < 6000) (hl : id.encodedLength (text.length + 5) < 2 ^ 64) :
    (Time.setTimeZone id c text minutes).content = .ok (text ++ [if minutes ≥ 0 then 0x2B else 0x2D,
      Time.digit (minutes.natAbs / 60 / 10), Time.digit (minutes.natAbs / 60),
      Time.digit (minutes.natAbs % 60 / 10), Time.digit (minutes.natAbs % 60)]) ∧
    Time.format (Time.setTimeZone id c text minutes) = .ok .universalWithTimezone ∧
    Time.time parse (Time.setTimeZone id c text minutes) = .ok (parse text) := by
  have ht := C69_timezone_text minutes hm
  have hcan := assignContent_canon hid c (text ++ Time.timezoneText minutes) (by rw [ht]; simpa using hl)
  have hc := hcan.content
  have hlen : (Cont.assignContent id c (text ++ Time.timezoneText minutes)).len = text.length + 5 := by
    simp [Cont.assignContent, ht]
  rw [ht] at hc hlen
  have hf : Time.format (Time.setTimeZone id c text minutes) = .ok .universalWithTimezone := by
    rw [Time.format, Time.setTimeZone, ht, hc, Exec.ok_bind]
    rw [show text ++ [if minutes ≥ 0 then (0x2B : UInt8) else 0x2D, Time.digit (minutes.natAbs / 60 / 10), Time.digit (minutes.natAbs / 60),
      Time.digit (minutes.natAbs % 60 / 10), Time.digit (minutes.natAbs % 60)] =
      (text ++ [if minutes ≥ 0 then (0x2B : UInt8) else 0x2D, Time.digit (minutes.natAbs / 60 / 10), Time.digit (minutes.natAbs / 60),
      Time.digit (minutes.natAbs % 60 / 10)]) ++ [Time.digit (minutes.natAbs % 60)] by simp] at hlen ⊢
    rw [getLast_append_one]
    dsimp only
    rw [if_neg (digit_ne _).1, hlen, if_neg (by omega), Nat.add_sub_cancel]
    simp only [List.append_assoc, List.cons_append, List.nil_append]
    rw [List.getElem?_append_right (Nat.le_refl _), Nat.sub_self]
    simp only [List.getElem?_cons_zero]
    by_cases hp : minutes ≥ 0
    · rw [if_pos hp]; rfl
    · rw [if_neg hp]; rfl
  refine ⟨by rw [Time.setTimeZone, ht]; exact hc, hf, ?_⟩
  rw [Time.time, hf, Exec.ok_bind, Time.string, Time.setTimeZone, ht, hc, Exec.ok_bind]
  simp

theorem decDigits_digits (n : Nat) : Time.decDigits n ≠ [] ∧ ∀ b ∈ Time.decDigits n, ∃ k, b = Time.digit k := by
  induction n using Nat.strongRecOn with
  | ind n ih =>
    rw [Time.decDigits]
    split
    · exact ⟨by simp, fun b hb => ⟨n, by simpa using hb⟩⟩
    · refine ⟨by simp, fun b hb => ?_⟩
      rcases List.mem_append.mp hb with hb | hb
      · exact (ih (n / 10) (by omega)).2 b hb
      · exact ⟨n, by simpa using hb⟩

theorem twoDigits_digits (n : Nat) : 2 ≤ (Time.twoDigits n).length ∧ ∀ b ∈ Time.twoDigits n, ∃ k, b = Time.digit k := by
  unfold Time.twoDigits
  split
  · refine ⟨by simp, fun b hb => ?_⟩
    simp only [List.mem_cons, List.not_mem_nil, or_false] at hb
    rcases hb with rfl | rfl
    · exact ⟨0, rfl⟩
    · exact ⟨n, rfl⟩
  · refine ⟨?_, (decDigits_digits n).2⟩
    rw [Time.decDigits, if_neg (by omega), List.length_append]
    have := List.length_pos_iff.mpr (decDigits_digits (n / 10)).1
    simp; omega

/-- Whatever the offset, the timezone text is a sign and four digits (beyond 100 hours the last digits are cut off). -/
theorem C69_timezone_shape (minutes : Int) :
    ∃ a b c d, Time.timezoneText minutes = [if minutes ≥ 0 then 0x2B else 0x2D, Time.digit a, Time.digit b, Time.digit c, Time.digit d] := by
  obtain ⟨h1, h2⟩ := twoDigits_digits (minutes.natAbs / 60)
  obtain ⟨h3, h4⟩ := twoDigits_digits (minutes.natAbs % 60)
  rw [Time.timezoneText]
  have hl : 4 ≤ (Time.twoDigits (minutes.natAbs / 60) ++ Time.twoDigits (minutes.natAbs % 60)).length := by
    rw [List.length_append]; omega
  have hd : ∀ x ∈ Time.twoDigits (minutes.natAbs / 60) ++ Time.twoDigits (minutes.natAbs % 60), ∃ k, x = Time.digit k := by
    intro x hx
    rcases List.mem_append.mp hx with hx | hx
    · exact h2 x hx
    · exact h4 x hx
  revert hl hd
  generalize Time.twoDigits (minutes.natAbs / 60) ++ Time.twoDigits (minutes.natAbs % 60) = l
  intro hl hd
  match l, hl, hd with
  | a :: b :: c :: d :: rest, _, hd =>
    obtain ⟨a, rfl⟩ := hd a (by simp)
    obtain ⟨b, rfl⟩ := hd b (by simp)
    obtain ⟨c, rfl⟩ := hd c (by simp)
    obtain ⟨d, rfl⟩ := hd d (by simp)
    exact ⟨a, b, c, d, by simp⟩

/-- C69 (b), every offset: the format is "with timezone", and `time()` parses exactly the text. -/
theorem C69_timezone_any {T : Type} (parse : Bytes → Option T) (id : Ident) (hid : identOk id) (c : Cont) (text : Bytes)
    (minutes : Int) (hl : id.encodedLength (text.length + 5) < 2 ^ 64) :
    Time.format (Time.setTimeZone id c text minutes) = .ok .universalWithTimezone ∧
    Time.time parse (Time.setTimeZone id c text minutes) = .ok (parse text) := by
  obtain ⟨d1, d2, d3, d4, ht⟩ := C69_timezone_shape minutes
  have hcan := assignContent_canon hid c (text ++ Time.timezoneText minutes) (by rw [ht]; simpa using hl)
  have hc := hcan.content
  have hlen : (Cont.assignContent id c (text ++ Time.timezoneText minutes)).len = text.length + 5 := by
    simp [Cont.assignContent, ht]
  rw [ht] at hc hlen
  have hf : Time.format (Time.setTimeZone id c text minutes) = .ok .universalWithTimezone := by
    rw [Time.format, Time.setTimeZone, ht, hc, Exec.ok_bind]
    rw [show text ++ [if minutes ≥ 0 then (0x2B : UInt8) else 0x2D, Time.digit d1, Time.digit d2, Time.digit d3, Time.digit d4] =
      (text ++ [if minutes ≥ 0 then (0x2B : UInt8) else 0x2D, Time.digit d1, Time.digit d2, Time.digit d3]) ++ [Time.digit d4] by simp]
      at hlen ⊢
    rw [getLast_append_one]
    dsimp only
    rw [if_neg (digit_ne _).1, hlen, if_neg (by omega), Nat.add_sub_cancel]
    simp only [List.append_assoc, List.cons_append, List.nil_append]
    rw [List.getElem?_append_right (Nat.le_refl _), Nat.sub_self]
    simp only [List.getElem?_cons_zero]
    by_cases hp : minutes ≥ 0
    · rw [if_pos hp]; rfl
    · rw [if_neg hp]; rfl
  refine ⟨hf, ?_⟩
  rw [Time.time, hf, Exec.ok_bind, Time.string, Time.setTimeZone, ht, hc, Exec.ok_bind]
  simp

/-- C69 (c).  Local times: a text of 14 digits is stored as is, is recognised as local, and `time()` parses it. -/
theorem C69_local {T : Type} (parse : Bytes → Option T) (id : Ident) (hid : identOk id) (c : Cont) (text : Bytes)
    (h14 : text.length = 14) (hd : ∀ b ∈ text, ∃ n, b = Time.digit n) :
    (Time.setCivil id c text).content = .ok text ∧ Time.format (Time.setCivil id c text) = .ok .local_ ∧
    Time.time parse (Time.setCivil id c text) = .ok (parse text) := by
  have hl := Ident.encodedLength_lt id text.length
  have hcan := assignContent_canon hid c text (by omega)
  have hc := hcan.content
  have hlen : (Cont.assignContent id c text).len = 14 := by simp [Cont.assignContent, h14]
  have hf : Time.format (Time.setCivil id c text) = .ok .local_ := by
    have hne : text ≠ [] := by intro h; simp [h] at h14
    rw [Time.format, Time.setCivil, hc, Exec.ok_bind, List.getLast?_eq_some_getLast hne]
    dsimp only
    obtain ⟨n, hn⟩ := hd _ (List.getLast_mem hne)
    rw [if_neg (by rw [hn]; exact (digit_ne n).1), hlen, if_neg (by omega),
      List.getElem?_eq_getElem (show 14 - 5 < text.length by omega)]
    dsimp only
    obtain ⟨k, hk⟩ := hd _ (List.getElem_mem (show 14 - 5 < text.length by omega))
    rw [hk, if_neg (by intro h; exact h.elim (digit_ne k).2.1 (digit_ne k).2.2)]
  refine ⟨hc, hf, ?_⟩
  rw [Time.time, hf, Exec.ok_bind, Time.string, Time.setCivil, hc, Exec.ok_bind]

/-- "20190102030405" at offset -90 minutes: "20190102030405-0130". -/
example : (Time.setTimeZone (.single ⟨.universal, 24⟩) (Cont.default (.single ⟨.universal, 24⟩))
    [0x32, 0x30, 0x31, 0x39, 0x30, 0x31, 0x30, 0x32, 0x30, 0x33, 0x30, 0x34, 0x30, 0x35] (-90)).content =
    .ok [0x32, 0x30, 0x31, 0x39, 0x30, 0x31, 0x30, 0x32, 0x30, 0x33, 0x30, 0x34, 0x30, 0x35, 0x2D, 0x30, 0x31, 0x33, 0x30] := by
  decide +kernel

/-- C69, comparison: two objects compare by the instants they hold, whatever their formats; when the text of either is not a
time, the comparison throws. -/
theorem C69_eq {T : Type} [DecidableEq T] (parse : Bytes → Option T) (a b : Cont) (x y : Option T)
    (ha : Time.time parse a = .ok x) (hb : Time.time parse b = .ok y) :
    (∀ s t, x = some s → y = some t → Time.eq parse a b = .ok (some (decide (s = t)))) ∧
    (x = none ∨ y = none → Time.eq parse a b = .ok none) := by
  rw [Time.eq, ha, hb, Exec.ok_bind, Exec.ok_bind]
  refine ⟨?_, ?_⟩
  · rintro s t rfl rfl
    by_cases h : s = t <;> simp [h]
  · rintro (rfl | rfl)
    · rfl
    · cases x <;> rfl

/-- C69, comparison after setting: two objects set to the texts of two instants, one in universal format and one with a zone
offset, are equal exactly if the instants are. -/
theorem C69_eq_set {T : Type} [DecidableEq T] (parse : Bytes → Option T) (id id' : Ident) (hid : identOk id) (hid' : identOk id')
    (c c' : Cont) (text text' : Bytes) (s t : T) (minutes : Int) (hm : minutes.natAbs < 6000)
    (hl : id.encodedLength (text.length + 1) < 2 ^ 64) (hl' : id'.encodedLength (text'.length + 5) < 2 ^ 64)
    (hs : parse text = some s) (ht : parse text' = some t) :
    Time.eq parse (Time.setTime id c text) (Time.setTimeZone id' c' text' minutes) = .ok (some (decide (s = t))) :=
  (C69_eq parse _ _ _ _ (C69_universal parse id hid c text hl).2.2
    (C69_timezone parse id' hid' c' text' minutes hm hl').2.2).1 s t hs ht

/-! ## C70: a time object can always be read -/

/-- C70, full statement: after any decode, successful or not, the format of the object can be read. -/
def C70_statement : Prop := ∀ (id : Ident) (c c' : Cont) (input : Bytes) (v : BerView) (ok : Bool), identOk id →
  (∃ f, Time.format c = .ok f) → BerView.parse input = .ok v → timeDecode id c v = .ok (ok, c') → ∃ f, Time.format c' = .ok f

/-- C70 is false: decoding `18 00` fails, but leaves the object with an empty content; `format()`, `time()` and `==` then
read before the content. -/
theorem C70_violated : ¬ C70_statement := by
  intro h
  obtain ⟨f, hf⟩ := h (.single ⟨.universal, 24⟩) (Cont.assignContent (.single ⟨.universal, 24⟩) (Cont.default (.single ⟨.universal, 24⟩)) epochContent)
    ⟨[0x18, 0], 0⟩ [0x18, 0] ⟨true, [0x18, 0], 24, 2, 0⟩ false (by simp [identOk, idOk]) ⟨.universal, by decide +kernel⟩
    (by decide +kernel) (by decide +kernel)
  rw [show Time.format ⟨[0x18, 0], 0⟩ = .ub by decide +kernel] at hf
  cases hf

/-- C70 (part): reading the format is safe after a decode that succeeded, and after a decode that failed unless the element
had the right tag and a content shorter than five octets.  Missing: the latter case, see `C70_violated`. -/
theorem C70_readable_partial (id : Ident) (c c' : Cont) (v : BerView) (hs : SaneView v) (ok : Bool)
    (hc : ∃ f, Time.format c = .ok f) (h : timeDecode id c v = .ok (ok, c'))
    (hlong : ok = true ∨ ∀ w, Matches v id .primitive w → 5 ≤ w.len) : ∃ f, Time.format c' = .ok f := by
  rcases Cont.decode_cases id c v hs with ⟨w, hw, he⟩ | ⟨_, he⟩
  · have hle := matches_len_le hs hw
    have hbd := hs.bound (matches_valid hw).1
    have hdl : (v.mem.take (v.hdr + v.len)).length = v.hdr + v.len := by rw [List.length_take]; omega
    have hx : Cont.content ⟨v.mem.take (v.hdr + v.len), w.len⟩ =
        .ok ((v.mem.take (v.hdr + v.len)).drop (v.hdr + v.len - w.len)) := by
      simp only [Cont.content, hdl]; rw [if_pos hle.1]
    rw [timeDecode, he, Exec.ok_bind] at h
    dsimp only at h
    by_cases hb : w.len < 10 ∨ w.len > 23
    · rw [if_pos hb] at h
      simp only [Exec.ok.injEq, Prod.mk.injEq] at h
      obtain ⟨h1, rfl⟩ := h
      rcases hlong with h2 | h2
      · rw [← h1] at h2; cases h2
      · exact format_ok hx (content_length hx) (h2 w hw)
    · rw [if_neg hb] at h
      simp only [Exec.ok.injEq, Prod.mk.injEq] at h
      obtain ⟨_, rfl⟩ := h
      exact format_ok hx (content_length hx) (by simp only; omega)
  · rw [timeDecode, he, Exec.ok_bind] at h
    dsimp only at h
    split at h <;> (simp only [Exec.ok.injEq, Prod.mk.injEq] at h; obtain ⟨_, rfl⟩ := h; exact hc)

end FastBer.Props
