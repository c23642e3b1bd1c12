import Verif.Spec.Packet
import Verif.Proofs.Container
/-! # Proofs about `BerContainer` -/
namespace FastBer
open Spec

namespace Packet

/-- The container is invalid, or its vector is exactly one element and its view is the parse of that. -/
def Wf (p : Packet) : Prop :=
  (∃ t, p = ⟨[], .null t⟩) ∨
  (∃ t h l, p.at_ = .own t h l ∧ BerView.parse p.data = .ok p.view ∧ h + l = p.data.length ∧ p.data.length < 2 ^ 64)

theorem view_own {p : Packet} {t : Int} {h l : Nat} (e : p.at_ = .own t h l) : p.view = ⟨true, p.data, t, h, l⟩ := by
  unfold view; rw [e]

/-- A container whose vector is an element and whose view is the view of it. -/
def Canon (p : Packet) (c : Class) (k : Construction) (t : Nat) (x : Bytes) : Prop :=
  p = ⟨element c k t x, .own t (header c k t x.length).length x.length⟩

theorem Canon.view {p : Packet} {c : Class} {k : Construction} {t : Nat} {x : Bytes} (h : p.Canon c k t x) :
    p.view = elementView c k t x [] := by
  rw [h]; simp [Packet.view, elementView]

theorem Canon.shows {p : Packet} {c : Class} {k : Construction} {t : Nat} {x : Bytes} (h : p.Canon c k t x)
    (hl : (element c k t x).length < 2 ^ 64) : ShowsElement p c k t x := by
  have hv := h.view
  have hb := elementView_berLength c k t x [] hl
  refine ⟨?_, ?_, ?_, ?_, ?_, ?_, ?_, ?_, ?_⟩
  · rw [isValid, hv]; rfl
  · rw [hv]; exact elementView_cls ..
  · rw [hv]; exact elementView_construction ..
  · rw [hv]; rfl
  · rw [hv]; exact elementView_content ..
  · rw [hv]; rfl
  · rw [hv]; exact elementView_ber _ _ _ _ _ hl
  · rw [hv]; exact hb
  · intro buf
    rw [encode, hv, BerView.encode, hb, elementView_ber _ _ _ _ _ hl]
    by_cases hf : (element c k t x).length ≤ buf.length
    · rw [if_neg (by omega), if_pos hf]; rfl
    · rw [if_pos (by omega), if_neg hf]; rfl

theorem Canon.wf {p : Packet} {c : Class} {k : Construction} {t : Nat} {x : Bytes} (h : p.Canon c k t x) (ht : t < 2 ^ 63)
    (hl : (element c k t x).length < 2 ^ 64) : p.Wf := by
  refine .inr ⟨_, _, _, by rw [h], ?_, ?_, by rw [h]; exact hl⟩
  · rw [h.view, h]
    have := assign_element c k t x [] 0 ht hl
    rwa [List.append_nil] at this
  · rw [h, ← length_element]

theorem default_canon : Packet.Canon default .universal .primitive 0 [] := by
  unfold Packet.Canon; decide

theorem vecResize_take {d : Bytes} {n m : Nat} (h : m ≤ n) (h' : m ≤ d.length) : (vecResize d n).take m = d.take m := by
  unfold vecResize
  rw [List.take_append_of_le_length (by rw [List.length_take]; omega), List.take_take, Nat.min_eq_left h]

theorem writeAt_end {d x h : Bytes} {n : Nat} (hd : d.length = n + x.length) (hp : d.take n = h) : writeAt d n x = h ++ x := by
  rw [writeAt, hp, List.drop_eq_nil_of_le (by omega), List.append_nil]

theorem assignContent_canon (p : Packet) (x : Bytes) (hx : x.length < 2 ^ 64) :
    (p.assignContent x).Canon .universal .primitive 0 x := by
  have hlen := length_vecResize p.data (15 + x.length)
  have hn := length_lengthOctets x.length hx
  have hle : encodedLengthLength x.length ≤ 9 := by
    unfold encodedLengthLength
    repeat' split
    all_goals omega
  simp only [assignContent]
  rw [encodeLength_fits _ _ hx (by rw [List.length_drop, List.length_set, hlen]; omega)]
  have hid : identifierOctets .universal .primitive 0 = [0] := by decide
  simp only [Packet.Canon, Packet.mk.injEq, PacketView.own.injEq]
  have h1 : ((vecResize p.data (15 + x.length)).set 0 0).take 1 = [0] := by
    cases hd : vecResize p.data (15 + x.length) with
    | nil => rw [hd] at hlen; simp at hlen; omega
    | cons b r => rfl
  refine ⟨?_, rfl, ?_, trivial⟩
  · rw [element, header, hid]
    refine writeAt_end (length_vecResize _ _) ?_
    rw [vecResize_take (by omega) (by simp only [List.length_append, h1, hn, List.length_singleton]; omega), h1, ← List.append_assoc,
      List.take_left' (by simp [hn, Nat.add_comm])]
  · rw [header, hid, List.length_append, hn]; rfl

theorem pointTo_element (p : Packet) (c : Class) (k : Construction) (t : Nat) (x : Bytes) (ht : t < 2 ^ 63) :
    ∃ q, p.pointTo (element c k t x) (header c k t x.length).length x.length = .ok q ∧ q.Canon c k t x := by
  refine ⟨_, ?_, rfl⟩
  unfold pointTo
  have e : element c k t x = identifierOctets c k t ++ (lengthOctets x.length ++ x) := by simp [element, header]
  rw [e, extractTag_identifierOctets c k t _ _ ht]
  rfl

theorem assignElement_canon (p : Packet) (k : Construction) (c : Class) (t : Nat) (x : Bytes) (ht : t < 2 ^ 63) (hx : x.length < 2 ^ 64) :
    ∃ q, p.assignElement k c t x = .ok q ∧ q.Canon c k t x := by
  have hlen := length_vecResize p.data (30 + x.length)
  have hh := length_header c k t x.length ht hx
  have h19 := headerLength_le ⟨c, t⟩ x.length
  simp only [assignElement]
  rw [encodeHeader_fits _ k c t _ ht hx (by omega)]
  simp only
  rw [writeAt_end (h := header c k t x.length) (length_vecResize _ _)
    (by rw [vecResize_take (by omega) (by rw [List.length_append]; omega), List.take_left])]
  exact pointTo_element p c k t x ht

theorem decode_invalid (p : Packet) (v : BerView) (h : v.valid = false) : ∃ t, p.decode v = .ok (false, ⟨[], .null t⟩) := by
  refine ⟨p.view.tag, ?_⟩
  unfold decode
  rw [h]
  rfl

theorem decode_valid (p : Packet) (v : BerView) (h : v.valid = true) (hb : v.hdr + v.len ≤ v.mem.length) (hw : v.hdr + v.len < 2 ^ 64) :
    p.decode v = .ok (true, ⟨v.mem.take (v.hdr + v.len), .own v.tag v.hdr v.len⟩) := by
  unfold decode
  rw [h, BerView.ber, BerView.berLength, u64_of_lt hw, if_pos hb]
  rfl

/-- `resize_content` on a container whose view points to an element with identifier octets of the expected length. -/
theorem resize_ok {p : Packet} {t : Int} {h l n : Nat} (e : p.at_ = .own t h l) (hd : h + l = p.data.length)
    (hoff : encodedTagLength t ≤ h) (hn : n < 2 ^ 64) (tag : ∀ s, extractTag (p.data.take (encodedTagLength t) ++ s) t = .ok (encodedTagLength t, t))
    (hs : h + min l n ≤ encodedTagLength t + encodedLengthLength n + n) :
    ∃ y, p.resizeContent n = .ok ⟨p.data.take (encodedTagLength t) ++ (lengthOctets n ++ y), .own t (encodedTagLength t + (lengthOctets n).length) n⟩ ∧
      y.length = n ∧ y.take (min l n) = (p.data.drop h).take (min l n) ∧
      (h ≤ encodedTagLength t + (lengthOctets n).length → y.drop (min l n) = List.replicate (n - l) 0) := by
  have hll := length_lengthOctets n hn
  have hle : encodedLengthLength n ≤ 9 := by
    unfold encodedLengthLength
    repeat' split
    all_goals omega
  have hm := Nat.min_le_left l n
  have hm' := Nat.min_le_right l n
  generalize hmm : min l n = m at *
  unfold resizeContent
  rw [view_own e]
  simp only [BerView.identifierLength]
  rw [encodeLength_fits _ n hn (by simp; omega)]
  simp only [hmm]
  generalize hoffe : encodedTagLength t = off at *
  rw [← hll] at hs ⊢
  have hlen := length_vecResize p.data (off + (lengthOctets n).length + n)
  rw [if_pos (by omega)]
  generalize hd' : vecResize p.data (off + (lengthOctets n).length + n) = d' at *
  have hsrc : (d'.drop h).take m = (p.data.drop h).take m := by
    rw [← hd', vecResize, List.drop_append_of_le_length (by rw [List.length_take]; omega),
      List.take_append_of_le_length (by rw [List.length_drop, List.length_take]; omega), List.drop_take, List.take_take]
    congr 1; omega
  have hsl : ((d'.drop h).take m).length = m := by rw [List.length_take, List.length_drop]; omega
  have hpre : d'.take off = p.data.take off := by
    rw [← hd']; exact vecResize_take (by omega) (by omega)
  have hw : writeAt (writeAt d' (off + (lengthOctets n).length) ((d'.drop h).take m)) off
      ((lengthOctets n ++ (List.replicate 20 0).drop (lengthOctets n).length).take (lengthOctets n).length) =
      p.data.take off ++ (lengthOctets n ++ ((d'.drop h).take m ++ d'.drop (off + (lengthOctets n).length + m))) := by
    rw [List.take_left]
    conv => lhs; rw [writeAt]
    rw [drop_writeAt (by omega), hsl]
    rw [show writeAt d' (off + (lengthOctets n).length) ((d'.drop h).take m) =
      d'.take (off + (lengthOctets n).length) ++ ((d'.drop h).take m ++ d'.drop (off + (lengthOctets n).length + ((d'.drop h).take m).length)) by
        rw [writeAt, List.append_assoc]]
    rw [List.take_append_of_le_length (by rw [List.length_take]; omega), List.take_take, Nat.min_eq_left (by omega), hpre]
    simp only [List.append_assoc]
  rw [hw]
  refine ⟨(d'.drop h).take m ++ d'.drop (off + (lengthOctets n).length + m), ?_, ?_, ?_, ?_⟩
  · unfold pointTo
    rw [view_own e]
    simp only
    rw [tag]
    rfl
  · rw [List.length_append, hsl, List.length_drop]; omega
  · rw [List.take_left' hsl, hsrc]
  · intro hle'
    rw [List.drop_left' hsl, ← hd', vecResize, List.drop_append, List.drop_eq_nil_of_le (by rw [List.length_take]; omega), List.nil_append,
      List.length_take, List.drop_replicate]
    congr 1; omega

theorem resize_ub {p : Packet} {t : Int} {h l n : Nat} (e : p.at_ = .own t h l) (hn : n < 2 ^ 64)
    (hs : ¬ h + min l n ≤ encodedTagLength t + encodedLengthLength n + n) : p.resizeContent n = .ub := by
  have hle : encodedLengthLength n ≤ 9 := by
    unfold encodedLengthLength
    repeat' split
    all_goals omega
  unfold resizeContent
  rw [view_own e]
  simp only [BerView.identifierLength]
  rw [encodeLength_fits _ n hn (by simp; omega)]
  simp only [length_vecResize]
  exact if_neg hs

end Packet

end FastBer
