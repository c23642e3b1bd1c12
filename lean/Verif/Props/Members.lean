import Verif.Model.Members
import Verif.Props.View
import Verif.Proofs.SchemaSafeSeq
/-! # C72, C73: decoding members by hand -/
namespace FastBer.Props
open FastBer FastBer.Spec

/-- `++` on an iterator over sane bytes always works, at the end too, where it stays. -/
theorem next_sane {it : Iter} {tag0 : Int} (hs : Sane it.buf) (ha : BerView.assign it.buf tag0 = .ok it.view) :
    ∃ it', it.next = .ok it' ∧ Sane it'.buf ∧ ∃ t, BerView.assign it'.buf t = .ok it'.view := by
  obtain ⟨v, ha', hsv, hrest⟩ := hs.assign tag0
  rw [ha] at ha'; cases ha'
  cases hv : it.view.valid with
  | false =>
    obtain ⟨hm, hh, hl⟩ := hsv.inval hv
    have hb : it.view.berLength = 0 := by rw [BerView.berLength, hh, hl]; rfl
    obtain ⟨w, hw, _⟩ := hs.assign it.view.tag
    refine ⟨⟨it.buf, w⟩, ?_, hs, _, hw⟩
    rw [Iter.next, hb, if_neg (by omega)]
    simp [hw]
  | true =>
    obtain ⟨hm, hsr⟩ := hrest hv
    obtain ⟨_, hbd, _⟩ := hsv.bound hv
    rw [hm] at hbd
    obtain ⟨w, hw, _⟩ := hsr.assign it.view.tag
    refine ⟨⟨it.buf.drop (it.view.hdr + it.view.len), w⟩, ?_, hsr, _, hw⟩
    rw [Iter.next, hsv.berLength, if_neg (by omega)]
    simp [hw]

theorem iter_agrees (fs : List Field) (hk : ∀ f ∈ fs, f.kind = .mandatory ∨ f.kind = .optional)
    (hl : ∀ f ∈ fs, f.labels = f.codec.ids) (os : List Obj) {it : Iter} {tag0 : Int} (hs : Sane it.buf)
    (ha : BerView.assign it.buf tag0 = .ok it.view) : iterDecodeAll fs os it = decodeSeq fs os it := by
  induction fs generalizing os it tag0 with
  | nil => cases os <;> rfl
  | cons f fs ih =>
    cases os with
    | nil => rfl
    | cons o os =>
      obtain ⟨it', hn, hs', t, ha'⟩ := next_sane hs ha
      have ihn := fun os => ih (fun f hf => hk f (by simp [hf])) (fun f hf => hl f (by simp [hf])) os hs' ha'
      have ih0 := fun os => ih (fun f hf => hk f (by simp [hf])) (fun f hf => hl f (by simp [hf])) os hs ha
      have hlf := hl f (by simp)
      rcases hk f (by simp) with hm | hm
      · simp only [iterDecodeAll, decodeSeq, Field.iterDecode, Field.decode, Field.isMandatory, hm, if_true]
        cases hd : f.codec.decode o it.view with
        | ub => rfl
        | loop => rfl
        | ok r =>
          obtain ⟨b, o'⟩ := r
          cases b <;> simp [hn, ihn]
      · simp only [iterDecodeAll, decodeSeq, Field.iterDecode, Field.decode, Field.isMandatory, hm, Bool.false_eq_true, if_false]
        cases hv : it.view.valid with
        | false => simp [ih0]
        | true =>
          cases hc : it.view.cls with
          | ub => simp
          | loop => simp
          | ok c =>
            simp only [if_true, Exec.ok_bind, hlf]
            cases hmem : f.codec.ids.contains ⟨c, it.view.tag⟩ with
            | false => simp [ih0]
            | true =>
              simp only [if_true]
              cases hi : f.codec.init with
              | ub => rfl
              | loop => rfl
              | ok o' =>
                simp only [Exec.ok_bind]
                cases hd : f.codec.decode o' it.view with
                | ub => rfl
                | loop => rfl
                | ok r =>
                  obtain ⟨b, o'⟩ := r
                  cases b <;> simp [hn, ihn]

/-- C72: decoding the members one after the other with `decode(it, member)` does what the generated decoder of the SEQUENCE
does. -/
def C72_statement : Prop := ∀ (fs : List Field) (os : List Obj) (content : Bytes) (it : Iter), Sane content →
  (∀ f ∈ fs, f.labels = f.codec.ids) → Iter.mk' content = .ok it → iterDecodeAll fs os it = decodeSeq fs os it

/-- SEQUENCE { a INTEGER DEFAULT 1, b BOOLEAN }. -/
private def defaultSeq : List Field :=
  [⟨.default (.raw [1]), [⟨.universal, 2⟩], intCodec (.single ⟨.universal, 2⟩)⟩,
   ⟨.mandatory, [⟨.universal, 1⟩], boolCodec (.single ⟨.universal, 1⟩)⟩]

/-- The `success` member of the result. -/
def outcome {α : Type} : Exec (Bool × α) → Option Bool
  | .ok r => some r.1
  | _ => none

/-- Not with DEFAULT members: the iterator stays on the element of the member, and the next member is decoded from it. -/
theorem C72_default_violated : ¬ C72_statement := by
  intro h
  have hs : Sane [0x02, 0x01, 0x05, 0x01, 0x01, 0x7F] := (plain_of_all_small _ (by decide) (by decide)).tame.sane
  have := h defaultSeq [.none, .raw [0]] _ ⟨[0x02, 0x01, 0x05, 0x01, 0x01, 0x7F],
    ⟨true, [0x02, 0x01, 0x05, 0x01, 0x01, 0x7F], 2, 2, 1⟩⟩ hs (by decide +kernel) (by decide +kernel)
  have e1 : outcome (iterDecodeAll defaultSeq [.none, .raw [0]] ⟨[0x02, 0x01, 0x05, 0x01, 0x01, 0x7F],
    ⟨true, [0x02, 0x01, 0x05, 0x01, 0x01, 0x7F], 2, 2, 1⟩⟩) = some false := by decide +kernel
  have e2 : outcome (decodeSeq defaultSeq [.none, .raw [0]] ⟨[0x02, 0x01, 0x05, 0x01, 0x01, 0x7F],
    ⟨true, [0x02, 0x01, 0x05, 0x01, 0x01, 0x7F], 2, 2, 1⟩⟩) = some true := by decide +kernel
  rw [this, e2] at e1
  cases e1

/-- It does when every member is plain or OPTIONAL. -/
theorem C72_agrees_partial (fs : List Field) (hk : ∀ f ∈ fs, f.kind = .mandatory ∨ f.kind = .optional)
    (hl : ∀ f ∈ fs, f.labels = f.codec.ids) (os : List Obj) (content : Bytes) (hs : Sane content) (it : Iter)
    (hi : Iter.mk' content = .ok it) : iterDecodeAll fs os it = decodeSeq fs os it := by
  rw [Iter.mk'] at hi
  obtain ⟨v, hv, hv2⟩ := Exec.bind_eq_ok.mp hi
  cases hv2
  exact iter_agrees fs hk hl os hs hv

/-- The hypotheses hold for SEQUENCE { a INTEGER OPTIONAL, b BOOLEAN } and an encoding in which `a` is present. -/
example : ∃ fs content it, (∀ f ∈ fs, f.kind = .mandatory ∨ f.kind = .optional) ∧ (∀ f ∈ fs, f.labels = f.codec.ids) ∧
    Sane content ∧ Iter.mk' content = .ok it ∧ outcome (iterDecodeAll fs [.none, .raw [0]] it) = some true := by
  refine ⟨[⟨.optional, [⟨.universal, 2⟩], intCodec (.single ⟨.universal, 2⟩)⟩,
    ⟨.mandatory, [⟨.universal, 1⟩], boolCodec (.single ⟨.universal, 1⟩)⟩], [0x02, 0x01, 0x05, 0x01, 0x01, 0x7F],
    ⟨[0x02, 0x01, 0x05, 0x01, 0x01, 0x7F], ⟨true, [0x02, 0x01, 0x05, 0x01, 0x01, 0x7F], 2, 2, 1⟩⟩, ?_, by decide +kernel,
    (plain_of_all_small _ (by decide) (by decide)).tame.sane, by decide +kernel, by decide +kernel⟩
  intro f hf
  simp only [List.mem_cons, List.not_mem_nil, or_false] at hf
  rcases hf with rfl | rfl
  · exact .inr rfl
  · exact .inl rfl

/-- C73: what `Optional<T>::decode(view)` (and `Default<T, V>::decode`) leaves behind depends only on the view, never on what
the member held before: no element (invalid view) gives success and an empty member (the default value), an element with
T's identifier gives what T's decoder makes of it in a new object, and any other element is refused and changes nothing. -/
theorem C73_optional_decode (f : Field) (hk : f.kind ≠ .mandatory) (v : BerView) (o : Obj) :
    (v.valid = false → f.decode o v = .ok (true, .none)) ∧
    (∀ c, v.valid = true → v.cls = .ok c → ⟨c, v.tag⟩ ∈ f.codec.ids → ∀ o' r x, f.codec.init = .ok o' →
      f.codec.decode o' v = .ok (r, x) → f.decode o v = .ok (r, .some x)) ∧
    (∀ c, v.valid = true → v.cls = .ok c → ⟨c, v.tag⟩ ∉ f.codec.ids → f.decode o v = .ok (false, o)) := by
  have hd : f.decode o v = (do
      if v.valid then
        let c ← v.cls
        if f.codec.ids.contains ⟨c, v.tag⟩ then
          let o' ← f.codec.init
          let r ← f.codec.decode o' v
          .ok (r.1, .some r.2)
        else .ok (false, o)
      else .ok (true, .none)) := by
    rw [Field.decode]
    cases hf : f.kind with
    | mandatory => exact absurd hf hk
    | optional => rfl
    | default d => rfl
  rw [hd]
  refine ⟨fun h => by simp [h], fun c h hc hm o' r x hi hx => ?_, fun c h hc hm => ?_⟩
  · simp [h, hc, hm, hi, hx]
  · simp [h, hc, hm]

/-- Two previous states give the same result and, when the view is not refused, the same member. -/
theorem C73_history_free (f : Field) (hk : f.kind ≠ .mandatory) (v : BerView) (o1 o2 : Obj) :
    outcome (f.decode o1 v) = outcome (f.decode o2 v) ∧
    (outcome (f.decode o1 v) = some true → f.decode o1 v = f.decode o2 v) := by
  cases hf : f.kind with
  | mandatory => exact absurd hf hk
  | optional =>
    simp only [Field.decode, hf]
    cases v.valid with
    | false => simp
    | true =>
      cases v.cls with
      | ub => simp
      | loop => simp
      | ok c =>
        simp only [Exec.ok_bind, if_true]
        split
        · simp
        · simp [outcome]
  | default d =>
    simp only [Field.decode, hf]
    cases v.valid with
    | false => simp
    | true =>
      cases v.cls with
      | ub => simp
      | loop => simp
      | ok c =>
        simp only [Exec.ok_bind, if_true]
        split
        · simp
        · simp [outcome]

example : outcome ((⟨.optional, [], intCodec (.single ⟨.universal, 2⟩)⟩ : Field).decode (.some (.raw [1, 7]))
    ⟨true, [0x02, 0x01, 0x05], 2, 2, 1⟩) = some true := by decide +kernel

end FastBer.Props
