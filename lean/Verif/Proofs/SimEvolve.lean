import Verif.Spec.Evolve
import Verif.Spec.Fresh
import Verif.Proofs.Sim
import Verif.Proofs.Impl
import Verif.Proofs.Header
/-!
# Versions of types of two trees that mean the same

`Later` and `Part` depend on the meaning of the types only; and what the encoders write is among what the decoders accept.
-/
namespace FastBer.Ast
open Spec FastBer.Spec

theorem SimSlots.later {T1 T2 : Tree} {R : RefRel} {added : List Slot → Prop} {Q : Module → AType → Module → AType → Prop} {m1 m2 mod' : Module} {ext : Bool} {ss ss1 ss' : List Slot}
    (h : LaterSlots added (fun t t' => Q m1 t mod' t') ext ss ss') (hs : SimSlots T1 T2 R m1 ss m2 ss1) :
    LaterSlots added (fun t t' => ∃ m1 t1, Sim T1 T2 R m1 t1 m2 t ∧ Q m1 t1 mod' t') ext ss1 ss' := by
  induction h generalizing ss1 with
  | same => rw [hs.nil]; exact .same _
  | more h => rw [hs.nil]; exact .more h
  | cons h _ ih =>
    obtain ⟨t2, rest, rfl, h2, h3⟩ := hs.cons
    exact .cons ⟨_, _, h2, h⟩ (ih h3)

theorem sim_laterEach {T1 T2 : Tree} {R : RefRel} {Q : Module → AType → Module → AType → Prop} {m1 m2 mod' : Module} {ts ts1 ts' : List AType}
    (h : LaterEach (fun t t' => Q m1 t mod' t') ts ts') (hl : ts.length = ts1.length) (hs : ∀ (i : Nat) t t', ts[i]? = some t → ts1[i]? = some t' → Sim T1 T2 R m1 t m2 t') :
    LaterEach (fun t t' => ∃ m1 t1, Sim T1 T2 R m1 t1 m2 t ∧ Q m1 t1 mod' t') ts1 ts' := by
  induction h generalizing ts1 with
  | more =>
    rw [List.length_eq_zero_iff.1 hl.symm]
    exact .more _
  | cons h _ ih =>
    cases ts1 with
    | nil => cases hl
    | cons t1 rest => exact .cons ⟨_, _, hs 0 _ _ rfl rfl, h⟩ (ih (by simpa using hl) (fun i => hs (i + 1)))

theorem Sim.laterOf {T1 T2 : Tree} {R : RefRel} {added : List Slot → Prop} {Q : Module → AType → Module → AType → Prop} {m1 m2 mod' : Module} {t1 t2 t' : AType}
    (h : Sim T1 T2 R m1 t1 m2 t2) (h2 : isCore t2 = true) (hl : LaterOf added Q m1 t1 mod' t') :
    LaterOf added (fun m t m' t' => ∃ m1 t1, Sim T1 T2 R m1 t1 m t ∧ Q m1 t1 m' t') m2 t2 mod' t' := by
  cases hl with
  | leaf =>
    cases h with
    | right => cases h2
    | leaf => exact .leaf _ _ _
  | seqOf hq =>
    cases h with
    | right => cases h2
    | seqOf _ _ _ _ hs => exact .seqOf ⟨_, _, hs, hq⟩
  | setOf hq =>
    cases h with
    | right => cases h2
    | setOf _ _ _ _ hs => exact .setOf ⟨_, _, hs, hq⟩
  | sequence hq =>
    cases h with
    | right => cases h2
    | sequence _ ht hl h3 h4 =>
      exact .sequence (SimSlots.later hq (Sim.slots ht hl h3 h4))
  | set hq =>
    cases h with
    | right => cases h2
    | set _ ht hl h3 h4 =>
      exact .set (SimSlots.later hq (Sim.slots ht hl h3 h4))
  | choice hq =>
    cases h with
    | right => cases h2
    | choice _ _ ht hl h3 h4 =>
      obtain ⟨hl', hs⟩ := Sim.choices ht hl h3 h4
      exact .choice (sim_laterEach hq hl' (fun i t t' g g' => (hs i t t' g g').2))

/-- The older version may be replaced by a type that means the same. -/
theorem Sim.later {T1 T2 new : Tree} {R : RefRel} (hc : Corr T1 T2 R) {added : List Slot → Prop} {m1 m2 mod' : Module} {t1 t2 t' : AType}
    (h : Sim T1 T2 R m1 t1 m2 t2) (hl : Later added T1 new m1 t1 mod' t') : Later added T2 new m2 t2 mod' t' := by
  obtain ⟨Q, hQ, h0⟩ := hl
  refine ⟨fun m t m' t' => ∃ m1 t1, Sim T1 T2 R m1 t1 m t ∧ Q m1 t1 m' t', ?_, m1, t1, h, h0⟩
  intro m t m' t' ⟨m1, t1, hs, hq⟩
  obtain ⟨ts, wm, u, wm', u', h1, h2, h3, h4, h5⟩ := hQ _ _ _ _ hq
  obtain ⟨w2, u2, h6, h7⟩ := hs.core hc h3
  exact ⟨ts, w2, u2, wm', u', hs.ownTags hc h1, h2, h6, h4, h7.laterOf (core_isCore h6) h5⟩

mutual
/-- And so may the type of which something is a part. -/
theorem Sim.part {T1 T2 : Tree} {R : RefRel} (hc : Corr T1 T2 R) {dropped : List Val → Prop} {m1 m2 : Module} {t1 t2 : AType} {x y : Val}
    (h : Sim T1 T2 R m1 t1 m2 t2) : Part dropped T1 m1 t1 x y → Part dropped T2 m2 t2 x y
  | .intro hcore hp => by
    obtain ⟨wm', u', h1, h2⟩ := h.core hc hcore
    exact .intro h1 (Sim.partOf hc h2 (core_isCore h1) hp)
theorem Sim.partOf {T1 T2 : Tree} {R : RefRel} (hc : Corr T1 T2 R) {dropped : List Val → Prop} {m1 m2 : Module} {t1 t2 : AType} {x y : Val}
    (h : Sim T1 T2 R m1 t1 m2 t2) (h2 : isCore t2 = true) : PartOf dropped T1 m1 t1 x y → PartOf dropped T2 m2 t2 x y
  | .leaf _ _ c => by
    cases h with
    | right => cases h2
    | leaf => exact .leaf _ _ c
  | .seqOf he => by
    cases h with
    | right => cases h2
    | seqOf _ _ _ _ hs => exact .seqOf (Sim.partEach hc hs he)
  | .setOf he => by
    cases h with
    | right => cases h2
    | setOf _ _ _ _ hs => exact .setOf (Sim.partEach hc hs he)
  | .sequence he => by
    cases h with
    | right => cases h2
    | sequence _ ht hl h3 h4 => exact .sequence (Sim.partSlots hc (Sim.slots ht hl h3 h4) he)
  | .set he => by
    cases h with
    | right => cases h2
    | set _ ht hl h3 h4 => exact .set (Sim.partSlots hc (Sim.slots ht hl h3 h4) he)
  | .choice hi he => by
    cases h with
    | right => cases h2
    | choice _ _ ht hl h3 h4 =>
      obtain ⟨hl', hs⟩ := Sim.choices ht hl h3 h4
      obtain ⟨t', ht'⟩ := get_other hl' hi
      exact .choice ht' (Sim.part hc (hs _ _ _ hi ht').2 he)
theorem Sim.partEach {T1 T2 : Tree} {R : RefRel} (hc : Corr T1 T2 R) {dropped : List Val → Prop} {m1 m2 : Module} {t1 t2 : AType} {xs ys : List Val}
    (h : Sim T1 T2 R m1 t1 m2 t2) : PartEach dropped T1 m1 t1 xs ys → PartEach dropped T2 m2 t2 xs ys
  | .nil _ _ => .nil _ _
  | .cons he hr => .cons (Sim.part hc h he) (Sim.partEach hc h hr)
theorem Sim.partSlots {T1 T2 : Tree} {R : RefRel} (hc : Corr T1 T2 R) {dropped : List Val → Prop} {m1 m2 : Module} {ss ss' : List Slot} {xs ys : List Val}
    (h : SimSlots T1 T2 R m1 ss m2 ss') : PartSlots dropped T1 m1 ss xs ys → PartSlots dropped T2 m2 ss' xs ys
  | .nil _ hd => by
    rw [h.nil]; exact .nil _ hd
  | .mandatory he hr => by
    obtain ⟨t', rest, h1, h2, h3⟩ := h.cons
    rw [h1]
    exact .mandatory (Sim.part hc h2 he) (Sim.partSlots hc h3 hr)
  | .present he hr => by
    obtain ⟨t', rest, h1, h2, h3⟩ := h.cons
    rw [h1]
    exact .present (Sim.part hc h2 he) (Sim.partSlots hc h3 hr)
  | .absent hr => by
    obtain ⟨t', rest, h1, h2, h3⟩ := h.cons
    rw [h1]
    exact .absent (Sim.partSlots hc h3 hr)
end

/-! ## What is written can be read -/

theorem lengthField_shortest {n : Nat} (h : n < 2 ^ 64) : LengthField 8 n (lengthOctets n) := by
  unfold lengthOctets
  split
  · exact .short ‹_›
  · refine .long ?_ (length_base256_le n h) (value256_base256 n)
    exact List.length_pos_iff.2 (base256_ne_nil (by omega))

theorem element_definite {P Q : Builtin → Bytes → Prop} {tag : Tag} {k : Construction} {c e : Bytes} (h : Element (shortest P) tag k c e) (hl : e.length < 2 ^ 64) :
    Element (definite Q) tag k c e := by
  obtain ⟨l, h1, rfl⟩ := h
  cases h1
  exact ⟨_, lengthField_shortest (by simp at hl; omega), rfl⟩

theorem element_length {r : Rules} {tag : Tag} {k : Construction} {c e : Bytes} (h : Element r tag k c e) : c.length ≤ e.length := by
  obtain ⟨l, _, rfl⟩ := h
  simp; omega

theorem wrapped_length {r : Rules} : ∀ {ts : List Tag} {k : Construction} {c e : Bytes}, Wrapped r ts k c e → c.length ≤ e.length
  | [], _, _, _, h => by cases h; exact Nat.le_refl _
  | [_], _, _, _, h => element_length h
  | _ :: _ :: _, _, _, _, h => by
    obtain ⟨e', h1, h2⟩ := h
    exact Nat.le_trans (wrapped_length h1) (element_length h2)

theorem wrapped_definite {P Q : Builtin → Bytes → Prop} : ∀ {ts : List Tag} {k : Construction} {c e : Bytes}, Wrapped (shortest P) ts k c e → e.length < 2 ^ 64 →
    Wrapped (definite Q) ts k c e
  | [], _, _, _, h, _ => h
  | [_], _, _, _, h, hl => element_definite h hl
  | _ :: _ :: _, _, _, _, h, hl => by
    obtain ⟨e', h1, h2⟩ := h
    have := element_length h2
    exact ⟨e', wrapped_definite h1 (by omega), element_definite h2 hl⟩

mutual
/-- An encoding with shortest lengths is one with definite lengths; the simple values are those of the value. -/
theorem encodes_definite {P Q : Builtin → Bytes → Prop} {tree : Tree} {mod : Module} {t : AType} {x : Val} {e : Bytes} (hv : Spec.Value Q tree mod t x) (hl : e.length < 2 ^ 64) :
    Encodes (shortest P) tree mod t x e → Encodes (definite Q) tree mod t x e
  | .intro ho hcore hcon hw => by
    cases hv with
    | intro hc hv =>
      obtain ⟨rfl, rfl⟩ := hc.unique hcore
      exact .intro ho hcore (contents_definite hv (Nat.lt_of_le_of_lt (wrapped_length hw) hl) hcon) (wrapped_definite hw hl)
theorem contents_definite {P Q : Builtin → Bytes → Prop} {tree : Tree} {mod : Module} {t : AType} {x : Val} {k : Construction} {e : Bytes} (hv : ValueOf Q tree mod t x) (hl : e.length < 2 ^ 64) :
    Contents (shortest P) tree mod t x k e → Contents (definite Q) tree mod t x k e
  | .leaf _ => by
    cases hv with
    | leaf h => exact .leaf h
  | .seqOf he => by
    cases hv with
    | seqOf h => exact .seqOf (each_definite h hl he)
  | .setOf he => by
    cases hv with
    | setOf h => exact .setOf (each_definite h hl he)
  | .sequence he => by
    cases hv with
    | sequence h => exact .sequence (slots_definite h hl he)
  | .set he hp => by
    cases hv with
    | set h => exact .set (slots_definite h (by rw [← hp.flatten.length_eq] at hl; exact hl) he) hp
  | .choice hi he => by
    cases hv with
    | choice h h' =>
      rw [hi] at h; cases h
      exact .choice hi (encodes_definite h' hl he)
theorem each_definite {P Q : Builtin → Bytes → Prop} {tree : Tree} {mod : Module} {t : AType} {xs : List Val} {es : List Bytes} (hv : ∀ x, x ∈ xs → Spec.Value Q tree mod t x)
    (hl : es.flatten.length < 2 ^ 64) : EncodesEach (shortest P) tree mod t xs es → EncodesEach (definite Q) tree mod t xs es
  | .nil _ _ => .nil _ _
  | .cons he hr => by
    simp only [List.flatten_cons, List.length_append] at hl
    exact .cons (encodes_definite (hv _ (by simp)) (by omega) he) (each_definite (fun x hx => hv x (by simp [hx])) (by omega) hr)
theorem slots_definite {P Q : Builtin → Bytes → Prop} {tree : Tree} {mod : Module} {ss : List Slot} {xs : List Val} {es : List Bytes} (hv : ValueSlots Q tree mod ss xs)
    (hl : es.flatten.length < 2 ^ 64) : EncodesSlots (shortest P) tree mod ss xs es → EncodesSlots (definite Q) tree mod ss xs es
  | .nil _ => .nil _
  | .mandatory he hr => by
    simp only [List.flatten_cons, List.length_append] at hl
    cases hv with
    | mandatory h1 h2 => exact .mandatory (encodes_definite h1 (by omega) he) (slots_definite h2 (by omega) hr)
  | .present he hr => by
    simp only [List.flatten_cons, List.length_append] at hl
    cases hv with
    | present h1 h2 => exact .present (encodes_definite h1 (by omega) he) (slots_definite h2 (by omega) hr)
  | .absent hr => by
    simp only [List.flatten_cons, List.length_append, List.length_nil] at hl
    cases hv with
    | absent h2 => exact .absent (slots_definite h2 (by omega) hr)
end

end FastBer.Ast
