import Verif.Spec.Show
import Verif.Proofs.Viewer
import Verif.Proofs.ViewerSafe
import Verif.Proofs.SchemaEq
import Verif.Proofs.Impl
/-! # The text printed for an object of a generated type -/
namespace FastBer.Show
open FastBer FastBer.Spec FastBer.Ast FastBer.Json.Spec FastBer.Viewer FastBer.Viewer.Spec

/-! ## Pieces -/

theorem char_byte (c : Char) (h : (48 ≤ c.toNat ∧ c.toNat ≤ 57) ∨ (65 ≤ c.toNat ∧ c.toNat ≤ 90) ∨ c.toNat = 95 ∨ (97 ≤ c.toNat ∧ c.toNat ≤ 122)) :
    0x20 ≤ (UInt8.ofNat c.toNat).toNat ∧ UInt8.ofNat c.toNat ≠ 0x22 ∧ UInt8.ofNat c.toNat ≠ 0x5C := by
  have e : (UInt8.ofNat c.toNat).toNat = c.toNat := by rw [UInt8.toNat_ofNat']; omega
  refine ⟨by omega, fun hc => ?_, fun hc => ?_⟩ <;> · rw [hc] at e; simp at e; omega

theorem chars_name {n : Name} (h : NameOk n) : Chars (nameChars n) (lit n) := by
  have := chars_plain (lit n) fun b hb => by
    obtain ⟨c, hc, rfl⟩ := List.mem_map.1 hb
    exact char_byte c (h c hc)
  rwa [lit, List.map_map] at this

theorem value_name {n : Name} (h : NameOk n) : Value (.string (nameChars n)) (lit "\"" ++ lit n ++ lit "\"") := .string (chars_name h)

theorem lookup_mem {l : List (Int × Name)} (hn : (l.map (·.1)).Nodup) {a : Int} {n : Name} (h : (a, n) ∈ l) : l.lookup a = some n := by
  induction l with
  | nil => cases h
  | cons p l ih =>
    obtain ⟨b, m⟩ := p
    rw [List.map_cons, List.nodup_cons] at hn
    rcases List.mem_cons.1 h with h | h
    · cases h; simp [List.lookup]
    · have : a ≠ b := fun e => hn.1 (List.mem_map.2 ⟨(a, n), h, e⟩)
      rw [List.lookup, show (a == b) = false by simpa using this]
      exact ih hn.2 h

theorem bmod_int {n : Int} (h : -2 ^ 31 ≤ n ∧ n < 2 ^ 31) : n.bmod (2 ^ 32) = n := by
  rw [Int.bmod_eq_of_le] <;> omega

theorem cont_content {id : Ident} {o : Obj} {x : Val} {e : Bytes} (h : contRep id o x e) :
    ∃ c b, x = .content b ∧ o = .cont c ∧ c.content = .ok b := by
  obtain ⟨c, rfl, hw, rfl, rfl⟩ := contRep_iff.mp h
  exact ⟨c, _, rfl, rfl, hw.content⟩

/-- The objects of a simple type. -/
theorem show_leaf {h : Host} (hh : ∀ b, 128 ≤ b.toNat → h.high b = .ok false) {real : Bytes → Json → Prop}
    (hr : ∀ c j, real c j → ∃ s, h.real c = .ok s ∧ Value j s) {k : Leaf} {values : List (Int × Name)} {id : Ident} (hid : identOk id)
    (hv : (∀ v ∈ values, NameOk v.2 ∧ -2 ^ 31 ≤ v.1 ∧ v.1 < 2 ^ 31) ∧ (values.map (·.1)).Nodup ∧ (values.map (·.2)).Nodup) {o : Obj} {x : Val} {e : Bytes}
    (hx : leafRep k id o x e) (hs : (PTy.leaf k values id).Showable real x) :
    ∃ s j, showLeaf h k values id o = .ok (some s) ∧ (PTy.leaf k values id).Describes real x j ∧ Value j s := by
  cases k with
  | int =>
    obtain ⟨c, d, rfl, rfl, hw, rfl⟩ := smallRep_iff.mp (show smallRep 8 id o x e from hx)
    exact ⟨_, _, by simp only [showLeaf, quiet, small_value hid hw, Exec.ok_bind], ⟨c, rfl, rfl⟩, value_int _⟩
  | enum =>
    obtain ⟨c, d, rfl, rfl, hw, rfl⟩ := smallRep_iff.mp (show smallRep 8 id o x e from hx)
    obtain ⟨n, hn⟩ : ∃ n, (twosComplement c, n) ∈ values := hs
    refine ⟨_, _, ?_, ⟨c, rfl, n, hn, rfl⟩, value_name (hv.1 _ hn).1⟩
    simp only [showLeaf, quiet, Enumerated.value, small_value hid hw, Exec.ok_bind]
    rw [bmod_int (hv.1 _ hn).2, enumText, lookup_mem hv.2.1 hn]
  | bool =>
    obtain ⟨p, rfl, rfl, rfl⟩ := hx
    refine ⟨_, .bool (p ≠ 0), by simp only [showLeaf, Boolean.value, getLastD_tagged]; rfl, ⟨_, rfl, by simp [leafDescribes]⟩, ?_⟩
    by_cases hp : p = 0
    · subst hp; exact .false
    · rw [show (p != 0) = true by simpa using hp]
      simp only [ne_eq, hp, not_false_eq_true, decide_true, if_true]
      exact .true
  | null =>
    obtain ⟨rfl, rfl, rfl⟩ := hx
    exact ⟨_, _, rfl, ⟨_, rfl, rfl⟩, .null⟩
  | str =>
    obtain ⟨c, b, rfl, rfl, hc⟩ := cont_content hx
    obtain ⟨s, h1, h2⟩ := showString_text hh hc hs
    exact ⟨s, _, by simp only [showLeaf, quiet, h1, Exec.ok_bind], ⟨b, rfl, rfl⟩, h2⟩
  | oid =>
    obtain ⟨c, b, rfl, rfl, hc⟩ := cont_content hx
    obtain ⟨⟨a, rest, rfl, ha⟩, hb⟩ : (∃ a rest, b = a :: rest ∧ a.toNat < 120) ∧ ∀ s ∈ subidentifiers [] b, value128 s < 2 ^ 63 := hs
    have hb' : ∀ s ∈ subidentifiers [] rest, value128 s < 2 ^ 63 := by
      intro s h
      apply hb
      rw [subidentifiers, if_neg (by omega)]
      exact List.mem_cons_of_mem _ h
    refine ⟨_, _, ?_, ⟨_, rfl, rfl⟩, value_components _⟩
    simp only [showLeaf, quiet, Oid.value, hc, Exec.ok_bind]
    rw [Props.C64_decode_x690_partial a rest ha hb']
  | real cmp =>
    obtain ⟨c, d, rfl, rfl, hw, rfl⟩ := smallRep_iff.mp (show smallRep 100 id o x e from hx)
    obtain ⟨j, hj⟩ : ∃ j, real c j := hs
    obtain ⟨s, h1, h2⟩ := hr c j hj
    exact ⟨s, j, by simp only [showLeaf, quiet, hw.content hid (by omega), h1, Exec.ok_bind], ⟨c, rfl, hj⟩, h2⟩
  | time cmp =>
    obtain ⟨c, b, rfl, rfl, hc⟩ := cont_content hx
    exact False.elim hs

/-! ## Composite types -/

theorem items_shown {R : Obj → Val → Bytes → Prop} {S : Val → Prop} {D : Val → Json → Prop} {f : Obj → Exec (Option Bytes)}
    (hf : ∀ o x e, R o x e → S x → ∃ s j, f o = .ok (some s) ∧ D x j ∧ Value j s) :
    ∀ (os : List Obj) (xs : List Val) (es : List Bytes), all3 R os xs es → (∀ y ∈ xs, S y) →
      ∃ ss js, Each js ss ∧ all2 D xs js ∧ ∀ first, showItems f first os = .ok (some (joined first ss))
  | [], [], [], _, _ => ⟨[], [], .nil, trivial, fun _ => rfl⟩
  | o :: os, x :: xs, e :: es, ⟨h1, h2⟩, hs => by
    obtain ⟨s, j, a1, a2, a3⟩ := hf o x e h1 (hs x (by simp))
    obtain ⟨ss, js, b1, b2, b3⟩ := items_shown hf os xs es h2 (fun y hy => hs y (by simp [hy]))
    exact ⟨s :: ss, j :: js, .cons a3 b1, ⟨a2, b2⟩, fun first => by rw [showItems, a1, andThen, b3]; rfl⟩
  | [], _ :: _, _, h, _ => by cases h
  | _ :: _, [], _, h, _ => by cases h
  | [], [], _ :: _, h, _ => by cases h
  | _ :: _, _ :: _, [], h, _ => by cases h

/-- What is written for the members: the text, after a comma unless it is the first. -/
inductive Written : Bool → List (List JChar × Json) → Bytes → Prop
  | nil {first} : Written first [] []
  | cons {first k j ms s t} {n : Name} : Chars k (lit n) → Value j s → Written false ms t →
      Written first ((k, j) :: ms) ((if first then [] else lit ", ") ++ lit "\"" ++ lit n ++ lit "\" : " ++ s ++ t)

theorem members_written {k : List JChar} {n : Name} {j : Json} {ms : List (List JChar × Json)} {s t : Bytes} (hk : Chars k (lit n)) (hs : Value j s)
    (h : Written false ms t) (w : Bytes) (hw : Ws w) : Members ((k, j) :: ms) (w ++ (lit "\"" ++ lit n ++ lit "\" : " ++ s ++ t)) := by
  generalize hb : false = b at h
  induction h generalizing k n j s w with
  | nil =>
    have := Members.one hw hk ws_space ws_space hs ws_nil
    exact Eq.mp (congrArg (Members _) (by simp [lit])) this
  | @cons first k' j' ms s' t n' h1 h2 _ ih =>
    subst hb
    have := Members.more hw hk ws_space ws_space hs ws_nil (ih h1 h2 [0x20] ws_space rfl)
    exact Eq.mp (congrArg (Members _) (by simp [lit])) this

theorem value_written {ms : List (List JChar × Json)} {t : Bytes} (h : Written true ms t) : Value (.object ms) (lit "{" ++ t ++ lit "}") := by
  generalize hb : true = b at h
  cases h with
  | nil => exact .emptyObject ws_nil
  | @cons _ k j ms s t n h1 h2 h3 =>
    subst hb
    exact .object (Eq.mp (congrArg (Members _) (by simp)) (members_written h1 h2 h3 [] ws_nil))

set_option linter.unusedSectionVars false

section
variable {h : Host} (hh : ∀ b, 128 ≤ b.toNat → h.high b = .ok false) {real : Bytes → Json → Prop}
  (hr : ∀ c j, real c j → ∃ s, h.real c = .ok s ∧ Value j s)
include hh hr

mutual
theorem show_type : ∀ (p : PTy), p.ty.WF → p.NamesOk → ∀ (o : Obj) (x : Val) (e : Bytes), p.ty.Rep o x e → p.Showable real x →
    ∃ s j, p.show h o = .ok (some s) ∧ p.Describes real x j ∧ Value j s
  | .leaf k values id, hw, hn, o, x, e, hx, hs => show_leaf hh hr hw hn hx hs
  | .seqOf id t, hw, hn, o, x, e, hx, hs => by
    obtain ⟨os, xs, es, rfl, rfl, rfl, hx⟩ := hx
    obtain ⟨ss, js, h1, h2, h3⟩ := items_shown (D := t.Describes real) (S := t.Showable real) (f := t.show h) (show_type t hw.2 hn) os xs es hx hs
    refine ⟨_, _, ?_, ⟨xs, js, rfl, rfl, h2⟩, value_joined h1⟩
    rw [PTy.show]
    dsimp only
    rw [h3]
    rfl
  | .seq id fs, hw, hn, o, x, e, hx, hs => by
    obtain ⟨os, xs, es, rfl, rfl, rfl, hx⟩ := hx
    obtain ⟨ms, h1, h2⟩ := show_fields fs hw.2 hn os xs es hx hs
    obtain ⟨t, h3, h4⟩ := h2 true
    refine ⟨_, _, ?_, ⟨xs, ms, rfl, rfl, h1⟩, value_written h3⟩
    rw [PTy.show]
    dsimp only
    rw [h4]
    rfl
  | .set id ext fs, hw, hn, o, x, e, hx, hs => by
    obtain ⟨os, xs, es, rfl, rfl, rfl, hx⟩ := hx
    obtain ⟨ms, h1, h2⟩ := show_fields fs hw.2 hn os xs es hx hs
    obtain ⟨t, h3, h4⟩ := h2 true
    refine ⟨_, _, ?_, ⟨xs, ms, rfl, rfl, h1⟩, value_written h3⟩
    rw [PTy.show]
    dsimp only
    rw [h4]
    rfl
  | .choice cid as, hw, hn, o, x, e, hx, hs => by
    obtain ⟨i, o', x', e', rfl, rfl, hx, rfl⟩ := hx
    have hw : as.alts.WF := by cases cid with | tagged id => exact hw.2.1 | untagged ids => exact hw.2.1
    obtain ⟨s, j, h1, h2, h3⟩ := show_alts as hw hn i o' x' e' hx hs
    exact ⟨s, j, by rw [PTy.show]; exact h1, ⟨i, x', rfl, h2⟩, h3⟩
theorem show_fields : ∀ (fs : PFields), fs.fields.WF → fs.NamesOk → ∀ (os : List Obj) (xs : List Val) (es : List Bytes), fs.fields.Rep os xs es →
    fs.Showable real xs → ∃ ms, fs.Describes real xs ms ∧ ∀ first, ∃ t, Written first ms t ∧ fs.show h first os = .ok (some t)
  | .nil, hw, hn, os, xs, es, hx, hs => by
    obtain ⟨rfl, rfl, rfl⟩ := hx
    exact ⟨[], ⟨rfl, rfl⟩, fun first => ⟨[], .nil, rfl⟩⟩
  | .cons name kind labels p rest, hw, hn, os, xs, es, hx, hs => by
    obtain ⟨o, os', x, xs', e, es', rfl, rfl, rfl, hx, hx'⟩ := hx
    obtain ⟨ms, i1, i2⟩ := show_fields rest hw.2.2 hn.2.2 os' xs' es' hx' hs.2
    have ih := show_type p hw.1 hn.2.1
    have key : ∃ s j, showMember (p.show h) kind o = .ok (some s) ∧ (match kind with
        | .mandatory => p.Describes real x j
        | .optional => (x = .absent ∧ j = .null) ∨ ∃ y, x = .present y ∧ p.Describes real y j
        | .default d => (x = .absent ∧ ∃ y e, p.ty.Rep d y e ∧ p.Describes real y j) ∨ ∃ y, x = .present y ∧ p.Describes real y j) ∧ Value j s := by
      cases kind with
      | mandatory => exact ih o x e hx hs.1
      | optional =>
        rcases hx with ⟨rfl, rfl, rfl⟩ | ⟨o', y, rfl, rfl, hx⟩
        · exact ⟨_, _, rfl, .inl ⟨rfl, rfl⟩, .null⟩
        · obtain ⟨s, j, h1, h2, h3⟩ := ih o' y e hx hs.1
          exact ⟨s, j, h1, .inr ⟨y, rfl, h2⟩, h3⟩
      | default d =>
        rcases hx with ⟨rfl, rfl, rfl⟩ | ⟨o', y, rfl, rfl, hx⟩
        · obtain ⟨y, e', hy, hsy⟩ : ∃ y e, p.ty.Rep d y e ∧ p.Showable real y := hs.1
          obtain ⟨s, j, h1, h2, h3⟩ := ih d y e' hy hsy
          exact ⟨s, j, h1, .inl ⟨rfl, y, e', hy, h2⟩, h3⟩
        · obtain ⟨s, j, h1, h2, h3⟩ := ih o' y e hx hs.1
          exact ⟨s, j, h1, .inr ⟨y, rfl, h2⟩, h3⟩
    obtain ⟨s, j, k1, k2, k3⟩ := key
    obtain ⟨t, j1, j2⟩ := i2 false
    refine ⟨(nameChars name, j) :: ms, ⟨x, xs', j, ms, rfl, rfl, k2, i1⟩, fun first => ⟨_, .cons (chars_name hn.1) k3 j1, ?_⟩⟩
    rw [PFields.show]
    dsimp only
    rw [k1, andThen, j2]
    rfl
theorem show_alts : ∀ (as : PAlts), as.alts.WF → as.NamesOk → ∀ (i : Nat) (o : Obj) (x : Val) (e : Bytes), as.alts.Rep i o x e → as.Showable real i x →
    ∃ s j, as.show h i o = .ok (some s) ∧ as.Describes real i x j ∧ Value j s
  | .nil, _, _, _, _, _, _, hx, _ => False.elim hx
  | .cons labels p rest, hw, hn, i, o, x, e, hx, hs => by
    cases i with
    | zero => exact show_type p hw.1 hn.1 o x e hx hs
    | succ i => exact show_alts rest hw.2 hn.2 i o x e hx hs
end
end

end FastBer.Show
