import Verif.Proofs.Show
/-! # Printing: no undefined behaviour, equal objects, telling values apart, names -/
namespace FastBer.Show
open FastBer FastBer.Spec FastBer.Ast FastBer.Json.Spec FastBer.Viewer FastBer.Viewer.Spec

/-! ## No undefined behaviour -/

theorem safe_andThen {α β : Type} {x : Exec (Option α)} {f : α → Exec (Option β)} (hx : x.Safe) (hf : ∀ a, (f a).Safe) : (andThen x f).Safe := by
  obtain ⟨a, rfl⟩ := hx
  cases a with
  | none => exact ⟨_, rfl⟩
  | some a => exact hf a

theorem safe_quiet {α : Type} {x : Exec α} (hx : x.Safe) : (quiet x).Safe := by
  obtain ⟨a, rfl⟩ := hx
  exact ⟨_, rfl⟩

theorem safe_leaf {h : Host} (hh : ∀ b, 128 ≤ b.toNat → (h.high b).Safe) (hr : ∀ c, (h.real c).Safe) {k : Leaf} {values : List (Int × Name)} {id : Ident}
    (hid : identOk id) {o : Obj} {x : Val} {e : Bytes} (hx : leafRep k id o x e) (hs : (Ty.leaf k id).Valid x) : (showLeaf h k values id o).Safe := by
  cases k with
  | int =>
    obtain ⟨c, d, rfl, rfl, hw, rfl⟩ := smallRep_iff.mp (show smallRep 8 id o x e from hx)
    exact safe_quiet (by rw [small_value hid hw]; exact ⟨_, rfl⟩)
  | enum =>
    obtain ⟨c, d, rfl, rfl, hw, rfl⟩ := smallRep_iff.mp (show smallRep 8 id o x e from hx)
    exact safe_quiet (by rw [Enumerated.value, small_value hid hw]; exact ⟨_, rfl⟩)
  | bool =>
    obtain ⟨p, rfl, rfl, rfl⟩ := hx
    exact ⟨_, rfl⟩
  | null =>
    obtain ⟨rfl, rfl, rfl⟩ := hx
    exact ⟨_, rfl⟩
  | str =>
    obtain ⟨c, b, rfl, rfl, hc⟩ := cont_content hx
    exact safe_quiet (showString_safe hh hc)
  | oid =>
    obtain ⟨c, b, rfl, rfl, hc⟩ := cont_content hx
    exact safe_quiet (by rw [Oid.value, hc]; exact ⟨_, rfl⟩)
  | real cmp =>
    obtain ⟨c, d, rfl, rfl, hw, rfl⟩ := smallRep_iff.mp (show smallRep 100 id o x e from hx)
    exact safe_quiet (by rw [hw.content hid (by omega)]; exact hr c)
  | time cmp =>
    obtain ⟨c, b, rfl, rfl, hc⟩ := cont_content hx
    have hl : 10 ≤ b.length ∧ b.length ≤ 23 := hs
    obtain ⟨f, hf⟩ := Props.format_ok hc (Props.content_length hc) (by have := Props.content_length hc; omega)
    show (Time.time h.time c).Safe
    rw [Time.time, hf, Exec.ok_bind, Time.string, hc, Exec.ok_bind]
    cases f <;> exact ⟨_, rfl⟩

theorem safe_items {R : Obj → Val → Bytes → Prop} {S : Val → Prop} {f : Obj → Exec (Option Bytes)}
    (hf : ∀ o x e, R o x e → S x → (f o).Safe) : ∀ (os : List Obj) (xs : List Val) (es : List Bytes), all3 R os xs es → (∀ y ∈ xs, S y) →
      ∀ first, (showItems f first os).Safe
  | [], [], [], _, _, _ => ⟨_, rfl⟩
  | o :: os, x :: xs, e :: es, ⟨h1, h2⟩, hs, first =>
    safe_andThen (hf o x e h1 (hs x (by simp))) fun s =>
      safe_andThen (safe_items hf os xs es h2 (fun y hy => hs y (by simp [hy])) false) fun t => ⟨_, rfl⟩
  | [], _ :: _, _, h, _, _ => by cases h
  | _ :: _, [], _, h, _, _ => by cases h
  | [], [], _ :: _, h, _, _ => by cases h
  | _ :: _, _ :: _, [], h, _, _ => by cases h

section
variable {h : Host} (hh : ∀ b, 128 ≤ b.toNat → (h.high b).Safe) (hr : ∀ c, (h.real c).Safe)
include hh hr

mutual
theorem safe_type : ∀ (p : PTy), p.ty.WF → p.DefaultsOk → ∀ (o : Obj) (x : Val) (e : Bytes), p.ty.Rep o x e → p.ty.Valid x → (p.show h o).Safe
  | .leaf k values id, hw, _, o, x, e, hx, hs => safe_leaf hh hr hw hx hs
  | .seqOf id t, hw, hd, o, x, e, hx, hs => by
    obtain ⟨os, xs, es, rfl, rfl, rfl, hx⟩ := hx
    exact safe_andThen (safe_items (S := t.ty.Valid) (safe_type t hw.2 hd) os xs es hx hs true) fun _ => ⟨_, rfl⟩
  | .seq id fs, hw, hd, o, x, e, hx, hs => by
    obtain ⟨os, xs, es, rfl, rfl, rfl, hx⟩ := hx
    exact safe_andThen (safe_fields fs hw.2 hd os xs es hx hs true) fun _ => ⟨_, rfl⟩
  | .set id ext fs, hw, hd, o, x, e, hx, hs => by
    obtain ⟨os, xs, es, rfl, rfl, rfl, hx⟩ := hx
    exact safe_andThen (safe_fields fs hw.2 hd os xs es hx hs true) fun _ => ⟨_, rfl⟩
  | .choice cid as, hw, hd, o, x, e, hx, hs => by
    obtain ⟨i, o', x', e', rfl, rfl, hx, rfl⟩ := hx
    have hw : as.alts.WF := by cases cid with | tagged id => exact hw.2.1 | untagged ids => exact hw.2.1
    exact safe_alts as hw hd i o' x' e' hx hs
theorem safe_fields : ∀ (fs : PFields), fs.fields.WF → fs.DefaultsOk → ∀ (os : List Obj) (xs : List Val) (es : List Bytes), fs.fields.Rep os xs es →
    fs.fields.Valid xs → ∀ first, (fs.show h first os).Safe
  | .nil, hw, hd, os, xs, es, hx, hs, first => by
    obtain ⟨rfl, rfl, rfl⟩ := hx
    exact ⟨_, rfl⟩
  | .cons name kind labels p rest, hw, hd, os, xs, es, hx, hs, first => by
    obtain ⟨o, os', x, xs', e, es', rfl, rfl, rfl, hx, hx'⟩ := hx
    have ih := safe_type p hw.1 hd.2.1
    have ihr := safe_fields rest hw.2.2 hd.2.2 os' xs' es' hx' hs.2 false
    refine safe_andThen ?_ fun s => safe_andThen ihr fun t => ⟨_, rfl⟩
    cases kind with
    | mandatory => exact ih o x e hx hs.1
    | optional =>
      rcases hx with ⟨rfl, rfl, rfl⟩ | ⟨o', y, rfl, rfl, hx⟩
      · exact ⟨_, rfl⟩
      · exact ih o' y e hx hs.1
    | default d =>
      rcases hx with ⟨rfl, rfl, rfl⟩ | ⟨o', y, rfl, rfl, hx⟩
      · obtain ⟨y, e', hy, hv⟩ := hd.1
        exact ih d y e' hy hv
      · exact ih o' y e hx hs.1
theorem safe_alts : ∀ (as : PAlts), as.alts.WF → as.DefaultsOk → ∀ (i : Nat) (o : Obj) (x : Val) (e : Bytes), as.alts.Rep i o x e → as.alts.Valid i x →
    (as.show h i o).Safe
  | .nil, _, _, _, _, _, _, hx, _ => False.elim hx
  | .cons labels p rest, hw, hd, i, o, x, e, hx, hs => by
    cases i with
    | zero => exact safe_type p hw.1 hd.1 o x e hx hs
    | succ i => exact safe_alts rest hw.2 hd.2 i o x e hx hs
end
end

/-! ## Equal objects -/

/-- Simple types whose text is not left to the outside. -/
def ownText : Leaf → Prop
  | .real _ => False
  | .time _ => False
  | _ => True

theorem equal_leaf {h : Host} {k : Leaf} {values : List (Int × Name)} {id : Ident} (hid : identOk id) (hk : ownText k) {a b : Obj} {x y : Val} {e f : Bytes}
    (ha : leafRep k id a x e) (hb : leafRep k id b y f) (hs : leafSame k x y) : showLeaf h k values id a = showLeaf h k values id b := by
  cases k with
  | int =>
    obtain ⟨c, d, rfl, rfl, hw, rfl⟩ := smallRep_iff.mp (show smallRep 8 id a x e from ha)
    obtain ⟨c', d', rfl, rfl, hw', rfl⟩ := smallRep_iff.mp (show smallRep 8 id b y f from hb)
    have hs : twosComplement c = twosComplement c' := hs
    simp only [showLeaf, small_value hid hw, small_value hid hw', hs]
  | enum =>
    obtain ⟨c, d, rfl, rfl, hw, rfl⟩ := smallRep_iff.mp (show smallRep 8 id a x e from ha)
    obtain ⟨c', d', rfl, rfl, hw', rfl⟩ := smallRep_iff.mp (show smallRep 8 id b y f from hb)
    have hs : (twosComplement c).bmod (2 ^ 32) = (twosComplement c').bmod (2 ^ 32) := hs
    simp only [showLeaf, Enumerated.value, small_value hid hw, small_value hid hw', Exec.ok_bind, hs]
  | bool =>
    obtain ⟨p, rfl, rfl, rfl⟩ := ha
    obtain ⟨q, rfl, rfl, rfl⟩ := hb
    have hs : ([p] = [0] ↔ [q] = [0]) := hs
    simp only [showLeaf, Boolean.value, getLastD_tagged]
    simp only [List.cons.injEq, and_true] at hs
    by_cases hp : p = 0
    · rw [hp, hs.1 hp]
    · rw [show (p != 0) = true by simpa using hp, show (q != 0) = true by simpa using fun hq => hp (hs.2 hq)]
  | null =>
    obtain ⟨rfl, rfl, rfl⟩ := ha
    obtain ⟨rfl, rfl, rfl⟩ := hb
    rfl
  | str =>
    obtain ⟨c, u, rfl, rfl, hc⟩ := cont_content ha
    obtain ⟨c', v, rfl, rfl, hc'⟩ := cont_content hb
    have hs : u = v := hs
    simp only [showLeaf, showString, hc, hc', hs]
  | oid =>
    obtain ⟨c, u, rfl, rfl, hc⟩ := cont_content ha
    obtain ⟨c', v, rfl, rfl, hc'⟩ := cont_content hb
    have hs : u = v := hs
    simp only [showLeaf, Oid.value, hc, hc', hs]
  | real cmp => cases hk
  | time cmp => cases hk

theorem equal_items {R : Obj → Val → Bytes → Prop} {S : Val → Val → Prop} {f : Obj → Exec (Option Bytes)}
    (hf : ∀ a b x y e e', R a x e → R b y e' → S x y → f a = f b) : ∀ (os : List Obj) (xs : List Val) (es : List Bytes) (os' : List Obj) (ys : List Val)
      (es' : List Bytes), all3 R os xs es → all3 R os' ys es' → all2 S xs ys → ∀ first, showItems f first os = showItems f first os'
  | os, [], es, os', [], es', h1, h2, h3, first => by
    match os, es, os', es', h1, h2 with
    | [], [], [], [], _, _ => rfl
  | os, x :: xs, es, os', y :: ys, es', h1, h2, h3, first => by
    match os, es, os', es', h1, h2 with
    | o :: os, e :: es, o' :: os', e' :: es', h1, h2 =>
      rw [showItems, showItems, hf o o' x y e e' h1.1 h2.1 h3.1, equal_items hf os xs es os' ys es' h1.2 h2.2 h3.2 false]
  | _, [], _, _, _ :: _, _, _, _, h3, _ => by cases h3
  | _, _ :: _, _, _, [], _, _, _, h3, _ => by cases h3

mutual
theorem equal_type (h : Host) : ∀ (p : PTy), p.ty.WF → p.ty.Leaves ownText → ∀ (a b : Obj) (x y : Val) (e f : Bytes), p.ty.Rep a x e → p.ty.Rep b y f →
    p.ty.Same x y → p.show h a = p.show h b
  | .leaf k values id, hw, hl, a, b, x, y, e, f, ha, hb, hs => equal_leaf hw hl ha hb hs
  | .seqOf id t, hw, hl, a, b, x, y, e, f, ha, hb, hs => by
    obtain ⟨os, xs, es, rfl, rfl, rfl, ha⟩ := ha
    obtain ⟨os', ys, es', rfl, rfl, rfl, hb⟩ := hb
    rw [PTy.show]
    dsimp only
    rw [equal_items (S := t.ty.Same) (equal_type h t hw.2 hl) os xs es os' ys es' ha hb hs true]
  | .seq id fs, hw, hl, a, b, x, y, e, f, ha, hb, hs => by
    obtain ⟨os, xs, es, rfl, rfl, rfl, ha⟩ := ha
    obtain ⟨os', ys, es', rfl, rfl, rfl, hb⟩ := hb
    rw [PTy.show]
    dsimp only
    rw [equal_fields h fs hw.2 hl os os' xs ys es es' ha hb hs true]
  | .set id ext fs, hw, hl, a, b, x, y, e, f, ha, hb, hs => by
    obtain ⟨os, xs, es, rfl, rfl, rfl, ha⟩ := ha
    obtain ⟨os', ys, es', rfl, rfl, rfl, hb⟩ := hb
    rw [PTy.show]
    dsimp only
    rw [equal_fields h fs hw.2 hl os os' xs ys es es' ha hb hs true]
  | .choice cid as, hw, hl, a, b, x, y, e, f, ha, hb, hs => by
    obtain ⟨i, o, x', e', rfl, rfl, ha, rfl⟩ := ha
    obtain ⟨j, o', y', f', rfl, rfl, hb, rfl⟩ := hb
    have hw : as.alts.WF := by cases cid with | tagged id => exact hw.2.1 | untagged ids => exact hw.2.1
    obtain ⟨rfl, hs⟩ : i = j ∧ as.alts.Same i x' y' := hs
    exact equal_alts h as hw hl i o o' x' y' e' f' ha hb hs
theorem equal_fields (h : Host) : ∀ (fs : PFields), fs.fields.WF → fs.fields.Leaves ownText → ∀ (os os' : List Obj) (xs ys : List Val) (es es' : List Bytes),
    fs.fields.Rep os xs es → fs.fields.Rep os' ys es' → fs.fields.Same xs ys → ∀ first, fs.show h first os = fs.show h first os'
  | .nil, hw, hl, os, os', xs, ys, es, es', ha, hb, hs, first => by
    obtain ⟨rfl, rfl, rfl⟩ := ha
    obtain ⟨rfl, rfl, rfl⟩ := hb
    rfl
  | .cons name kind labels p rest, hw, hl, os, os', xs, ys, es, es', ha, hb, hs, first => by
    obtain ⟨o, os, x, xs, e, es, rfl, rfl, rfl, ha, ha'⟩ := ha
    obtain ⟨o', os', y, ys, e', es', rfl, rfl, rfl, hb, hb'⟩ := hb
    have ih := equal_type h p hw.1 hl.1
    have ihr := equal_fields h rest hw.2.2 hl.2 os os' xs ys es es' ha' hb' hs.2 false
    have key : showMember (p.show h) kind o = showMember (p.show h) kind o' := by
      have hs := hs.1
      cases kind with
      | mandatory => exact ih o o' x y e e' ha hb hs
      | optional =>
        rcases ha with ⟨rfl, rfl, rfl⟩ | ⟨o1, x1, rfl, rfl, ha⟩ <;> rcases hb with ⟨rfl, rfl, rfl⟩ | ⟨o2, x2, rfl, rfl, hb⟩
        · rfl
        · exact False.elim hs
        · exact False.elim hs
        · exact ih o1 o2 x1 x2 e e' ha hb hs
      | default d =>
        obtain ⟨u, v, hu, hv, hsu⟩ := hs
        rcases ha with ⟨rfl, rfl, rfl⟩ | ⟨o1, x1, rfl, rfl, ha⟩ <;> rcases hb with ⟨rfl, rfl, rfl⟩ | ⟨o2, x2, rfl, rfl, hb⟩
        · rfl
        · obtain ⟨e1, hu⟩ := hu
          cases hv
          exact ih d o2 u _ e1 e' hu hb hsu
        · obtain ⟨e1, hv⟩ := hv
          cases hu
          exact ih o1 d _ v e e1 ha hv hsu
        · cases hu
          cases hv
          exact ih o1 o2 _ _ e e' ha hb hsu
    rw [PFields.show]
    dsimp only
    rw [key, ihr]
theorem equal_alts (h : Host) : ∀ (as : PAlts), as.alts.WF → as.alts.Leaves ownText → ∀ (i : Nat) (a b : Obj) (x y : Val) (e f : Bytes),
    as.alts.Rep i a x e → as.alts.Rep i b y f → as.alts.Same i x y → as.show h i a = as.show h i b
  | .nil, _, _, _, _, _, _, _, _, _, hx, _, _ => False.elim hx
  | .cons labels p rest, hw, hl, i, a, b, x, y, e, f, ha, hb, hs => by
    cases i with
    | zero => exact equal_type h p hw.1 hl.1 a b x y e f ha hb hs
    | succ i => exact equal_alts h rest hw.2 hl.2 i a b x y e f ha hb hs
end

/-! ## Telling values apart -/

theorem map_octet_inj {a b : Bytes} (h : str a = str b) : a = b := by
  have h : a.map JChar.octet = b.map JChar.octet := by cases h' : str a with | string s => rw [h'] at h; exact Json.string.inj h ▸ (Json.string.inj h') | _ => cases h'
  induction a generalizing b with
  | nil => cases b with | nil => rfl | cons _ _ => cases h
  | cons x a ih =>
    cases b with
    | nil => cases h
    | cons y b =>
      rw [List.map_cons, List.map_cons, List.cons.injEq] at h
      rw [JChar.octet.inj h.1, ih (congrArg Json.string h.2) h.2]

theorem nameChars_inj {m n : Name} (hm : NameOk m) (hn : NameOk n) (h : nameChars m = nameChars n) : m = n := by
  have key : ∀ (a b : List Char), (∀ c ∈ a, c.toNat < 256) → (∀ c ∈ b, c.toNat < 256) →
      (a.map fun c => JChar.octet (UInt8.ofNat c.toNat)) = (b.map fun c => JChar.octet (UInt8.ofNat c.toNat)) → a = b := by
    intro a
    induction a with
    | nil => intro b _ _ h; cases b with | nil => rfl | cons _ _ => cases h
    | cons x a ih =>
      intro b ha hb h
      cases b with
      | nil => cases h
      | cons y b =>
        rw [List.map_cons, List.map_cons, List.cons.injEq] at h
        have e : x.toNat = y.toNat := by
          have := congrArg UInt8.toNat (JChar.octet.inj h.1)
          have h1 := ha x (by simp)
          have h2 := hb y (by simp)
          rw [UInt8.toNat_ofNat', UInt8.toNat_ofNat'] at this
          omega
        have e : x = y := Char.ext (UInt32.toNat_inj.1 e)
        rw [e, ih b (fun c hc => ha c (by simp [hc])) (fun c hc => hb c (by simp [hc])) h.2]
  have small : ∀ {n : Name}, NameOk n → ∀ c ∈ n.toList, c.toNat < 256 := fun h c hc => by have := h c hc; omega
  exact String.toList_inj.1 (key _ _ (small hm) (small hn) h)

theorem number_unique {l : List (Int × Name)} (hn : (l.map (·.2)).Nodup) {a b : Int} {n : Name} (ha : (a, n) ∈ l) (hb : (b, n) ∈ l) : a = b := by
  induction l with
  | nil => cases ha
  | cons p l ih =>
    rw [List.map_cons, List.nodup_cons] at hn
    rcases List.mem_cons.1 ha with ha | ha <;> rcases List.mem_cons.1 hb with hb | hb
    · rw [← ha] at hb; cases hb; rfl
    · exact absurd (List.mem_map.2 ⟨_, hb, by rw [← ha]⟩) hn.1
    · exact absurd (List.mem_map.2 ⟨_, ha, by rw [← hb]⟩) hn.1
    · exact ih hn.2 ha hb

theorem tell_leaf {real : Bytes → Json → Prop} {k : Leaf} {values : List (Int × Name)} {id : Ident} (ht : (PTy.leaf k values id).Telling)
    (hn : (PTy.leaf k values id).NamesOk) {x y : Val} {j : Json} (hx : (PTy.leaf k values id).Describes real x j) (hy : (PTy.leaf k values id).Describes real y j)
    (tx : (PTy.leaf k values id).TextOk x) (ty : (PTy.leaf k values id).TextOk y) : leafSame k x y := by
  obtain ⟨c, rfl, hx⟩ := hx
  obtain ⟨d, rfl, hy⟩ := hy
  cases k with
  | int => cases hx; exact Json.int.inj hy
  | enum =>
    obtain ⟨n, h1, rfl⟩ := hx
    obtain ⟨m, h2, h3⟩ := hy
    have e := nameChars_inj (hn.1 _ h1).1 (hn.1 _ h2).1 (Json.string.inj h3)
    cases e
    show (twosComplement c).bmod (2 ^ 32) = (twosComplement d).bmod (2 ^ 32)
    rw [number_unique hn.2.2 h1 h2]
  | bool =>
    cases hx
    have := Json.bool.inj hy
    show c = [0] ↔ d = [0]
    simpa using this
  | null => trivial
  | str =>
    have tx : Printable c := tx
    have ty : Printable d := ty
    cases hx
    have hy : describeText c = describeText d := hy
    rw [describeText, describeText, if_pos tx, if_pos ty] at hy
    exact map_octet_inj hy
  | oid => cases ht
  | real _ => cases ht
  | time _ => cases ht

theorem not_null {real : Bytes → Json → Prop} {p : PTy} (ht : p.Telling) (hk : ∀ v i, p ≠ .leaf .null v i) {x : Val} : ¬ p.Describes real x .null := by
  intro hx
  cases p with
  | leaf k values id =>
    obtain ⟨c, rfl, hx⟩ := hx
    cases k with
    | int => cases hx
    | enum => obtain ⟨n, _, h⟩ := hx; cases h
    | bool => cases hx
    | null => exact hk _ _ rfl
    | str =>
      have hx : Json.null = describeText c := hx
      rw [describeText] at hx
      split at hx <;> cases hx
    | oid => cases ht
    | real _ => cases ht
    | time _ => cases ht
  | seqOf id t => obtain ⟨_, _, _, h, _⟩ := hx; cases h
  | seq id fs => obtain ⟨_, _, _, h, _⟩ := hx; cases h
  | set id ext fs => obtain ⟨_, _, _, h, _⟩ := hx; cases h
  | choice cid as => cases ht

theorem tell_items {D : Val → Json → Prop} {S : Val → Val → Prop} {T : Val → Prop}
    (hf : ∀ x y j, D x j → D y j → T x → T y → S x y) : ∀ (xs ys : List Val) (js : List Json), all2 D xs js → all2 D ys js → (∀ x ∈ xs, T x) →
      (∀ y ∈ ys, T y) → all2 S xs ys
  | [], [], [], _, _, _, _ => trivial
  | x :: xs, y :: ys, j :: js, h1, h2, t1, t2 => ⟨hf x y j h1.1 h2.1 (t1 x (by simp)) (t2 y (by simp)),
      tell_items hf xs ys js h1.2 h2.2 (fun z hz => t1 z (by simp [hz])) (fun z hz => t2 z (by simp [hz]))⟩
  | [], _ :: _, [], _, h2, _, _ => by cases h2
  | _ :: _, _, [], h1, _, _, _ => by cases h1
  | [], _, _ :: _, h1, _, _, _ => by cases h1
  | _ :: _, [], _ :: _, _, h2, _, _ => by cases h2

mutual
theorem tell_type {real : Bytes → Json → Prop} : ∀ (p : PTy), p.ty.WF → p.Telling → p.NamesOk → ∀ (x y : Val) (j : Json), p.Describes real x j →
    p.Describes real y j → p.TextOk x → p.TextOk y → p.ty.Same x y
  | .leaf k values id, _, ht, hn, x, y, j, hx, hy, tx, ty => tell_leaf ht hn hx hy tx ty
  | .seqOf id t, hw, ht, hn, x, y, j, hx, hy, tx, ty => by
    obtain ⟨xs, js, rfl, rfl, hx⟩ := hx
    obtain ⟨ys, js', rfl, e, hy⟩ := hy
    cases e
    exact tell_items (D := t.Describes real) (T := t.TextOk) (tell_type t hw.2 ht hn) xs ys js hx hy tx ty
  | .seq id fs, hw, ht, hn, x, y, j, hx, hy, tx, ty => by
    obtain ⟨xs, js, rfl, rfl, hx⟩ := hx
    obtain ⟨ys, js', rfl, e, hy⟩ := hy
    cases e
    exact tell_fields fs hw.2 ht hn xs ys js hx hy tx ty
  | .set id ext fs, hw, ht, hn, x, y, j, hx, hy, tx, ty => by
    obtain ⟨xs, js, rfl, rfl, hx⟩ := hx
    obtain ⟨ys, js', rfl, e, hy⟩ := hy
    cases e
    exact tell_fields fs hw.2 ht hn xs ys js hx hy tx ty
  | .choice cid as, _, ht, _, _, _, _, _, _, _, _ => False.elim ht
theorem tell_fields {real : Bytes → Json → Prop} : ∀ (fs : PFields), fs.fields.WF → fs.Telling → fs.NamesOk → ∀ (xs ys : List Val) (ms : List (List JChar × Json)),
    fs.Describes real xs ms → fs.Describes real ys ms → fs.TextOk xs → fs.TextOk ys → fs.fields.Same xs ys
  | .nil, _, _, _, xs, ys, ms, hx, hy, _, _ => ⟨hx.1, hy.1⟩
  | .cons name kind labels p rest, hw, ht, hn, xs, ys, ms, hx, hy, tx, ty => by
    obtain ⟨x, xs, j, ms, rfl, rfl, hx, hx'⟩ := hx
    obtain ⟨y, ys, j', ms', rfl, e, hy, hy'⟩ := hy
    rw [List.cons.injEq, Prod.mk.injEq] at e
    obtain ⟨⟨_, rfl⟩, rfl⟩ := e
    refine ⟨?_, tell_fields rest hw.2.2 ht.2.2 hn.2.2 xs ys ms hx' hy' tx.2 ty.2⟩
    have ih := tell_type (real := real) p hw.1 ht.2.1 hn.2.1
    have tx := tx.1
    have ty := ty.1
    have hk := ht.1
    have hd := hw.2.1
    have huniq := Ty.encLaws p.ty hw.1
    cases kind with
    | mandatory => exact ih x y j hx hy tx ty
    | optional =>
      have hk : ∀ v i, p ≠ .leaf .null v i := fun v i e => by subst e; exact hk
      rcases hx with ⟨rfl, rfl⟩ | ⟨u, rfl, hx⟩ <;> rcases hy with ⟨rfl, e⟩ | ⟨v, rfl, hy⟩
      · trivial
      · exact absurd hy (not_null ht.2.1 hk)
      · subst e; exact absurd hx (not_null ht.2.1 hk)
      · exact ih u v j hx hy tx ty
    | default d =>
      have key : ∀ {x : Val}, ((x = .absent ∧ ∃ y e, p.ty.Rep d y e ∧ p.Describes real y j) ∨ ∃ y, x = .present y ∧ p.Describes real y j) →
          (match Kind.default d, x with
            | .mandatory, x => p.TextOk x
            | _, .present y => p.TextOk y
            | .default d, .absent => ∃ y e, p.ty.Rep d y e ∧ p.TextOk y
            | _, _ => True) → ∃ a, defaultOr p.ty.Rep d x a ∧ p.Describes real a j ∧ p.TextOk a := by
        intro x hx tx
        rcases hx with ⟨rfl, u, e, hr, hu⟩ | ⟨u, rfl, hu⟩
        · obtain ⟨u', e', hr', hu'⟩ := tx
          obtain ⟨rfl, _⟩ := huniq.unique hr hr'
          exact ⟨u, ⟨e, hr⟩, hu, hu'⟩
        · exact ⟨u, rfl, hu, tx⟩
      obtain ⟨a, a1, a2, a3⟩ := key hx tx
      obtain ⟨b, b1, b2, b3⟩ := key hy ty
      exact ⟨a, b, a1, b1, ih a b j a2 b2 a3 b3⟩
end

/-! ## Names -/

set_option linter.unusedVariables false

theorem PTy.Of.of_core {tree : Tree} {p : PTy} {mod mod' : Module} {t t' : AType} (h : p.Of tree mod t)
    (hc : ∀ wm u, Ast.Spec.Core tree mod t wm u → Ast.Spec.Core tree mod' t' wm u) : p.Of tree mod' t' := by
  cases p with
  | leaf k v i => obtain ⟨wm, k, h1⟩ := h; exact ⟨wm, k, hc _ _ h1⟩
  | seqOf i q => obtain ⟨wm, n, u, s, h1, h2⟩ := h; exact ⟨wm, n, u, s, h1.imp (hc _ _) (hc _ _), h2⟩
  | seq i fs => obtain ⟨wm, cs, e, h1, h2⟩ := h; exact ⟨wm, cs, e, hc _ _ h1, h2⟩
  | set i e fs => obtain ⟨wm, cs, e, h1, h2⟩ := h; exact ⟨wm, cs, e, hc _ _ h1, h2⟩
  | choice i as => obtain ⟨wm, as', s, h1, h2⟩ := h; exact ⟨wm, as', s, hc _ _ h1, h2⟩

/-- Automatic tags do not change what a type is. -/
theorem autoTags_core {tree : Tree} (mod : Module) (ts : List AType) : (Ast.Spec.autoTags mod ts).length = ts.length ∧
    ∀ (i : Nat) t t', (Ast.Spec.autoTags mod ts)[i]? = some t' → ts[i]? = some t → ∀ wm u, Ast.Spec.Core tree mod t' wm u → Ast.Spec.Core tree mod t wm u := by
  rw [Ast.Spec.autoTags]
  split
  · refine ⟨by simp, fun i t t' h1 h2 wm u hc => ?_⟩
    rw [List.getElem?_mapIdx, h2] at h1
    cases h1
    cases hc with
    | here h => cases h
    | prefixed h => exact h
  · exact ⟨rfl, fun i t t' h1 h2 wm u hc => by rw [h1] at h2; cases h2; exact hc⟩

/-- Components and what automatic tagging makes of them. -/
inductive Lined (tree : Tree) (mod : Module) : List AType → List AType → Prop
  | nil : Lined tree mod [] []
  | cons {s c ss cs} : (∀ wm u, Ast.Spec.Core tree mod s wm u → Ast.Spec.Core tree mod c wm u) → Lined tree mod ss cs → Lined tree mod (s :: ss) (c :: cs)

theorem lined_of {tree : Tree} {mod : Module} : ∀ (ss cs : List AType), ss.length = cs.length →
    (∀ (i : Nat) t t', ss[i]? = some t' → cs[i]? = some t → ∀ wm u, Ast.Spec.Core tree mod t' wm u → Ast.Spec.Core tree mod t wm u) → Lined tree mod ss cs
  | [], [], _, _ => .nil
  | s :: ss, c :: cs, hl, h => .cons (h 0 c s rfl rfl) (lined_of ss cs (by simpa using hl) fun i t t' h1 h2 => h (i + 1) t t' (by simpa using h1) (by simpa using h2))
  | [], _ :: _, hl, _ => by simp at hl
  | _ :: _, [], hl, _ => by simp at hl

theorem lined_auto {tree : Tree} (mod : Module) (ts : List AType) : Lined tree mod (Ast.Spec.autoTags mod ts) ts :=
  lined_of _ _ (autoTags_core (tree := tree) mod ts).1 (autoTags_core mod ts).2

theorem slots_types (mod : Module) (cs : List Ast.Comp) : (Ast.Spec.slots mod cs).map (·.type) = Ast.Spec.autoTags mod (cs.map Ast.Comp.type) := by
  have key : ∀ (cs : List Ast.Comp) (ts : List AType), ts.length = cs.length →
      (cs.zipWith (fun c t => (⟨c.optional || c.default.isSome, t⟩ : Ast.Spec.Slot)) ts).map (·.type) = ts := by
    intro cs
    induction cs with
    | nil => intro ts h; cases ts with | nil => rfl | cons _ _ => simp at h
    | cons c cs ih =>
      intro ts h
      cases ts with
      | nil => simp at h
      | cons t ts => simp only [List.zipWith_cons_cons, List.map_cons]; rw [ih ts (by simpa using h)]
  exact key cs _ (by rw [(autoTags_core (tree := ⟨[]⟩) mod _).1, List.length_map])

theorem slots_absent (mod : Module) (cs : List Ast.Comp) : (Ast.Spec.slots mod cs).map (·.mayBeAbsent) = cs.map (fun c => c.optional || c.default.isSome) := by
  have key : ∀ (cs : List Ast.Comp) (ts : List AType), ts.length = cs.length →
      (cs.zipWith (fun c t => (⟨c.optional || c.default.isSome, t⟩ : Ast.Spec.Slot)) ts).map (·.mayBeAbsent) = cs.map (fun c => c.optional || c.default.isSome) := by
    intro cs
    induction cs with
    | nil => intro ts h; cases ts with | nil => rfl | cons _ _ => simp at h
    | cons c cs ih =>
      intro ts h
      cases ts with
      | nil => simp at h
      | cons t ts => simp only [List.zipWith_cons_cons, List.map_cons]; rw [ih ts (by simpa using h)]
  exact key cs _ (by rw [(autoTags_core (tree := ⟨[]⟩) mod _).1, List.length_map])

mutual
/-- For every generated type there are the names. -/
theorem named_type {lib : Lib} {tree : Tree} : ∀ (T : Ty) (mod : Module) (t : AType), T.Body noHoles lib tree mod t → ∃ p : PTy, p.ty = T ∧ p.Of tree mod t
  | .leaf l id, mod, t, h => by
    obtain ⟨wm, k, hc, _⟩ := h
    exact ⟨.leaf l [] id, rfl, wm, k, hc⟩
  | .seqOf id T, mod, t, h => by
    obtain ⟨wm, n, u, s, hc, hb⟩ := h
    obtain ⟨q, hq, ho⟩ := named_type T wm u (hb.elim (·.1) False.elim)
    exact ⟨.seqOf id q, by rw [PTy.ty, hq], wm, n, u, s, hc, ho⟩
  | .seq id fs, mod, t, h => by
    obtain ⟨wm, cs, e, hc, hb⟩ := h
    obtain ⟨q, hq, ho⟩ := named_fields fs false wm _ cs hb (by rw [slots_types]; exact lined_auto wm _)
    exact ⟨.seq id q, by rw [PTy.ty, hq], wm, cs, e, hc, ho⟩
  | .set id ext fs, mod, t, h => by
    obtain ⟨wm, cs, hc, hb⟩ := h
    obtain ⟨q, hq, ho⟩ := named_fields fs true wm _ cs hb (by rw [slots_types]; exact lined_auto wm _)
    exact ⟨.set id ext q, by rw [PTy.ty, hq], wm, cs, ext, hc, ho⟩
  | .choice cid as, mod, t, h => by
    obtain ⟨wm, as', s, hc, hb, _⟩ := h
    obtain ⟨q, hq, ho⟩ := named_alts as wm _ as' hb (lined_auto wm _)
    exact ⟨.choice cid q, by rw [PTy.ty, hq], wm, as', s, hc, ho⟩
theorem named_fields {lib : Lib} {tree : Tree} : ∀ (fs : Fields) (all : Bool) (mod : Module) (ss : List Ast.Spec.Slot) (cs : List Ast.Comp),
    fs.Body noHoles lib tree all mod ss → Lined tree mod (ss.map (·.type)) (cs.map Ast.Comp.type) → ∃ p : PFields, p.fields = fs ∧ p.Of tree mod cs
  | .nil, all, mod, ss, cs, hb, hl => by
    cases hb
    cases cs with
    | nil => exact ⟨.nil, rfl, rfl⟩
    | cons c cs => cases hl
  | .cons k ls T rest, all, mod, ss, cs, hb, hl => by
    obtain ⟨s, ss', rfl, _, _, h12, h3⟩ := hb
    cases cs with
    | nil => cases hl
    | cons c cs =>
      cases hl with
      | cons h1 h2 =>
        obtain ⟨q, hq, ho⟩ := named_type T mod s.type (h12.elim (·.1) False.elim)
        obtain ⟨qs, hqs, hos⟩ := named_fields rest all mod ss' cs h3 h2
        exact ⟨.cons c.name k ls q qs, by rw [PFields.fields, hq, hqs], c, cs, rfl, rfl, ho.of_core h1, hos⟩
theorem named_alts {lib : Lib} {tree : Tree} : ∀ (as : Alts) (mod : Module) (ts : List AType) (ns : List Named),
    as.Body noHoles lib tree mod ts → Lined tree mod ts (ns.map Named.type) → ∃ p : PAlts, p.alts = as ∧ p.Of tree mod ns
  | .nil, mod, ts, ns, hb, hl => by
    cases hb
    cases ns with
    | nil => exact ⟨.nil, rfl, rfl⟩
    | cons c cs => cases hl
  | .cons ls T rest, mod, ts, ns, hb, hl => by
    obtain ⟨t, ts', rfl, _, h12, h3⟩ := hb
    cases ns with
    | nil => cases hl
    | cons c cs =>
      cases hl with
      | cons h1 h2 =>
        obtain ⟨q, hq, ho⟩ := named_type T mod t (h12.elim (·.1) False.elim)
        obtain ⟨qs, hqs, hos⟩ := named_alts rest mod ts' cs h3 h2
        exact ⟨.cons ls q qs, by rw [PAlts.alts, hq, hqs], c, cs, rfl, ho.of_core h1, hos⟩
end

/-! ## Descriptions of values of ASN.1 types -/

theorem tells_leaf {real : Bytes → Json → Prop} {lib : Lib} {k : Builtin} {l : Leaf} (hl : LeafFor lib k l) {values : List (Int × Name)} {c : Bytes} {j : Json}
    (h : leafDescribes real l values c j) : tellsLeaf real k c j := by
  rcases hl with hl | ⟨rfl, rfl⟩
  · cases k <;> cases hl <;> first | exact h | exact False.elim h
  · obtain ⟨n, _, rfl⟩ := h
    exact ⟨n, rfl⟩

theorem Tells.of_core {real : Bytes → Json → Prop} {tree : Tree} {mod mod' : Module} {t t' : AType} {x : Val} {j : Json} (h : Tells real tree mod t x j)
    (hc : ∀ wm u, Ast.Spec.Core tree mod t wm u → Ast.Spec.Core tree mod' t' wm u) : Tells real tree mod' t' x j := by
  cases h with
  | leaf h1 h2 => exact .leaf (hc _ _ h1) h2
  | list h1 h2 => exact .list (h1.imp (hc _ _) (hc _ _)) h2
  | sequence h1 h2 => exact .sequence (hc _ _ h1) h2
  | set h1 h2 => exact .set (hc _ _ h1) h2
  | choice h1 h2 h3 => exact .choice (hc _ _ h1) h2 h3

theorem tells_all {real : Bytes → Json → Prop} {tree : Tree} {mod : Module} {t : AType} {D : Val → Json → Prop}
    (hD : ∀ x j, D x j → Tells real tree mod t x j) : ∀ (xs : List Val) (js : List Json), all2 D xs js → TellsAll real tree mod t xs js
  | [], [], _ => .nil
  | x :: xs, j :: js, h => .cons (hD x j h.1) (tells_all hD xs js h.2)
  | [], _ :: _, h => by cases h
  | _ :: _, [], h => by cases h

mutual
theorem tells_type {real : Bytes → Json → Prop} {lib : Lib} {tree : Tree} : ∀ (p : PTy) (mod : Module) (t : AType), p.ty.Body noHoles lib tree mod t →
    p.Of tree mod t → ∀ (x : Val) (j : Json), p.Describes real x j → Tells real tree mod t x j
  | .leaf l values id, mod, t, hb, ho, x, j, hd => by
    obtain ⟨wm, k, hc, hl⟩ := hb
    obtain ⟨c, rfl, hd⟩ := hd
    exact .leaf hc (tells_leaf hl hd)
  | .seqOf id q, mod, t, hb, ho, x, j, hd => by
    obtain ⟨wm, n, u, s, hc, hb⟩ := hb
    obtain ⟨wm', n', u', s', hc', ho⟩ := ho
    obtain ⟨xs, js, rfl, rfl, hd⟩ := hd
    have e : wm = wm' ∧ u = u' := by
      rcases hc with hc | hc <;> rcases hc' with hc' | hc' <;> · obtain ⟨rfl, e⟩ := hc.unique hc'; cases e <;> exact ⟨rfl, rfl⟩
    obtain ⟨rfl, rfl⟩ := e
    exact .list hc (tells_all (tells_type q wm u (hb.elim (·.1) False.elim) ho) xs js hd)
  | .seq id fs, mod, t, hb, ho, x, j, hd => by
    obtain ⟨wm, cs, e, hc, hb⟩ := hb
    obtain ⟨wm', cs', e', hc', ho⟩ := ho
    obtain ⟨xs, ms, rfl, rfl, hd⟩ := hd
    obtain ⟨rfl, e⟩ := hc.unique hc'
    cases e
    exact .sequence hc (tells_fields fs false wm _ cs hb (by rw [slots_types]; exact lined_auto wm _) (slots_absent wm cs) ho xs ms hd)
  | .set id ext fs, mod, t, hb, ho, x, j, hd => by
    obtain ⟨wm, cs, hc, hb⟩ := hb
    obtain ⟨wm', cs', e', hc', ho⟩ := ho
    obtain ⟨xs, ms, rfl, rfl, hd⟩ := hd
    obtain ⟨rfl, e⟩ := hc.unique hc'
    cases e
    exact .set hc (tells_fields fs true wm _ cs hb (by rw [slots_types]; exact lined_auto wm _) (slots_absent wm cs) ho xs ms hd)
  | .choice cid as, mod, t, hb, ho, x, j, hd => by
    obtain ⟨wm, as', s, hc, hb, _⟩ := hb
    obtain ⟨wm', as'', s', hc', ho⟩ := ho
    obtain ⟨i, y, rfl, hd⟩ := hd
    obtain ⟨rfl, e⟩ := hc.unique hc'
    cases e
    obtain ⟨a, h1, h2⟩ := tells_alts as wm _ as' hb (lined_auto wm _) ho i y j hd
    exact .choice hc h1 h2
theorem tells_fields {real : Bytes → Json → Prop} {lib : Lib} {tree : Tree} : ∀ (p : PFields) (all : Bool) (mod : Module) (ss : List Ast.Spec.Slot)
    (cs : List Ast.Comp), p.fields.Body noHoles lib tree all mod ss → Lined tree mod (ss.map (·.type)) (cs.map Ast.Comp.type) →
    ss.map (·.mayBeAbsent) = cs.map (fun c => c.optional || c.default.isSome) → p.Of tree mod cs →
    ∀ (xs : List Val) (ms : List (List JChar × Json)), p.Describes real xs ms → TellsMembers real tree mod cs xs ms
  | .nil, all, mod, ss, cs, hb, hl, ha, ho, xs, ms, hd => by
    cases ho
    obtain ⟨rfl, rfl⟩ := hd
    exact .nil
  | .cons name k ls q rest, all, mod, ss, cs, hb, hl, ha, ho, xs, ms, hd => by
    obtain ⟨s, ss', rfl, hk, _, h12, h3⟩ := hb
    obtain ⟨c, cs, rfl, rfl, ho, ho'⟩ := ho
    obtain ⟨x, xs, j, ms, rfl, rfl, hd, hd'⟩ := hd
    rw [List.map_cons, List.map_cons, List.cons.injEq] at ha
    cases hl with
    | cons h1 h2 =>
      have ih := tells_fields rest all mod ss' cs h3 h2 ha.2 ho' xs ms hd'
      have hq : ∀ x j, q.Describes real x j → Tells real tree mod c.type x j := fun x j h => by
        obtain ⟨hb, _⟩ | hb := h12
        · exact tells_type q mod c.type (hb.of_core h1) ho x j h
        · cases hb
      cases k with
      | mandatory =>
        have hk : s.mayBeAbsent = false := hk
        exact .mandatory (by rw [← ha.1]; exact hk) (hq x j hd) ih
      | optional =>
        have hk : s.mayBeAbsent = true := hk
        rcases hd with ⟨rfl, rfl⟩ | ⟨y, rfl, hd⟩
        · exact .absent (by rw [← ha.1]; exact hk) ih
        · exact .present (by rw [← ha.1]; exact hk) (hq y j hd) ih
      | default d =>
        have hk : s.mayBeAbsent = true := hk.1
        rcases hd with ⟨rfl, y, e, _, hd⟩ | ⟨y, rfl, hd⟩
        · exact .default (by rw [← ha.1]; exact hk) (hq y j hd) ih
        · exact .present (by rw [← ha.1]; exact hk) (hq y j hd) ih
theorem tells_alts {real : Bytes → Json → Prop} {lib : Lib} {tree : Tree} : ∀ (p : PAlts) (mod : Module) (ts : List AType) (ns : List Named),
    p.alts.Body noHoles lib tree mod ts → Lined tree mod ts (ns.map Named.type) → p.Of tree mod ns → ∀ (i : Nat) (x : Val) (j : Json),
    p.Describes real i x j → ∃ a, ns[i]? = some a ∧ Tells real tree mod a.type x j
  | .nil, _, _, _, _, _, _, _, _, _, hd => False.elim hd
  | .cons ls q rest, mod, ts, ns, hb, hl, ho, i, x, j, hd => by
    obtain ⟨t, ts', rfl, _, h12, h3⟩ := hb
    obtain ⟨a, ns, rfl, ho, ho'⟩ := ho
    cases hl with
    | cons h1 h2 =>
      cases i with
      | zero =>
        obtain ⟨hb, _⟩ | hb := h12
        · exact ⟨a, rfl, tells_type q mod a.type (hb.of_core h1) ho x j hd⟩
        · cases hb
      | succ i => exact tells_alts rest mod ts' ns h3 h2 ho' i x j hd
end

end FastBer.Show
