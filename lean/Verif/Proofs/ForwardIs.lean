import Verif.Proofs.ForwardCpp
/-!
# C++ types with references that implement ASN.1 types

As `Ty.Is` (Proofs/Impl), one named type at a time: a reference implements a type if the assignment it refers to does.
-/
namespace FastBer.Ast.Fwd
open Spec

/-- The identifiers `outer_identifiers` gives. -/
def Outer (tree : Tree) (mod : Module) (t : AType) (ls : List Id) : Prop := ∃ f ids, outerIds tree f mod t = .ok ids ∧ ls = ids.map TagId.id

/-- The key is that of a type assignment. -/
def Assigns (tree : Tree) (k : Key) (wm : Module) (u : AType) : Prop := ∃ md, target tree md (some k.mod) k.ref = some (wm, u)

/-- Kind of a component; see `kindFor`. -/
def kindOf (lib : Lib) (T : RTy Key) (s : Slot) : Kind → Prop
  | .mandatory => s.mayBeAbsent = false
  | .optional => s.mayBeAbsent = true
  | .default d => s.mayBeAbsent = true ∧ ∃ T' v, closed? T = some T' ∧ lib.default T' v = some d

end FastBer.Ast.Fwd

namespace FastBer
open FastBer.Ast FastBer.Ast.Spec FastBer.Ast.Fwd

/-- The tags a C++ type writes itself. -/
def RTy.Own (tree : Tree) : RTy Key → List Spec.Tag → Prop
  | .leaf _ id => fun ts => id.list = ts.map idOf
  | .seqOf id _ => fun ts => id.list = ts.map idOf
  | .seq id _ => fun ts => id.list = ts.map idOf
  | .set id _ _ => fun ts => id.list = ts.map idOf
  | .choice (.tagged id) _ => fun ts => id.list = ts.map idOf
  | .choice (.untagged _) _ => fun ts => ts = []
  | .ref k => fun ts =>
    match k.id with
    | none => ∃ wm u, Assigns tree k wm u ∧ OwnTags tree wm u ts ∧ ¬ Lost tree wm u
    | some id => id.list = ts

/-- The C++ type has the tags of the ASN.1 type. -/
def RTy.Head (tree : Tree) (T : RTy Key) (mod : Module) (t : AType) : Prop := ∃ ts, OwnTags tree mod t ts ∧ T.Own tree ts

mutual
/-- The C++ type has the structure of the ASN.1 type, its own tags aside. -/
def RTy.Body (lib : Lib) (tree : Tree) : RTy Key → Module → AType → Prop
  | .leaf l _ => fun mod t => ∃ wm k, Core tree mod t wm (.leaf k) ∧ LeafFor lib k l
  | .seqOf _ T => fun mod t => ∃ wm n u s, (Core tree mod t wm (.seqOf n u s) ∨ Core tree mod t wm (.setOf n u s)) ∧ T.Body lib tree wm u ∧ T.Head tree wm u
  | .seq _ fs => fun mod t => ∃ wm cs e, Core tree mod t wm (.sequence cs e) ∧ fs.Body lib tree false wm (slots wm cs)
  | .set _ ext fs => fun mod t => ∃ wm cs, Core tree mod t wm (.set cs ext) ∧ fs.Body lib tree true wm (slots wm cs)
  | .choice cid as => fun mod t => ∃ wm as' s, Core tree mod t wm (.choice as' s) ∧ as.Body lib tree wm (choices wm as') ∧
      match cid with
      | .untagged ids => Outer tree wm (.choice as' s) ids
      | .tagged _ => True
  | .ref k => fun mod t => ∃ wm u w c, Assigns tree k wm u ∧ Core tree wm u w c ∧ Core tree mod t w c ∧ isStruct c = true ∧
      ∀ id, k.id = some id → id.list ≠ []
/-- Components. -/
def RFields.Body (lib : Lib) (tree : Tree) (all : Bool) : RFields Key → Module → List Slot → Prop
  | .nil => fun _ ss => ss = []
  | .cons k ls T rest => fun mod ss => ∃ s ss', ss = s :: ss' ∧ kindOf lib T s k ∧ (all = true ∨ s.mayBeAbsent = true → Outer tree mod s.type ls) ∧
      T.Body lib tree mod s.type ∧ T.Head tree mod s.type ∧ rest.Body lib tree all mod ss'
/-- Alternatives. -/
def RAlts.Body (lib : Lib) (tree : Tree) : RAlts Key → Module → List AType → Prop
  | .nil => fun _ ts => ts = []
  | .cons ls T rest => fun mod ts => ∃ t ts', ts = t :: ts' ∧ Outer tree mod t ls ∧ T.Body lib tree mod t ∧ T.Head tree mod t ∧ rest.Body lib tree mod ts'
end

/-- The C++ type implements the ASN.1 type. -/
def RTy.Is (lib : Lib) (tree : Tree) (T : RTy Key) (mod : Module) (t : AType) : Prop := T.Body lib tree mod t ∧ T.Head tree mod t

/-- The structure depends on the core only. -/
theorem RTy.Body.of_core {lib : Lib} {tree : Tree} {T : RTy Key} {mod mod' : Module} {t t' : AType} (h : T.Body lib tree mod t)
    (hc : ∀ wm u, Core tree mod t wm u → Core tree mod' t' wm u) : T.Body lib tree mod' t' := by
  cases T with
  | leaf l id =>
    obtain ⟨wm, k, h1, h2⟩ := h
    exact ⟨wm, k, hc _ _ h1, h2⟩
  | seqOf id T =>
    obtain ⟨wm, n, u, s, h1, h2, h3⟩ := h
    exact ⟨wm, n, u, s, h1.imp (hc _ _) (hc _ _), h2, h3⟩
  | seq id fs =>
    obtain ⟨wm, cs, e, h1, h2⟩ := h
    exact ⟨wm, cs, e, hc _ _ h1, h2⟩
  | set id ext fs =>
    obtain ⟨wm, cs, h1, h2⟩ := h
    exact ⟨wm, cs, hc _ _ h1, h2⟩
  | choice cid as =>
    obtain ⟨wm, as', s, h1, h2, h3⟩ := h
    exact ⟨wm, as', s, hc _ _ h1, h2, h3⟩
  | ref k =>
    obtain ⟨wm, u, w, c, h1, h2, h3, h4⟩ := h
    exact ⟨wm, u, w, c, h1, h2, hc _ _ h3, h4⟩

/-- The C++ type has this identifier. -/
def RTy.HasId (id : CId) : RTy Key → Prop
  | .leaf _ i => id.ident = some i
  | .seqOf i _ => id.ident = some i
  | .seq i _ => id.ident = some i
  | .set i _ _ => id.ident = some i
  | .choice cid _ => cid = id.choiceIdent
  | .ref k => k.id = some id

theorem RTy.HasId.own {tree : Tree} {id : CId} {T : RTy Key} (h : T.HasId id) : T.Own tree id.list := by
  cases T with
  | leaf l i => exact ident_list h
  | seqOf i T => exact ident_list h
  | seq i fs => exact ident_list h
  | set i e fs => exact ident_list h
  | choice cid as =>
    cases h
    cases id with
    | single j => simp [CId.choiceIdent, RTy.Own, Ident.list, CId.list, TagId.id_eq]
    | double o j => simp [CId.choiceIdent, RTy.Own, Ident.list, CId.list, TagId.id_eq]
    | choice l => simp [CId.choiceIdent, RTy.Own, CId.list]
  | ref k =>
    rw [RTy.HasId] at h
    rw [RTy.Own, h]

/-- Not a reference. -/
def RTy.isRef : RTy Key → Bool
  | .ref _ => true
  | _ => false

end FastBer

namespace FastBer.Ast.Fwd
open Spec

theorem Assigns.mem {tree : Tree} {k : Key} {wm : Module} {u : AType} (h : Assigns tree k wm u) :
    wm ∈ tree.modules ∧ wm.name = k.mod ∧ ∃ a ∈ wm.assignments, a.name = k.ref ∧ a.body = .type u := by
  obtain ⟨md, h⟩ := h
  exact target_mem h

theorem Assigns.unique {tree : Tree} {k : Key} {wm wm' : Module} {u u' : AType} (h : Assigns tree k wm u) (h' : Assigns tree k wm' u') :
    wm' = wm ∧ u' = u := by
  obtain ⟨md, h⟩ := h
  obtain ⟨md', h'⟩ := h'
  have : target tree md (some k.mod) k.ref = target tree md' (some k.mod) k.ref := rfl
  rw [h, h'] at this
  cases this
  exact ⟨rfl, rfl⟩

theorem Assigns.occurs {tree : Tree} {k : Key} {wm : Module} {u : AType} (h : Assigns tree k wm u) : Occurs tree wm u := by
  obtain ⟨md, h⟩ := h
  exact occurs_target h

theorem Assigns.of_target {tree : Tree} {md wm : Module} {m : Option Name} {ref : Name} {u : AType} (h : target tree md m ref = some (wm, u))
    (id : Option CId) : Assigns tree ⟨m.getD md.name, ref, id⟩ wm u := ⟨md, h⟩

end FastBer.Ast.Fwd
