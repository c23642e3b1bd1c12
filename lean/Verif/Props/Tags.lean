import Verif.Proofs.Identifier
import Verif.Spec.Distinct
import Verif.Props.Schema
/-!
# C57: tags follow X.680; C58: ambiguous types are rejected

`IdentifierIs tree mod t r`: the compiler's computation of the identifier of type `t`, written in module
`mod`, ends with result `r`.
-/
namespace FastBer.Props
open FastBer.Ast FastBer.Ast.Spec

/-- The call `identifier(t, mod, tree)` ends, with result `r`. -/
def IdentifierIs (tree : Tree) (mod : Module) (t : AType) (r : Res TagInfo) : Prop :=
  r ≠ .loop ∧ ∃ f, identifier tree f mod t = r

theorem IdentifierIs.unique {tree : Tree} {mod : Module} {t : AType} {r r' : Res TagInfo}
    (h : IdentifierIs tree mod t r) (h' : IdentifierIs tree mod t r') : r = r' :=
  identifier_unique h.2.choose_spec h'.2.choose_spec h.1 h'.1

/-! ## C57 -/

/-- C57, full statement: whatever identifier the compiler computes for a type, the generated type writes the
tags X.680 prescribes: the one or two tags of a plain type, or, for an untagged CHOICE, one of the listed ones
first. -/
def C57_statement : Prop := ∀ (tree : Tree) (mod : Module) (t : AType) (info : TagInfo),
  IdentifierIs tree mod t (.ok info) →
    (info.choiceIds = [] → ∀ ts, Tags tree mod t ts → info.tags = ts) ∧
    (info.choiceIds ≠ [] → ∀ tag, tag ∈ info.choiceIds.map TagId.tag ↔ Outermost tree mod t tag)

/-- C57 (part): for a type that leads to something other than a CHOICE or ANY, with no keyword-less tags in
modules with AUTOMATIC TAGS: X.680 prescribes one list of tags, the computation ends, and the tags it gives are
the first and the last of the list.  Missing: see `C57_violated_triple`, `C57_violated_choice` and
`C57_violated_automatic`. -/
theorem C57_tags_partial (tree : Tree) (mod : Module) (t : AType) (h : Plain tree mod t) :
    ∃ ts info, (∀ ts', Tags tree mod t ts' ↔ ts' = ts) ∧ IdentifierIs tree mod t (.ok info) ∧ info.choiceIds = [] ∧
      info.tags = ends ts ∧ (info.tags = ts ↔ ts.length ≤ 2) := by
  obtain ⟨ts, f, info, h1, h2, h3, h4⟩ := plain_tags h
  exact ⟨ts, info, h1, ⟨by simp, f, h2⟩, h3, h4, by rw [h4]; exact ends_eq_self ts⟩

/-- C57 (part), CHOICE: for an untagged CHOICE (with untagged alternatives if the module has AUTOMATIC TAGS) the
listed identifiers are exactly the tags encodings can begin with. -/
theorem C57_choice_partial (tree : Tree) (mod : Module) (as : List Named) (s : Storage)
    (h : Clear tree mod (.choice as s)) (info : TagInfo) (hi : IdentifierIs tree mod (.choice as s) (.ok info)) :
    info.outer = none ∧ info.choiceIds ≠ [] ∧
    ∀ tag, tag ∈ info.choiceIds.map TagId.tag ↔ Outermost tree mod (.choice as s) tag := by
  obtain ⟨f, ids, h1, h2⟩ := identifier_choice h
  obtain ⟨_, ids', h3, h4, h5, _⟩ := clear_outer h
  have := outerIds_unique h1 h3; subst this
  by_cases hn : ids.Nodup
  · have := hi.unique ⟨by simp, f, (h2 f (Nat.le_refl _)).1 hn⟩
    cases this
    exact ⟨rfl, h5, h4⟩
  · have := hi.unique ⟨by simp, f, (h2 f (Nat.le_refl _)).2 hn⟩
    cases this

/-- C57 (part), labels in the generated decoders: `outer_identifiers` lists exactly the tags encodings of the
type can begin with. -/
theorem C57_outer_partial (tree : Tree) (mod : Module) (t : AType) (h : Clear tree mod t) :
    ∃ f ids, outerIds tree f mod t = .ok ids ∧ ∀ tag, tag ∈ ids.map TagId.tag ↔ Outermost tree mod t tag := by
  obtain ⟨f, ids, h1, h2, _⟩ := clear_outer h
  exact ⟨f, ids, h1, h2⟩

def explicitModule : Module := ⟨"M", .explicit_, [], []⟩
def automaticModule : Module := ⟨"M", .automatic, [], []⟩
def noTree : Tree := ⟨[]⟩

/-- `[1] EXPLICIT [2] EXPLICIT [3] EXPLICIT INTEGER`. -/
def tripleTag : AType := .prefixed .contextSpecific 1 .explicit_ (.prefixed .contextSpecific 2 .explicit_
  (.prefixed .contextSpecific 3 .explicit_ (.leaf .integer)))

theorem tripleTag_tags : Tags noTree explicitModule tripleTag
    [(.contextSpecific, 1), (.contextSpecific, 2), (.contextSpecific, 3), (.universal, 2)] :=
  .explicit_ .keyword (.explicit_ .keyword (.explicit_ .keyword (.leaf rfl)))

/-- C57 is false: of three explicit tags on an INTEGER the inner two are lost. -/
theorem C57_violated_triple : IdentifierIs noTree explicitModule tripleTag
      (.ok ⟨some (.ofTag .contextSpecific 1), .ofUniversal 2, [], false⟩) ∧ ¬ C57_statement := by
  have h : IdentifierIs noTree explicitModule tripleTag (.ok ⟨some (.ofTag .contextSpecific 1), .ofUniversal 2, [], false⟩) :=
    ⟨by simp, 4, by simp [identifier, tripleTag, leafInfo, isExplicit, Builtin.universalTag]⟩
  refine ⟨h, fun hs => ?_⟩
  have := (hs _ _ _ _ h).1 rfl _ tripleTag_tags
  simp [TagInfo.tags, TagId.tag, TagId.ofTag, TagId.ofUniversal] at this

/-- C57 is false: an explicitly tagged CHOICE gets a tag `[UNIVERSAL 0]` between its tag and its alternative. -/
theorem C57_violated_choice :
    IdentifierIs noTree explicitModule (.prefixed .contextSpecific 1 .explicit_ (.choice [⟨"a", .leaf .integer⟩] .static_))
      (.ok ⟨some (.ofTag .contextSpecific 1), { cls := .universal, num := 0 }, [], false⟩) ∧
    Tags noTree explicitModule (.prefixed .contextSpecific 1 .explicit_ (.choice [⟨"a", .leaf .integer⟩] .static_))
      [(.contextSpecific, 1), (.universal, 2)] := by
  constructor
  · refine ⟨by simp, 3, ?_⟩
    simp [identifier, choiceIds, explicitModule, outerIds, Named.type, Builtin.universalTag, TagInfo.outerTags,
      checkDistinct, isExplicit]
  · refine .explicit_ .keyword (.choice (a := ⟨"a", .leaf .integer⟩) (fun h => ?_) (by simp) (.leaf rfl))
    exact absurd h.1 (by simp [explicitModule])

/-- C57 is false: in a module with AUTOMATIC TAGS the tag of `[1] INTEGER` is implicit (X.680 31.2.7), the
compiler takes it for explicit. -/
theorem C57_violated_automatic :
    IdentifierIs noTree automaticModule (.prefixed .contextSpecific 1 .automatic (.leaf .integer))
      (.ok ⟨some (.ofTag .contextSpecific 1), .ofUniversal 2, [], false⟩) ∧
    ∀ ts, Tags noTree automaticModule (.prefixed .contextSpecific 1 .automatic (.leaf .integer)) ts ↔
      ts = [(.contextSpecific, 1)] := by
  have hu : ¬ Untagged noTree automaticModule (.leaf .integer) := by intro h; cases h
  have he : ¬ ExplicitTag noTree automaticModule (.leaf .integer) .automatic := by
    intro h
    cases h with
    | environment h => simp [automaticModule] at h
    | untagged h => exact hu h
  refine ⟨⟨by simp, 2, by simp [identifier, leafInfo, isExplicit, automaticModule, Builtin.universalTag]⟩, fun ts => ?_⟩
  constructor
  · intro h
    cases h with
    | explicit_ h _ => exact absurd h he
    | implicit _ _ h => cases h; rfl
  · rintro rfl
    exact .implicit he hu (.leaf rfl)

/-- C57 is false: in a module with AUTOMATIC TAGS a CHOICE with a tagged alternative is not tagged automatically
(X.680 29.2); the compiler still numbers the other alternatives, and the label in the decoder ignores the
tag. -/
theorem C57_violated_automatic_choice :
    let c : AType := .choice [⟨"a", .prefixed .contextSpecific 5 .implicit (.leaf .integer)⟩, ⟨"b", .leaf .boolean⟩] .static_
    IdentifierIs noTree automaticModule c
      (.ok ⟨none, {}, [.ofTag .contextSpecific 5, .ofTag .contextSpecific 1], true⟩) ∧
    outerIds noTree 1 automaticModule c = .ok [.ofTag .contextSpecific 0, .ofTag .contextSpecific 1] ∧
    ∀ tag, Outermost noTree automaticModule c tag ↔ tag = (.contextSpecific, 5) ∨ tag = (.universal, 1) := by
  dsimp only
  have hn : ¬ AutomaticallyTagged automaticModule
      [⟨"a", .prefixed .contextSpecific 5 .implicit (.leaf .integer)⟩, ⟨"b", .leaf .boolean⟩] := by
    intro h
    exact h.2 _ (List.mem_cons_self ..) _ _ _ _ rfl
  refine ⟨⟨by simp, 3, ?_⟩, ?_, fun tag => ?_⟩
  · simp [identifier, choiceIds, automaticModule, autoChoiceIds, autoId, outerIds, Named.type, AType.isPrefixed,
      TagInfo.outerTags, checkDistinct, TagId.ofTag]
  · simp [outerIds, automaticModule, List.range, List.range.loop]
  · constructor
    · intro h
      cases h with
      | choice _ ha ho =>
        simp only [List.mem_cons, List.not_mem_nil, or_false] at ha
        rcases ha with rfl | rfl
        · cases ho; exact .inl rfl
        · cases ho with
          | leaf h => cases h; exact .inr rfl
      | automaticChoice h _ => exact absurd h hn
    · rintro (rfl | rfl)
      · exact .choice (a := ⟨"a", .prefixed .contextSpecific 5 .implicit (.leaf .integer)⟩) hn (by simp) (.prefixed ..)
      · exact .choice (a := ⟨"b", .leaf .boolean⟩) hn (by simp) (.leaf rfl)

/-- `A ::= [APPLICATION 3] IMPLICIT B`, `B ::= [5] SEQUENCE { }` with explicit default: two tags. -/
def taggedTree : Tree := ⟨[⟨"M", .explicit_, [], [
  ⟨"A", .type (.prefixed .application 3 .implicit (.defined none "B" [])), []⟩,
  ⟨"B", .type (.prefixed .contextSpecific 5 .automatic (.sequence [] false)), []⟩]⟩]⟩

example : Plain taggedTree explicitModule (.defined none "A" []) ∧
    Tags taggedTree explicitModule (.defined none "A" []) [(.application, 3), (.universal, 16)] := by
  have hA : target taggedTree explicitModule none "A" = some (_, _) := rfl
  have hB : target taggedTree ⟨"M", .explicit_, [], [
      ⟨"A", .type (.prefixed .application 3 .implicit (.defined none "B" [])), []⟩,
      ⟨"B", .type (.prefixed .contextSpecific 5 .automatic (.sequence [] false)), []⟩]⟩ none "B" = some (_, _) := rfl
  exact ⟨.reference hA (.prefixed (by simp) (.reference hB (.prefixed (by simp) (.sequence ..)))),
    .reference hA (.implicit (fun h => by cases h) (fun h => by
      cases h with
      | reference h1 h2 => rw [show target taggedTree _ none "B" = some (_, _) from rfl] at h1; cases h1; cases h2)
      (.reference hB (.explicit_ (.environment rfl) (.sequence ..))))⟩

/-! ## C58 -/

/-- The check the compiler makes for a SEQUENCE ends with result `r`. -/
def SequenceCheckIs (tree : Tree) (mod : Module) (cs : List Ast.Comp) (r : Res Unit) : Prop :=
  r ≠ .loop ∧ ∃ f, checkSequence tree f mod cs = r
/-- The check the compiler makes for a SET ends with result `r`. -/
def SetCheckIs (tree : Tree) (mod : Module) (cs : List Ast.Comp) (r : Res Unit) : Prop :=
  r ≠ .loop ∧ ∃ f, checkSet tree f mod cs = r

/-- One count that is large enough for the identifiers of all components. -/
theorem common_fuel {tree : Tree} {mod : Module} : ∀ (cs : List Ast.Comp),
    (∀ c ∈ cs, ∃ info, IdentifierIs tree mod c.type (.ok info)) → ∃ f, ∃ g : AType → TagInfo, ∀ f' ≥ f, ∀ c ∈ cs,
      identifier tree f' mod c.type = .ok (g c.type) := by
  intro cs h
  have : ∃ f, ∀ c ∈ cs, ∃ info, identifier tree f mod c.type = .ok info := by
    induction cs with
    | nil => exact ⟨0, by simp⟩
    | cons c cs ih =>
      obtain ⟨f1, h1⟩ := ih fun b hb => h b (by simp [hb])
      obtain ⟨info, _, f2, h2⟩ := h c (by simp)
      refine ⟨max f1 f2, fun b hb => ?_⟩
      rcases List.mem_cons.1 hb with rfl | hb
      · exact ⟨info, Res.le_ok (identifier_mono_le (Nat.le_max_right ..)) h2⟩
      · obtain ⟨i, hi⟩ := h1 b hb
        exact ⟨i, Res.le_ok (identifier_mono_le (Nat.le_max_left ..)) hi⟩
  obtain ⟨f, hf⟩ := this
  refine ⟨f, fun t => match identifier tree f mod t with | .ok i => i | _ => ⟨none, {}, [], false⟩, fun f' hf' c hc => ?_⟩
  obtain ⟨i, hi⟩ := hf c hc
  simp only [hi]
  exact Res.le_ok (identifier_mono_le hf') hi

theorem clash_iff {tree : Tree} {mod : Module} {t u : AType} (ht : Clear tree mod t) (hu : Clear tree mod u) {f : Nat}
    {i j : TagInfo} (hi : identifier tree f mod t = .ok i) (hj : identifier tree f mod u = .ok j) :
    Clash tree mod t u ↔ ∃ x, x ∈ i.outerTags ∧ x ∈ j.outerTags := by
  obtain ⟨h1, _, h2, _⟩ := identifier_outer ht hi
  obtain ⟨h3, _, h4, _⟩ := identifier_outer hu hj
  constructor
  · rintro ⟨tag, ha, hb⟩
    obtain ⟨x, hx, hxt⟩ := List.mem_map.1 ((h1 tag).2 ha)
    obtain ⟨y, hy, hyt⟩ := List.mem_map.1 ((h3 tag).2 hb)
    have := (h2 x hx).ext (h4 y hy) (hxt.trans hyt.symm)
    subst this
    exact ⟨x, hx, hy⟩
  · rintro ⟨x, hx, hy⟩
    exact ⟨x.tag, (h1 _).1 (List.mem_map_of_mem hx), (h3 _).1 (List.mem_map_of_mem hy)⟩

/-- C58, SET: in a module without AUTOMATIC TAGS, a SET whose components have identifiers is accepted exactly if
X.680's rule holds, and rejected with an exception otherwise. -/
theorem C58_set_partial (tree : Tree) (mod : Module) (cs : List Ast.Comp) (hm : mod.tagging ≠ .automatic)
    (hc : ∀ c ∈ cs, Clear tree mod c.type) (hi : ∀ c ∈ cs, ∃ info, IdentifierIs tree mod c.type (.ok info)) :
    (SetCheckIs tree mod cs (.ok ()) ↔ SetDistinct tree mod cs) ∧
    (SetCheckIs tree mod cs (.throw .duplicateIdentifier) ↔ ¬ SetDistinct tree mod cs) := by
  obtain ⟨f, g, hg⟩ := common_fuel cs hi
  have main : ∀ f' ≥ f, checkSet tree f' mod cs = .ok () ↔ SetDistinct tree mod cs := by
    intro f' hf'
    rw [checkSet, if_neg hm, checkSetFrom_ok (g := g) cs (hg f' hf'), nodup_flatMap_idx]
    have hclash := fun (a b : Ast.Comp) (ha : a ∈ cs) (hb : b ∈ cs) =>
      clash_iff (hc a ha) (hc b hb) (hg f' hf' a ha) (hg f' hf' b hb)
    constructor
    · rintro ⟨⟨_, h⟩, _⟩ i j a b hij hi hj hcl
      obtain ⟨x, hx, hy⟩ := (hclash a b (List.mem_of_getElem? hi) (List.mem_of_getElem? hj)).1 hcl
      rcases Nat.lt_or_gt_of_ne hij with hlt | hlt
      · exact h i j a b hlt hi hj x hx hy
      · exact h j i b a hlt hj hi x hy hx
    · intro h
      refine ⟨⟨fun a ha => (identifier_outer (hc a ha) (hg f' hf' a ha)).2.2.2.1, fun i j a b hij hi hj x hx hy => ?_⟩, by simp⟩
      exact h i j a b (by omega) hi hj ((hclash a b (List.mem_of_getElem? hi) (List.mem_of_getElem? hj)).2 ⟨x, hx, hy⟩)
  have cases' : ∀ f' ≥ f, checkSet tree f' mod cs = .ok () ∨ checkSet tree f' mod cs = .throw .duplicateIdentifier := by
    intro f' hf'
    rw [checkSet, if_neg hm]
    exact checkSetFrom_cases (g := g) cs (hg f' hf') []
  have mono : ∀ f1 f2, f1 ≤ f2 → (checkSet tree f1 mod cs).le (checkSet tree f2 mod cs) := by
    intro f1 f2 h12
    rw [checkSet, checkSet, if_neg hm, if_neg hm]
    have : ∀ (cs : List Ast.Comp) seen, (checkSetFrom (identifier tree f1 mod) seen cs).le (checkSetFrom (identifier tree f2 mod) seen cs) := by
      intro cs
      induction cs with
      | nil => intro seen; exact .inr rfl
      | cons c cs ih =>
        intro seen
        rw [checkSetFrom, checkSetFrom]
        exact Res.le_bind (identifier_mono_le h12) fun _ => Res.le_bind (Res.le_refl _) fun _ => ih _
    exact this cs []
  have lift : ∀ r, r ≠ Res.loop → (SetCheckIs tree mod cs r ↔ checkSet tree f mod cs = r) := by
    intro r hr
    constructor
    · rintro ⟨_, f1, h1⟩
      have h2 := mono f1 (max f f1) (Nat.le_max_right ..)
      rw [h1] at h2
      rcases h2 with h2 | h2
      · exact absurd h2 hr
      · have h3 := mono f (max f f1) (Nat.le_max_left ..)
        rcases h3 with h3 | h3
        · rcases cases' f (Nat.le_refl _) with h4 | h4 <;> (rw [h4] at h3; cases h3)
        · rw [h3, ← h2]
    · intro h; exact ⟨hr, f, h⟩
  refine ⟨(lift _ (by simp)).trans (main f (Nat.le_refl _)), (lift _ (by simp)).trans ?_⟩
  rw [← main f (Nat.le_refl _)]
  rcases cases' f (Nat.le_refl _) with h | h <;> simp [h]

/-- The identifiers of a CHOICE differ if those of each alternative do and the alternatives are distinct. -/
theorem choice_nodup {tree : Tree} {mod : Module} {as : List Named} {s : Storage} (hm : mod.tagging ≠ .automatic)
    (hc : ∀ a ∈ as, Clear tree mod a.type) (hi : ∀ a ∈ as, ∃ f ids, outerIds tree f mod a.type = .ok ids ∧ ids.Nodup) {f : Nat} {ids : List TagId}
    (h1 : outerIds tree f mod (.choice as s) = .ok ids) : ids.Nodup ↔ ChoiceDistinct tree mod as := by
  -- the identifiers of the alternatives
  obtain ⟨f1, idss, hmap, hl, hix⟩ := mapM_outerIds as fun a ha => by
    obtain ⟨f, ids, h, _⟩ := clear_outer (hc a ha); exact ⟨f, ids, h⟩
  have hids : ids = idss.flatten := by
    refine outerIds_unique h1 (f' := f1 + 1) ?_
    rw [outerIds, if_neg hm, hmap]; rfl
  have halt : ∀ (i : Nat) (a : Named), as[i]? = some a → ∃ l, idss[i]? = some l ∧ l.Nodup ∧ (∀ x ∈ l, x.Normal) ∧
      ∀ tag, tag ∈ l.map TagId.tag ↔ Outermost tree mod a.type tag := by
    intro i a hia
    have hlt := (List.getElem?_eq_some_iff.1 hia).1
    have hl1 : idss[i]? = some (idss[i]'(by omega)) := List.getElem?_eq_getElem _
    have ha := List.mem_of_getElem? hia
    obtain ⟨f2, ids2, hf2, hn2⟩ := hi a ha
    obtain ⟨f3, ids3, k4, k1, _, k2⟩ := clear_outer (hc a ha)
    have e1 := outerIds_unique (hix i _ a hl1 hia) k4
    have e2 := outerIds_unique hf2 k4
    subst e2
    exact ⟨_, hl1, by rw [e1]; exact hn2, by rw [e1]; exact k2, by rw [e1]; exact k1⟩
  rw [hids, ← List.flatMap_id, nodup_flatMap_idx]
  constructor
  · rintro ⟨_, h⟩ i j a b hij hia hjb ⟨tag, hta, htb⟩
    obtain ⟨l, hl1, _, hn1, ht1⟩ := halt i a hia
    obtain ⟨l', hl2, _, hn2, ht2⟩ := halt j b hjb
    obtain ⟨x, hx, hxt⟩ := List.mem_map.1 ((ht1 tag).2 hta)
    obtain ⟨y, hy, hyt⟩ := List.mem_map.1 ((ht2 tag).2 htb)
    have := (hn1 x hx).ext (hn2 y hy) (hxt.trans hyt.symm)
    subst this
    rcases Nat.lt_or_gt_of_ne hij with hlt | hlt
    · exact h i j l l' hlt hl1 hl2 x hx hy
    · exact h j i l' l hlt hl2 hl1 x hy hx
  · intro h
    refine ⟨fun l hl' => ?_, fun i j l l' hij hi' hj' x hx hy => ?_⟩
    · obtain ⟨i, hi'⟩ := List.getElem?_of_mem hl'
      have hlt : i < as.length := by rw [← hl]; exact (List.getElem?_eq_some_iff.1 hi').1
      obtain ⟨l2, h3, h4, _⟩ := halt i as[i] (List.getElem?_eq_getElem hlt)
      rw [hi'] at h3; cases h3; exact h4
    · have hlt : i < as.length := by rw [← hl]; exact (List.getElem?_eq_some_iff.1 hi').1
      have hlt' : j < as.length := by rw [← hl]; exact (List.getElem?_eq_some_iff.1 hj').1
      obtain ⟨l2, h3, _, _, h5⟩ := halt i as[i] (List.getElem?_eq_getElem hlt)
      obtain ⟨l3, h3', _, _, h5'⟩ := halt j as[j] (List.getElem?_eq_getElem hlt')
      rw [hi'] at h3; cases h3
      rw [hj'] at h3'; cases h3'
      exact h i j _ _ (by omega) (List.getElem?_eq_getElem hlt) (List.getElem?_eq_getElem hlt')
        ⟨x.tag, (h5 _).1 (List.mem_map_of_mem hx), (h5' _).1 (List.mem_map_of_mem hy)⟩
/-- C58, CHOICE: a CHOICE is accepted only if X.680's rule holds; and if the rule holds and the alternatives that
are untagged CHOICEs are accepted, it is accepted; otherwise the compiler throws. -/
theorem C58_choice_partial (tree : Tree) (mod : Module) (as : List Named) (s : Storage) (hm : mod.tagging ≠ .automatic)
    (hne : as ≠ []) (hc : ∀ a ∈ as, Clear tree mod a.type) (hi : ∀ a ∈ as, ∃ info, IdentifierIs tree mod a.type (.ok info)) :
    ((∃ info, IdentifierIs tree mod (.choice as s) (.ok info)) ↔ ChoiceDistinct tree mod as) ∧
    (IdentifierIs tree mod (.choice as s) (.throw .duplicateIdentifier) ↔ ¬ ChoiceDistinct tree mod as) := by
  have hcl : Clear tree mod (.choice as s) := .choice hm hne hc
  obtain ⟨f, ids, h1, h2⟩ := identifier_choice hcl
  have h2 := h2 f (Nat.le_refl _)
  have key : ids.Nodup ↔ ChoiceDistinct tree mod as := choice_nodup hm hc (fun a ha => by
    obtain ⟨info, _, f2, hf2⟩ := hi a ha
    obtain ⟨_, _, _, k3, f3, k4⟩ := identifier_outer (hc a ha) hf2
    exact ⟨f3, _, k4, k3⟩) h1
  rw [← key]
  by_cases hn : ids.Nodup
  · have hr : IdentifierIs tree mod (.choice as s) (.ok ⟨none, {}, ids, true⟩) := ⟨by simp, f, h2.1 hn⟩
    exact ⟨⟨fun _ => hn, fun _ => ⟨_, hr⟩⟩, ⟨fun h => (by cases hr.unique h), fun h => absurd hn h⟩⟩
  · have hr : IdentifierIs tree mod (.choice as s) (.throw .duplicateIdentifier) := ⟨by simp, f, h2.2 hn⟩
    exact ⟨⟨fun ⟨_, h⟩ => (by cases hr.unique h), fun h => absurd h hn⟩, ⟨fun _ => hn, fun _ => hr⟩⟩

/-- C58, SEQUENCE (part): in a module without AUTOMATIC TAGS, if no component is an untagged CHOICE, the check
compares exactly neighbouring components that may be absent.  Missing: a component that may be absent and the
mandatory one after it, and components further apart (`C58_sequence_violated`), and CHOICEs
(`C58_sequence_choice_violated`). -/
theorem C58_sequence_partial (tree : Tree) (mod : Module) (cs : List Ast.Comp) (hm : mod.tagging ≠ .automatic)
    (hp : ∀ c ∈ cs, Plain tree mod c.type) (hc : ∀ c ∈ cs, Clear tree mod c.type) :
    (SequenceCheckIs tree mod cs (.ok ()) ↔
      ∀ (i : Nat) (a b : Ast.Comp), cs[i]? = some a → cs[i + 1]? = some b → a.mayBeAbsent = true → b.mayBeAbsent = true →
        ¬ Clash tree mod a.type b.type) := by
  have hi : ∀ c ∈ cs, ∃ info, IdentifierIs tree mod c.type (.ok info) := fun c h => by
    obtain ⟨_, info, _, h1, _⟩ := C57_tags_partial tree mod c.type (hp c h); exact ⟨info, h1⟩
  obtain ⟨f, g, hg⟩ := common_fuel cs hi
  have single : ∀ c ∈ cs, ∃ x, (g c.type).outerTags = [x] := by
    intro c h
    obtain ⟨_, info, _, h1, h2, _⟩ := C57_tags_partial tree mod c.type (hp c h)
    have := h1.unique ⟨by simp, f, hg f (Nat.le_refl _) c h⟩
    cases this
    unfold TagInfo.outerTags
    cases (g c.type).outer with
    | some o => exact ⟨o, rfl⟩
    | none => exact ⟨(g c.type).inner, by rw [h2]; rfl⟩
  have hne : ∀ c ∈ cs, c.mayBeAbsent = true → (g c.type).outerTags ≠ [] := by
    intro c h _; obtain ⟨x, hx⟩ := single c h; simp [hx]
  have main : ∀ f' ≥ f, checkSequence tree f' mod cs = .ok () ↔
      ∀ (i : Nat) (a b : Ast.Comp), cs[i]? = some a → cs[i + 1]? = some b → a.mayBeAbsent = true → b.mayBeAbsent = true →
        ¬ Clash tree mod a.type b.type := by
    intro f' hf'
    rw [checkSequence, if_neg hm, (checkSeqFrom_ok (g := g) cs (fun c h _ => hg f' hf' c h) hne []).2]
    constructor
    · rintro ⟨_, h⟩ i a b hia hib ha hb hcl
      have ma := List.mem_of_getElem? hia
      have mb := List.mem_of_getElem? hib
      obtain ⟨x, hx, hy⟩ := (clash_iff (hc a ma) (hc b mb) (hg f' hf' a ma) (hg f' hf' b mb)).1 hcl
      obtain ⟨y, hy'⟩ := single b mb
      rw [hy'] at hy
      have : x = y := by simpa using hy
      subst this
      exact h i a b hia hib ha hb x (by rw [hy']; rfl) hx
    · intro h
      refine ⟨by simp, fun i a b hia hib ha hb x hx hxa => ?_⟩
      have ma := List.mem_of_getElem? hia
      have mb := List.mem_of_getElem? hib
      exact h i a b hia hib ha hb ((clash_iff (hc a ma) (hc b mb) (hg f' hf' a ma) (hg f' hf' b mb)).2
        ⟨x, hxa, List.mem_of_mem_head? hx⟩)
  constructor
  · rintro ⟨_, f1, h1⟩
    have mono : ∀ (cs : List Ast.Comp) f1 f2 prev, f1 ≤ f2 →
        (checkSeqFrom (identifier tree f1 mod) prev cs).le (checkSeqFrom (identifier tree f2 mod) prev cs) := by
      intro cs f1 f2 prev h12
      induction cs generalizing prev with
      | nil => exact .inr rfl
      | cons c cs ih =>
        rw [checkSeqFrom, checkSeqFrom]
        split
        · refine Res.le_bind (identifier_mono_le h12) fun i => ?_
          split
          · exact .inr rfl
          · split
            · exact .inr rfl
            · exact ih _
        · exact ih _
    refine (main (max f f1) (Nat.le_max_left ..)).1 ?_
    have := mono cs f1 (max f f1) [] (Nat.le_max_right ..)
    rw [checkSequence, if_neg hm] at h1 ⊢
    exact Res.le_ok this h1
  · intro h
    exact ⟨by simp, f, (main f (Nat.le_refl _)).2 h⟩

/-- C58 full statement for SEQUENCE: an accepted SEQUENCE satisfies X.680's rule. -/
def C58_statement : Prop := ∀ (tree : Tree) (mod : Module) (cs : List Ast.Comp), mod.tagging ≠ .automatic →
  SequenceCheckIs tree mod cs (.ok ()) → SequenceDistinct tree mod cs

/-- `SEQUENCE { a INTEGER OPTIONAL, b INTEGER }`. -/
def ambiguousSeq : List Ast.Comp := [⟨"a", .leaf .integer, true, none, none, .static_⟩, ⟨"b", .leaf .integer, false, none, none, .static_⟩]

/-- The type generated for it. -/
def ambiguousTy : Ty := .seq (univ 16) (.cons .optional [⟨.universal, 2⟩] (.leaf .int (univ 2))
  (.cons .mandatory [⟨.universal, 2⟩] (.leaf .int (univ 2)) .nil))

/-- C58 is false: `SEQUENCE { a INTEGER OPTIONAL, b INTEGER }` is accepted, though with `a` absent the encoding of
`b` is taken for `a`: the generated type writes `30 03 02 01 05` for `b = 5` and does not decode it. -/
theorem C58_sequence_violated :
    SequenceCheckIs noTree explicitModule ambiguousSeq (.ok ()) ∧ ¬ SequenceDistinct noTree explicitModule ambiguousSeq ∧
    ambiguousTy.encode (.struct [.none, .raw [2, 1, 5, 0, 0, 0, 0, 0, 0, 0]]) (List.replicate 5 0) =
      .ok (⟨true, 5⟩, [0x30, 3, 2, 1, 5]) ∧
    (∃ o, ambiguousTy.decode (.struct [.none, .raw [2, 1, 0, 0, 0, 0, 0, 0, 0, 0]]) [0x30, 3, 2, 1, 5] = .ok (false, o)) ∧
    ¬ C58_statement := by
  have h1 : SequenceCheckIs noTree explicitModule ambiguousSeq (.ok ()) := ⟨by simp, 1, by
    simp [checkSequence, explicitModule, checkSeqFrom, ambiguousSeq, identifier, leafInfo, Ast.Comp.optional, Ast.Comp.default, Ast.Comp.type,
      Builtin.universalTag, TagInfo.outerTags]⟩
  have h2 : ¬ SequenceDistinct noTree explicitModule ambiguousSeq := by
    intro h
    refine h 0 1 _ _ (by omega) rfl rfl ?_ ⟨(.universal, 2), .leaf rfl, .leaf rfl⟩
    intro k c h0 h1 hk
    obtain rfl : k = 0 := by omega
    cases hk
    exact .inl rfl
  exact ⟨h1, h2, by rfl, ⟨_, by rfl⟩, fun h => h2 (h _ _ _ (by simp [explicitModule]) h1)⟩

/-- `SEQUENCE { a INTEGER OPTIONAL, c CHOICE { x BOOLEAN, y INTEGER } OPTIONAL }`: only the first identifier of the
CHOICE is compared, so the clash of `a` and `y` is not found. -/
theorem C58_sequence_choice_violated :
    let cs : List Ast.Comp := [⟨"a", .leaf .integer, true, none, none, .static_⟩,
      ⟨"c", .choice [⟨"x", .leaf .boolean⟩, ⟨"y", .leaf .integer⟩] .static_, true, none, none, .static_⟩]
    SequenceCheckIs noTree explicitModule cs (.ok ()) ∧ ¬ SequenceDistinct noTree explicitModule cs := by
  intro cs
  refine ⟨⟨by simp, 2, ?_⟩, ?_⟩
  · simp [cs, checkSequence, explicitModule, checkSeqFrom, identifier, leafInfo, Ast.Comp.optional, Ast.Comp.default, Ast.Comp.type,
      Builtin.universalTag, TagInfo.outerTags, choiceIds, outerIds, Named.type, checkDistinct, TagId.ofUniversal]
  · intro h
    refine h 0 1 _ _ (by omega) rfl rfl ?_ ⟨(.universal, 2), .leaf rfl,
      .choice (a := ⟨"y", .leaf .integer⟩) (fun h => absurd h.1 (by simp [explicitModule])) (by simp) (.leaf rfl)⟩
    intro k c h0 h1 hk
    obtain rfl : k = 0 := by omega
    cases hk
    exact .inl rfl

/-- In a module with AUTOMATIC TAGS nothing is checked, also if tags are written: `SET { a [0] INTEGER, b [0]
BOOLEAN }` is accepted. -/
theorem C58_automatic_violated :
    let cs : List Ast.Comp := [⟨"a", .prefixed .contextSpecific 0 .implicit (.leaf .integer), false, none, none, .static_⟩,
      ⟨"b", .prefixed .contextSpecific 0 .implicit (.leaf .boolean), false, none, none, .static_⟩]
    SetCheckIs noTree automaticModule cs (.ok ()) ∧ ¬ SetDistinct noTree automaticModule cs := by
  intro cs
  refine ⟨⟨by simp, 0, by simp [checkSet, automaticModule]⟩, fun h => ?_⟩
  exact h 0 1 _ _ (by omega) rfl rfl ⟨(.contextSpecific, 0), .prefixed .., .prefixed ..⟩

/-- Types the theorems apply to: `SET { a INTEGER, b CHOICE { x [0] BOOLEAN, y [1] NULL } }` is accepted. -/
example : let cs : List Ast.Comp := [⟨"a", .leaf .integer, false, none, none, .static_⟩,
      ⟨"b", .choice [⟨"x", .prefixed .contextSpecific 0 .implicit (.leaf .boolean)⟩, ⟨"y", .prefixed .contextSpecific 1 .implicit (.leaf .null)⟩] .static_,
        false, none, none, .static_⟩]
    (∀ c ∈ cs, Clear noTree explicitModule c.type) ∧ (∀ c ∈ cs, ∃ info, IdentifierIs noTree explicitModule c.type (.ok info)) ∧
    SetCheckIs noTree explicitModule cs (.ok ()) := by
  intro cs
  refine ⟨?_, ?_, ⟨by simp, 3, ?_⟩⟩
  · intro c hc
    simp only [cs, List.mem_cons, List.not_mem_nil, or_false] at hc
    rcases hc with rfl | rfl
    · exact .leaf rfl
    · refine .choice (by simp [explicitModule]) (by simp) fun a ha => ?_
      simp only [List.mem_cons, List.not_mem_nil, or_false] at ha
      rcases ha with rfl | rfl <;> exact .prefixed _ _ _ _ (by simp)
  · intro c hc
    simp only [cs, List.mem_cons, List.not_mem_nil, or_false] at hc
    rcases hc with rfl | rfl
    · exact ⟨_, by simp, 1, rfl⟩
    · exact ⟨_, by simp, 3, by simp [Ast.Comp.type, identifier, choiceIds, explicitModule, outerIds, Named.type, TagInfo.outerTags, checkDistinct, TagId.ofTag]; rfl⟩
  · simp [cs, checkSet, explicitModule, checkSetFrom, identifier, leafInfo, Ast.Comp.type, Builtin.universalTag, TagInfo.outerTags,
      choiceIds, outerIds, Named.type, checkDistinct, TagId.ofUniversal, TagId.ofTag]

end FastBer.Props
