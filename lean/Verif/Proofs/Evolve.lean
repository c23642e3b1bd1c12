import Verif.Spec.Evolve
import Verif.Proofs.DecodeComplete
/-!
# Elements of types a program does not know, and what it makes of a later version of a type it knows
-/
namespace FastBer.Ast.Evo
open FastBer.Ast.Spec _root_.FastBer.Spec FastBer.Ast

/-! ## The relation between versions -/

theorem laterSlots_mono {added : List Slot → Prop} {R S : AType → AType → Prop} (h : ∀ t t', R t t' → S t t') {ext : Bool} {ss ss' : List Slot} (hl : LaterSlots added R ext ss ss') :
    LaterSlots added S ext ss ss' := by
  induction hl with
  | same => exact .same _
  | more h => exact .more h
  | cons h1 _ ih => exact .cons (h _ _ h1) ih

theorem laterEach_mono {R S : AType → AType → Prop} (h : ∀ t t', R t t' → S t t') {ts ts' : List AType} (hl : LaterEach R ts ts') : LaterEach S ts ts' := by
  induction hl with
  | more => exact .more _
  | cons h1 _ ih => exact .cons (h _ _ h1) ih

theorem laterOf_mono {added : List Slot → Prop} {R S : Module → AType → Module → AType → Prop} (h : ∀ m t m' t', R m t m' t' → S m t m' t') {mod mod' : Module} {t t' : AType}
    (hl : LaterOf added R mod t mod' t') : LaterOf added S mod t mod' t' := by
  cases hl with
  | leaf => exact .leaf _ _ _
  | seqOf hr => exact .seqOf (h _ _ _ _ hr)
  | setOf hr => exact .setOf (h _ _ _ _ hr)
  | sequence hr => exact .sequence (laterSlots_mono (fun _ _ hr => h _ _ _ _ hr) hr)
  | set hr => exact .set (laterSlots_mono (fun _ _ hr => h _ _ _ _ hr) hr)
  | choice hr => exact .choice (laterEach_mono (fun _ _ hr => h _ _ _ _ hr) hr)

theorem laterStep_mono {added : List Slot → Prop} {old new : Tree} {R S : Module → AType → Module → AType → Prop} (h : ∀ m t m' t', R m t m' t' → S m t m' t') {mod mod' : Module} {t t' : AType}
    (hl : LaterStep added old new R mod t mod' t') : LaterStep added old new S mod t mod' t' := by
  obtain ⟨ts, wm, u, wm', u', h1, h2, h3, h4, h5⟩ := hl
  exact ⟨ts, wm, u, wm', u', h1, h2, h3, h4, laterOf_mono h h5⟩

theorem later_step {added : List Slot → Prop} {old new : Tree} {mod mod' : Module} {t t' : AType} (h : Later added old new mod t mod' t') :
    LaterStep added old new (Later added old new) mod t mod' t' := by
  obtain ⟨R, h1, h2⟩ := h
  exact laterStep_mono (fun m t m' t' hr => ⟨R, h1, hr⟩) (h1 _ _ _ _ h2)

theorem later_of {added : List Slot → Prop} {old new : Tree} {mod mod' : Module} {t t' : AType} (h : LaterStep added old new (Later added old new) mod t mod' t') :
    Later added old new mod t mod' t' :=
  ⟨LaterStep added old new (Later added old new), fun _ _ _ _ hs => laterStep_mono (fun _ _ _ _ hl => later_step hl) hs, h⟩


/-- The element begins with a tag the type can begin with. -/
def Begins (tree : Tree) (mod : Module) (t : AType) (v : BerView) : Prop := ∃ tag, Outermost tree mod t tag ∧ v.identifier = .ok (idOf tag)

theorem good_tags {contents : Builtin → Bytes → Prop} : ∀ (ts : List Spec.Tag) (tag : Spec.Tag) (k : Construction) (c e : Bytes),
    (∀ x ∈ tag :: ts, x.2 < 2 ^ 63) → Wrapped (definite contents) (tag :: ts) k c e → e.length < 2 ^ 64 → (∃ w, BerView.parse c = .ok w) →
    (k = .constructed → Sane c) → Good (fun v => v.identifier = .ok (idOf tag)) e
  | [], tag, k, c, e, hb, h, hl, hpk, hin => (good_element h (hb tag List.mem_cons_self) hl hpk hin).imp fun _ _ h => h.2.1
  | t' :: ts, tag, k, c, e, hb, h, hl, hpk, hin => by
    obtain ⟨e', h1, h2⟩ := h
    have hl' : e'.length < 2 ^ 64 := by
      obtain ⟨l, _, rfl⟩ := h2
      simp only [List.length_append] at hl
      omega
    have hg := good_tags ts t' k c e' (fun x hx => hb x (List.mem_cons_of_mem _ hx)) h1 hl' hpk hin
    exact (good_element h2 (hb tag List.mem_cons_self) hl (Spec_sane_peek hg.sane) fun _ => hg.sane).imp fun _ _ h => h.2.1

/-- Only a CHOICE has no tags. -/
theorem choice_of_nil {tree : Tree} {mod wm : Module} {t u : AType} (ho : OwnTags tree mod t []) (hc : Core tree mod t wm u) : ∃ as s, u = .choice as s := by
  generalize hl : ([] : List Spec.Tag) = l at ho
  induction ho with
  | leaf | sequence | seqOf | set | setOf | explicit_ | implicit => cases hl
  | choice =>
    cases hc
    exact ⟨_, _, rfl⟩
  | reference ht _ ih =>
    cases hc with
    | here hx => cases hx
    | reference ht' hc => rw [ht] at ht'; cases ht'; exact ih hc hl

theorem sane_flatten {es : List Bytes} (h : ∀ e ∈ es, e ≠ [] → Good (fun _ => True) e) : Sane es.flatten := by
  obtain ⟨vs, _, _, h3⟩ := good_elements (es.filter fun e => !e.isEmpty) ((es.filter fun e => !e.isEmpty).map fun _ _ => True) (by
    have : ∀ l : List Bytes, (∀ e ∈ l, Good (fun _ => True) e) → all2 (fun e P => Good P e) l (l.map fun _ _ => True) := by
      intro l
      induction l with
      | nil => intro _; trivial
      | cons e l ih => intro h; exact ⟨h e List.mem_cons_self, ih fun e he => h e (List.mem_cons_of_mem _ he)⟩
    refine this _ fun e he => ?_
    obtain ⟨h1, h2⟩ := List.mem_filter.1 he
    refine h e h1 ?_
    rintro rfl
    cases h2)
  rwa [nonempty_flatten] at h3

/-- An encoding of a value of any type of a legal schema is one element, which decoders can skip. -/
theorem good_any {tree : Tree} (hL : Legal tree) {mod : Module} {t : AType} {x : Val} {e : Bytes} (h : Encodes (definite readable) tree mod t x e) :
    Known tree mod t → e.length < 2 ^ 64 → Good (Begins tree mod t) e := by
  refine Encodes.rec (r := definite readable) (tree := tree)
    (motive_1 := fun mod t _ e _ => Known tree mod t → e.length < 2 ^ 64 → Good (Begins tree mod t) e)
    (motive_2 := fun wm u _ k c _ => Occurs tree wm u → c.length < 2 ^ 64 → (∃ w, BerView.parse c = .ok w) ∧ (k = .constructed → Sane c) ∧
      ∀ as s, u = .choice as s → Good (Begins tree wm u) c)
    (motive_3 := fun mod t _ es _ => Known tree mod t → (∀ e ∈ es, e.length < 2 ^ 64) → ∀ e ∈ es, Good (fun _ => True) e)
    (motive_4 := fun mod ss _ es _ => (∀ s ∈ ss, Known tree mod s.type) → (∀ e ∈ es, e.length < 2 ^ 64) → ∀ e ∈ es, e ≠ [] → Good (fun _ => True) e)
    ?_ ?_ ?_ ?_ ?_ ?_ ?_ ?_ ?_ ?_ ?_ ?_ ?_ h
  · intro mod wm t u ts x k c e ho hc hx hw ih hk hl
    have hle := wrapped_length hw
    obtain ⟨h1, h2, h3⟩ := ih (hk.core _ _ hc) (by omega)
    cases ts with
    | nil =>
      obtain ⟨as, s, rfl⟩ := choice_of_nil ho hc
      cases hw
      refine (h3 as s rfl).imp ?_
      rintro v _ ⟨tag, h4, h5⟩
      exact ⟨tag, outermost_nil ho hc h4, h5⟩
    | cons tag ts =>
      exact (good_tags ts tag k c e (hk.bound _ ho) hw hl h1 h2).imp fun v _ h => ⟨tag, ownTags_outermost ho, h⟩
  · intro mod k c hk _ _
    exact ⟨parse_of_noHugeTag hk.2, (fun h => by cases h), fun as s h => by cases h⟩
  · intro mod n t s xs es _ ih ho hl
    have := sane_flatten fun e he _ => ih (known_of_occurs hL (.seqOf ho)) (fun e he => by have := length_le_flatten he; omega) e he
    exact ⟨Spec_sane_peek this, fun _ => this, fun as s h => by cases h⟩
  · intro mod n t s xs es _ ih ho hl
    have := sane_flatten fun e he _ => ih (known_of_occurs hL (.setOf ho)) (fun e he => by have := length_le_flatten he; omega) e he
    exact ⟨Spec_sane_peek this, fun _ => this, fun as s h => by cases h⟩
  · intro mod cs ext xs es _ ih ho hl
    have := sane_flatten (ih (fun s hs => known_sequence hL ho hs) (fun e he => by have := length_le_flatten he; omega))
    exact ⟨Spec_sane_peek this, fun _ => this, fun as s h => by cases h⟩
  · intro mod cs ext xs es es' _ hp ih ho hl
    have := sane_flatten (es := es') fun e he => ih (fun s hs => known_set hL ho hs) (fun e he => by have := length_le_flatten (hp.mem_iff.1 he); omega) e (hp.mem_iff.2 he)
    exact ⟨Spec_sane_peek this, fun _ => this, fun as s h => by cases h⟩
  · intro mod as s i t x e hi _ ih ho hl
    have hg := ih (known_choice hL ho (List.mem_of_getElem? hi)) hl
    refine ⟨Spec_sane_peek hg.sane, fun _ => hg.sane, ?_⟩
    intro as' s' he
    cases he
    refine hg.imp ?_
    rintro v _ ⟨tag, h4, h5⟩
    exact ⟨tag, outermost_choices (List.mem_of_getElem? hi) h4, h5⟩
  · intro mod t _ _ e he; cases he
  · intro mod t x e xs es _ _ ih1 ih2 hk hl e' he
    rcases List.mem_cons.1 he with rfl | he
    · exact (ih1 hk (hl _ List.mem_cons_self)).imp fun _ _ _ => trivial
    · exact ih2 hk (fun e he => hl e (List.mem_cons_of_mem _ he)) e' he
  · intro mod _ _ e he; cases he
  · intro mod t ss x e xs es _ _ ih1 ih2 hk hl e' he hne
    rcases List.mem_cons.1 he with rfl | he
    · exact (ih1 (hk _ List.mem_cons_self) (hl _ List.mem_cons_self)).imp fun _ _ _ => trivial
    · exact ih2 (fun s hs => hk s (List.mem_cons_of_mem _ hs)) (fun e he => hl e (List.mem_cons_of_mem _ he)) e' he hne
  · intro mod t ss x e xs es _ _ ih1 ih2 hk hl e' he hne
    rcases List.mem_cons.1 he with rfl | he
    · exact (ih1 (hk _ List.mem_cons_self) (hl _ List.mem_cons_self)).imp fun _ _ _ => trivial
    · exact ih2 (fun s hs => hk s (List.mem_cons_of_mem _ hs)) (fun e he => hl e (List.mem_cons_of_mem _ he)) e' he hne
  · intro mod t ss xs es _ ih hk hl e' he hne
    rcases List.mem_cons.1 he with rfl | he
    · exact absurd rfl hne
    · exact ih (fun s hs => hk s (List.mem_cons_of_mem _ hs)) (fun e he => hl e (List.mem_cons_of_mem _ he)) e' he hne

/-- So are the encodings of components. -/
theorem encodesSlots_good {tree : Tree} (hL : Legal tree) {mod : Module} {ss : List Slot} {xs : List Val} {es : List Bytes} (hk : ∀ s ∈ ss, Known tree mod s.type)
    (h : EncodesSlots (definite readable) tree mod ss xs es) (hl : ∀ e ∈ es, e.length < 2 ^ 64) : ∀ e ∈ es, e ≠ [] → Good (fun _ => True) e := by
  revert xs es
  induction ss with
  | nil => intro xs es h _ e he; cases h; cases he
  | cons s ss ih =>
    intro xs es h hl e' he hne
    have hk' : ∀ s ∈ ss, Known tree mod s.type := fun s hs => hk s (List.mem_cons_of_mem _ hs)
    cases h with
    | mandatory hx hr | present hx hr =>
      rcases List.mem_cons.1 he with rfl | he
      · exact (good_any hL hx (hk _ List.mem_cons_self) (hl _ List.mem_cons_self)).imp fun _ _ _ => trivial
      · exact ih hk' hr (fun e he => hl e (List.mem_cons_of_mem _ he)) e' he hne
    | absent hr =>
      rcases List.mem_cons.1 he with rfl | he
      · exact absurd rfl hne
      · exact ih hk' hr (fun e he => hl e (List.mem_cons_of_mem _ he)) e' he hne

/-! ## The elements of components -/

/-- What is seen of an encoding. -/
def Seen (e : Bytes) (v : BerView) : Prop := v.valid = true ∧ ∀ P, Good P e → P v

theorem good_seen {P : BerView → Prop} {e : Bytes} (h : Good P e) : Good (Seen e) e := by
  intro s hs
  obtain ⟨v, h1, h2, h3, h4, h5⟩ := h s hs
  refine ⟨v, h1, h2, h3, ⟨h2, fun Q hq => ?_⟩, h5⟩
  obtain ⟨w, g1, _, _, g2, _⟩ := hq s hs
  rw [h1] at g1
  cases g1
  exact g2

theorem elements_seen (es : List Bytes) (h : ∀ e ∈ es, e ≠ [] → Good (fun _ => True) e) :
    ∃ vs, Elements es.flatten vs ∧ all2 Seen (es.filter fun e => !e.isEmpty) vs := by
  have key : ∀ l : List Bytes, (∀ e ∈ l, Good (fun _ => True) e) → all2 (fun e P => Good P e) l (l.map Seen) := by
    intro l
    induction l with
    | nil => intro _; trivial
    | cons e l ih => intro h; exact ⟨good_seen (h e List.mem_cons_self), ih fun e he => h e (List.mem_cons_of_mem _ he)⟩
  obtain ⟨vs, h1, h2, _⟩ := good_elements (es.filter fun e => !e.isEmpty) _ (key _ fun e he => by
    obtain ⟨h1, h2⟩ := List.mem_filter.1 he
    refine h e h1 ?_
    rintro rfl
    cases h2)
  rw [nonempty_flatten] at h1
  refine ⟨vs, h1, ?_⟩
  generalize (es.filter fun e => !e.isEmpty) = l at h2
  clear h1 h key
  induction l generalizing vs with
  | nil => cases vs with | nil => trivial | cons => cases h2
  | cons e l ih =>
    cases vs with
    | nil => cases h2
    | cons v vs => exact ⟨h2.1.1, ih vs h2.2⟩

/-- Things that go with the components that are present, in order. -/
inductive Places {α : Type} (R : AType → Val → α → Prop) : List Slot → List Val → List α → Prop where
  | nil : Places R [] [] []
  | mandatory {t : AType} {ss : List Slot} {x : Val} {xs : List Val} {a : α} {as : List α} :
      R t x a → Places R ss xs as → Places R (⟨false, t⟩ :: ss) (x :: xs) (a :: as)
  | present {t : AType} {ss : List Slot} {x : Val} {xs : List Val} {a : α} {as : List α} :
      R t x a → Places R ss xs as → Places R (⟨true, t⟩ :: ss) (.present x :: xs) (a :: as)
  | absent {t : AType} {ss : List Slot} {xs : List Val} {as : List α} :
      Places R ss xs as → Places R (⟨true, t⟩ :: ss) (.absent :: xs) as

/-- The element is what is seen of an encoding of the value. -/
def Sees (tree : Tree) (mod : Module) (n : Nat) (t : AType) (x : Val) (v : BerView) : Prop :=
  ∃ e, Encodes (definite readable) tree mod t x e ∧ e.length ≤ n ∧ Seen e v

theorem places_of {tree : Tree} {mod : Module} {n : Nat} (hn : n < 2 ^ 64) {ss : List Slot} {xs : List Val} {es : List Bytes} (hL : Legal tree) (hk : ∀ s ∈ ss, Known tree mod s.type)
    (h : EncodesSlots (definite readable) tree mod ss xs es) (hl : ∀ e ∈ es, e.length ≤ n) :
    ∀ vs, all2 Seen (es.filter fun e => !e.isEmpty) vs → Places (Sees tree mod n) ss xs vs := by
  revert xs es
  induction ss with
  | nil =>
    intro xs es h hl vs hv
    cases h
    cases vs with
    | nil => exact .nil
    | cons => cases hv
  | cons s ss ih =>
    intro xs es h hl vs hv
    have hne : ∀ t x e, Known tree mod t → Encodes (definite readable) tree mod t x e → e.length ≤ n → (!e.isEmpty) = true := by
      intro t x e hk h hl
      have := (good_any hL h hk (by omega)).ne
      cases e with
      | nil => exact absurd rfl this
      | cons => rfl
    cases h with
    | @mandatory _ t _ x e xs es hx hr =>
      rw [List.filter_cons_of_pos (p := fun (e : Bytes) => !e.isEmpty) (hne t x e (hk _ List.mem_cons_self) hx (hl _ List.mem_cons_self))] at hv
      cases vs with
      | nil => cases hv
      | cons v vs =>
        exact .mandatory ⟨e, hx, hl _ List.mem_cons_self, hv.1⟩ (ih (fun s hs => hk s (List.mem_cons_of_mem _ hs)) hr (fun e he => hl e (List.mem_cons_of_mem _ he)) vs hv.2)
    | @present _ t _ x e xs es hx hr =>
      rw [List.filter_cons_of_pos (p := fun (e : Bytes) => !e.isEmpty) (hne t x e (hk _ List.mem_cons_self) hx (hl _ List.mem_cons_self))] at hv
      cases vs with
      | nil => cases hv
      | cons v vs =>
        exact .present ⟨e, hx, hl _ List.mem_cons_self, hv.1⟩ (ih (fun s hs => hk s (List.mem_cons_of_mem _ hs)) hr (fun e he => hl e (List.mem_cons_of_mem _ he)) vs hv.2)
    | @absent _ t _ xs es hr =>
      rw [List.filter_cons_of_neg (by simp)] at hv
      exact .absent (ih (fun s hs => hk s (List.mem_cons_of_mem _ hs)) hr (fun e he => hl e (List.mem_cons_of_mem _ he)) vs hv)

theorem sees_begins {tree : Tree} (hL : Legal tree) {mod : Module} {n : Nat} (hn : n < 2 ^ 64) {t : AType} {x : Val} {v : BerView} (hk : Known tree mod t)
    (h : Sees tree mod n t x v) : Begins tree mod t v := by
  obtain ⟨e, h1, h2, h3⟩ := h
  exact h3.2 _ (good_any hL h1 hk (by omega))

/-- The first element belongs to a component with only absent ones before it. -/
theorem places_first {tree : Tree} (hL : Legal tree) {mod : Module} {n : Nat} (hn : n < 2 ^ 64) {ss : List Slot} {xs : List Val} {vs : List BerView}
    (h : Places (Sees tree mod n) ss xs vs) (hk : ∀ s ∈ ss, Known tree mod s.type) : ∀ v vs', vs = v :: vs' →
    ∃ (j : Nat) (s : Slot), ss[j]? = some s ∧ (∀ (k : Nat) (c : Slot), k < j → ss[k]? = some c → c.mayBeAbsent = true) ∧ Begins tree mod s.type v := by
  induction h with
  | nil => intro v vs' h; cases h
  | mandatory h1 _ _ =>
    intro v vs' h
    cases h
    exact ⟨0, _, rfl, fun k c h => absurd h (Nat.not_lt_zero _), sees_begins hL hn (hk _ List.mem_cons_self) h1⟩
  | present h1 _ _ =>
    intro v vs' h
    cases h
    exact ⟨0, _, rfl, fun k c h => absurd h (Nat.not_lt_zero _), sees_begins hL hn (hk _ List.mem_cons_self) h1⟩
  | absent _ ih =>
    intro v vs' h
    obtain ⟨j, s, h1, h2, h3⟩ := ih (fun s hs => hk s (List.mem_cons_of_mem _ hs)) v vs' h
    refine ⟨j + 1, s, h1, ?_, h3⟩
    intro k c hkj hc
    cases k with
    | zero => cases hc; rfl
    | succ k => exact h2 k c (by omega) hc

/-! ## First tags in the later version -/

theorem own_head {tree : Tree} {mod : Module} {t : AType} {tag : Spec.Tag} {ts : List Spec.Tag} (h : OwnTags tree mod t (tag :: ts)) : Outermost tree mod t tag := by
  generalize hl : tag :: ts = l at h
  induction h generalizing tag ts with
  | leaf h => cases hl; exact .leaf h
  | sequence => cases hl; exact .sequence ..
  | seqOf => cases hl; exact .seqOf ..
  | set => cases hl; exact .set ..
  | setOf => cases hl; exact .setOf ..
  | choice => cases hl
  | explicit_ => cases hl; exact .prefixed ..
  | implicit => cases hl; exact .prefixed ..
  | reference h1 _ ih => exact .reference h1 (ih hl)

theorem each_index {R : AType → AType → Prop} : ∀ {ts ts' : List AType}, LaterEach R ts ts' →
    ∀ (i : Nat) (t : AType), ts[i]? = some t → ∃ t', ts'[i]? = some t' ∧ R t t'
  | [], _, _, _, _, ht => by cases ht
  | t0 :: ts, _, h, i, t, ht => by
    cases h with
    | @cons _ t' _ ts' h1 h2 =>
    cases i with
    | zero => cases ht; exact ⟨t', rfl, h1⟩
    | succ i => exact each_index h2 i t ht

theorem outermost_own {added : List Slot → Prop} {old new : Tree} {mod mod' : Module} {t t' : AType} {tag : Spec.Tag} {ts : List Spec.Tag} (ho : OwnTags old mod t (tag :: ts))
    (h : Later added old new mod t mod' t') : Outermost new mod' t' tag := by
  obtain ⟨ts', _, _, _, _, h1, h2, _⟩ := later_step h
  cases ho.unique h1
  exact own_head h2

theorem untagged_iff {as : List Named} : NoneTagged as ↔ (as.map Named.type).all (fun t => !hasTag t) = true := by
  simp only [NoneTagged, List.all_eq_true, Bool.not_eq_true', List.mem_map, forall_exists_index, and_imp, forall_apply_eq_imp_iff₂]
  refine forall_congr' fun a => forall_congr' fun _ => ?_
  cases a.type <;> simp [hasTag]

theorem choices_auto {mod : Module} {as : List Named} (h : AutomaticallyTagged mod as) : choices mod as = (as.map Named.type).mapIdx fun i t => .prefixed .contextSpecific i .automatic t := by
  unfold choices autoTags
  rw [if_pos]
  exact ⟨h.1, untagged_iff.1 h.2⟩

theorem choices_plain {mod : Module} {as : List Named} (h : ¬ AutomaticallyTagged mod as) : choices mod as = as.map Named.type := by
  unfold choices autoTags
  rw [if_neg]
  exact fun ⟨h1, h2⟩ => h ⟨h1, untagged_iff.2 h2⟩

/-- The later version can begin with what the older one can begin with. -/
theorem outermost_later {added : List Slot → Prop} {old new : Tree} {mod : Module} {t : AType} {tag : Spec.Tag} (h : Outermost old mod t tag) :
    ∀ mod' t', Later added old new mod t mod' t' → Outermost new mod' t' tag := by
  induction h with
  | leaf h => exact fun mod' t' hl => outermost_own (.leaf h) hl
  | sequence => exact fun mod' t' hl => outermost_own (.sequence ..) hl
  | seqOf => exact fun mod' t' hl => outermost_own (.seqOf ..) hl
  | set => exact fun mod' t' hl => outermost_own (.set ..) hl
  | setOf => exact fun mod' t' hl => outermost_own (.setOf ..) hl
  | prefixed =>
    intro mod' t' hl
    obtain ⟨ts, _, _, _, _, h1, h2, _⟩ := later_step hl
    cases h1 with
    | explicit_ => exact own_head h2
    | implicit => exact own_head h2
  | @choice mod as s a tag hn ha _ ih =>
    intro mod' t' hl
    obtain ⟨ts, wm, u, wm', u', h1, h2, h3, h4, h5⟩ := later_step hl
    cases h1
    cases h3
    cases h5 with
    | choice h5 =>
    obtain ⟨i, hi⟩ := List.mem_iff_getElem?.1 ha
    obtain ⟨t1, g1, g2⟩ := each_index h5 i a.type (by rw [choices_plain hn, List.getElem?_map, hi]; rfl)
    exact outermost_nil h2 h4 (outermost_choices (List.mem_of_getElem? g1) (ih _ _ g2))
  | @automaticChoice mod as s i hn hi =>
    intro mod' t' hl
    obtain ⟨ts, wm, u, wm', u', h1, h2, h3, h4, h5⟩ := later_step hl
    cases h1
    cases h3
    cases h5 with
    | choice h5 =>
    obtain ⟨t1, g1, g2⟩ := each_index h5 i (.prefixed .contextSpecific i .automatic as[i].type) (by rw [choices_auto hn]; simp [hi])
    refine outermost_nil h2 h4 (outermost_choices (List.mem_of_getElem? g1) ?_)
    obtain ⟨ts, _, _, _, _, h1, h2, _⟩ := later_step g2
    cases h1 with
    | explicit_ => exact own_head h2
    | implicit => exact own_head h2
  | reference ht _ ih =>
    intro mod' t' hl
    obtain ⟨ts, wm, u, wm', u', h1, h2, h3, h4, h5⟩ := later_step hl
    cases h1 with
    | reference ht' h1 =>
    cases h3 with
    | here h => cases h
    | reference ht'' h3 =>
    rw [ht] at ht' ht''
    cases ht'
    cases ht''
    exact ih _ _ (later_of ⟨ts, wm, u, wm', u', h1, h2, h3, h4, h5⟩)

theorem begins_of_hasId {H : Holes} {added : List Slot → Prop} {lib : Lib} {old new : Tree} (hH : HolesBegin old H) {T : Ty} {mod mod' : Module} {t t' : AType}
    (hi : T.Is H lib old mod t ∨ H T mod t) (hl : Later added old new mod t mod' t') {v : BerView} (h : hasId T.outer v = true) : Begins new mod' t' v := by
  obtain ⟨i, h1, h2⟩ := hasId_iff.1 h
  obtain ⟨tag, h3, rfl⟩ := sub_outermost hH hi i h2
  exact ⟨tag, outermost_later h3 _ _ hl, h1⟩

theorem clash_of {tree : Tree} {mod : Module} {a b : AType} {v : BerView} (h1 : Begins tree mod a v) (h2 : Begins tree mod b v) : Clash tree mod a b := by
  obtain ⟨x, h1, h3⟩ := h1
  obtain ⟨y, h2, h4⟩ := h2
  rw [h3] at h4
  cases idOf_inj (Exec.ok.inj h4)
  exact ⟨x, h1, h2⟩

theorem distinct_tail {tree : Tree} {mod : Module} {s : Slot} {ss : List Slot} (h : SlotsDistinct tree mod (s :: ss)) : SlotsDistinct tree mod ss := by
  intro i j a b hij ha hb hk
  refine h (i + 1) (j + 1) a b (by omega) ha hb fun k c h1 h2 hc => ?_
  cases k with
  | zero => omega
  | succ k => exact hk k c (by omega) (by omega) hc

theorem setDistinct_tail {tree : Tree} {mod : Module} {s : Slot} {ss : List Slot} (h : SetSlotsDistinct tree mod (s :: ss)) : SetSlotsDistinct tree mod ss :=
  fun i j a b hij ha hb => h (i + 1) (j + 1) a b (by omega) ha hb

theorem setDistinct_head {tree : Tree} {mod : Module} {s : Slot} {ss : List Slot} (h : SetSlotsDistinct tree mod (s :: ss)) {u : Slot} (hu : u ∈ ss) :
    ¬ Clash tree mod s.type u.type := by
  obtain ⟨i, hi⟩ := List.mem_iff_getElem?.1 hu
  exact h 0 (i + 1) s u (by omega) rfl hi

theorem places_all {tree : Tree} (hL : Legal tree) {mod : Module} {n : Nat} (hn : n < 2 ^ 64) {ss : List Slot} {xs : List Val} {vs : List BerView}
    (h : Places (Sees tree mod n) ss xs vs) (hk : ∀ s ∈ ss, Known tree mod s.type) : ∀ v ∈ vs, ∃ s ∈ ss, Begins tree mod s.type v := by
  induction h with
  | nil => intro v h; cases h
  | mandatory h1 _ ih | present h1 _ ih =>
    intro v h
    rcases List.mem_cons.1 h with rfl | h
    · exact ⟨_, List.mem_cons_self, sees_begins hL hn (hk _ List.mem_cons_self) h1⟩
    · obtain ⟨s, h2, h3⟩ := ih (fun s hs => hk s (List.mem_cons_of_mem _ hs)) v h
      exact ⟨s, List.mem_cons_of_mem _ h2, h3⟩
  | absent _ ih =>
    intro v h
    obtain ⟨s, h2, h3⟩ := ih (fun s hs => hk s (List.mem_cons_of_mem _ hs)) v h
    exact ⟨s, List.mem_cons_of_mem _ h2, h3⟩

/-- The elements of the known components of a SET, among others. -/
theorem set_one {H : Holes} {added : List Slot → Prop} {lib : Lib} {old new : Tree} (hH : HolesBegin old H) (hL : Legal new) {T : Ty} {mod mod' : Module} {t : AType} {s' : Slot} {ss' : List Slot}
    (hi : T.Is H lib old mod t ∨ H T mod t) (hl : Later added old new mod t mod' s'.type) (hd : SetSlotsDistinct new mod' (s' :: ss')) {n : Nat} (hn : n < 2 ^ 64)
    {xs : List Val} {vs junk : List BerView} (hk : ∀ s ∈ ss', Known new mod' s.type) (hp : Places (Sees new mod' n) ss' xs vs)
    (hj : ∀ u ∈ junk, ∀ s ∈ s' :: ss', ¬ Begins new mod' s.type u) : (junk ++ vs).filter (hasId T.outer) = [] := by
  refine filter_none fun u hu => ?_
  cases hb : hasId T.outer u with
  | false => rfl
  | true =>
    have h1 := begins_of_hasId hH hi hl hb
    rcases List.mem_append.1 hu with h | h
    · exact (hj u h _ List.mem_cons_self h1).elim
    · obtain ⟨s, h2, h3⟩ := places_all hL hn hp hk u h
      exact (setDistinct_head hd h2 (clash_of h1 h3)).elim

/-! ## The theorem -/

theorem seen_wrapped {P : BerView → Prop} {e : Bytes} {v : BerView} (h : Seen e v) (hg : Good P e) : P v := h.2 P hg

theorem partEach_list {dropped : List Val → Prop} {old new : Tree} {mod mod' : Module} {t t' : AType} {R : Val → Val → Bytes → Prop} : ∀ {xs ys : List Val} {es : List Bytes},
    PartEach dropped old mod t xs ys → EncodesEach (definite readable) new mod' t' xs es →
    (∀ x y e, x ∈ xs → e ∈ es → Part dropped old mod t x y → Encodes (definite readable) new mod' t' x e → R x y e) → all2 (fun y e => ∃ x, R x y e) ys es := by
  intro xs
  induction xs with
  | nil => intro ys es h1 h2 _; cases h1; cases h2; trivial
  | cons x xs ih =>
    intro ys es h1 h2 hr
    cases h1 with
    | cons p1 p2 =>
      cases h2 with
      | cons q1 q2 => exact ⟨⟨x, hr _ _ _ List.mem_cons_self List.mem_cons_self p1 q1⟩, ih p2 q2 fun x y e hx he => hr x y e (List.mem_cons_of_mem _ hx) (List.mem_cons_of_mem _ he)⟩

theorem all2_mono {α β : Type} {R S : α → β → Prop} (h : ∀ a b, R a b → S a b) : ∀ {as : List α} {bs : List β}, all2 R as bs → all2 S as bs
  | [], [], _ => trivial
  | _ :: _, _ :: _, hr => ⟨h _ _ hr.1, all2_mono h hr.2⟩
  | [], _ :: _, hr => hr.elim
  | _ :: _, [], hr => hr.elim

mutual
theorem good_later {H : Holes} {added : List Slot → Prop} {dropped : List Val → Prop} {lib : Lib} {old new : Tree} (hL : Legal new) (hH : HolesBegin old H) {s : Nat}
    (hU : ∀ T mod t, H T mod t → ∀ mod' t' x y e, sizeOf x < s → Later added old new mod t mod' t' → Known new mod' t' → Part dropped old mod t x y →
      Encodes (definite readable) new mod' t' x e → e.length < 2 ^ 64 → Good (Read T y) e) : ∀ (T : Ty) (mod : Module) (t : AType) (mod' : Module) (t' : AType)
    (x y : Val) (e : Bytes), T.Is H lib old mod t → T.WF → T.Unamb → sizeOf x ≤ s → Later added old new mod t mod' t' → Known new mod' t' → Part dropped old mod t x y →
    Encodes (definite readable) new mod' t' x e → e.length < 2 ^ 64 → Good (Read T y) e
  | .leaf l id, mod, t, mod', t', x, y, e, ⟨⟨wm, k, hc, hl⟩, ts, ho, he⟩, hw, _, hs, hlt, hk, hp, h, hlen => by
    obtain ⟨_, _, _, wm', _, ho1, ho2, hc1, hc2, hb'⟩ := later_step hlt
    cases ho.unique ho1
    obtain ⟨rfl, rfl⟩ := hc.unique hc1
    cases hb' with
    | leaf =>
    cases hp with
    | intro hc3 hp =>
    obtain ⟨rfl, rfl⟩ := hc.unique hc3
    cases hp with
    | leaf =>
    obtain ⟨kk, c, hx, hwr⟩ := core_contents hc2 ho2 h
    cases hx with
    | leaf hk =>
      obtain ⟨hk1, hk2⟩ := hk
      refine (good_wrapped hw he hwr hlen (parse_of_noHugeTag hk2) (fun h => by cases h)).imp ?_
      rintro v hv ⟨w, h1, h2, h3⟩
      exact leaf_read hl hk1 h1 h2 h3
  | .seqOf id T, mod, t, mod', t', x, y, e, ⟨⟨wm, n, u, st, hc, hb⟩, ts, ho, he⟩, hw, hu, hs, hlt, hk, hp, h, hlen => by
    obtain ⟨_, _, _, wm', _, ho1, ho2, hc1, hc2, hb'⟩ := later_step hlt
    cases ho.unique ho1
    have hoc := hk.core _ _ hc2
    have key : ∀ u' xs ys es, (∀ x ∈ xs, sizeOf x < s) → Later added old new wm u wm' u' → Known new wm' u' → PartEach dropped old wm u xs ys → EncodesEach (definite readable) new wm' u' xs es →
        Wrapped (definite readable) ts .constructed es.flatten e → Good (Read (.seqOf id T) (.list ys)) e := by
      intro u' xs ys es hz hl hk hp hes hwr
      have hle := wrapped_length hwr
      obtain ⟨vs, a1, a2, a3⟩ := good_list ys es (all2_mono (fun y e h => by obtain ⟨x, h⟩ := h; exact h) (partEach_list (R := fun x y e => Good (Read T y) e) hp hes fun x y e' hxm hm hpx hx => by
        rcases hb with hb | hb
        · exact good_later hL hH hU T wm u wm' u' x y e' hb hw.2 hu (Nat.le_of_lt (hz x hxm)) hl hk hpx hx (by have := length_le_flatten hm; omega)
        · exact hU T wm u hb wm' u' x y e' (hz x hxm) hl hk hpx hx (by have := length_le_flatten hm; omega)))
      obtain ⟨b1, b2⟩ := all2_read a2
      refine (good_wrapped hw.1 he hwr hlen (Spec_sane_peek a3) fun _ => a3).imp ?_
      rintro v hv ⟨w, h1, h2, h3⟩
      refine ⟨⟨w, _, vs, ys, h1, h2, a1, rfl, b1⟩, ?_⟩
      rintro z ⟨w', bs, vs', zs, h1', h2', h3', rfl, h4'⟩
      cases matches_unique h1 h1'
      rw [h2] at h2'
      cases h2'
      cases a1.unique h3'
      rw [b2 zs h4']
    cases hp with
    | intro hc3 hp =>
    rcases hc with hc | hc
    · obtain ⟨rfl, rfl⟩ := hc.unique hc1
      obtain ⟨rfl, rfl⟩ := hc.unique hc3
      cases hb' with
      | seqOf hb' =>
      cases hp with
      | seqOf hp =>
      obtain ⟨kk, c, hx, hwr⟩ := core_contents hc2 ho2 h
      cases hx with
      | seqOf hes => exact key _ _ _ _ (sizeOf_list hs) hb' (known_of_occurs hL (.seqOf hoc)) hp hes hwr
    · obtain ⟨rfl, rfl⟩ := hc.unique hc1
      obtain ⟨rfl, rfl⟩ := hc.unique hc3
      cases hb' with
      | setOf hb' =>
      cases hp with
      | setOf hp =>
      obtain ⟨kk, c, hx, hwr⟩ := core_contents hc2 ho2 h
      cases hx with
      | setOf hes => exact key _ _ _ _ (sizeOf_list hs) hb' (known_of_occurs hL (.setOf hoc)) hp hes hwr
  | .seq id fs, mod, t, mod', t', x, y, e, ⟨⟨wm, cs, ext, hc, hb⟩, ts, ho, he⟩, hw, hu, hs, hlt, hk, hp, h, hlen => by
    obtain ⟨_, _, _, wm', _, ho1, ho2, hc1, hc2, hb'⟩ := later_step hlt
    cases ho.unique ho1
    have hoc := hk.core _ _ hc2
    obtain ⟨rfl, rfl⟩ := hc.unique hc1
    cases hb' with
    | @sequence _ _ cs' _ hb' =>
    cases hp with
    | intro hc3 hp =>
    obtain ⟨rfl, rfl⟩ := hc.unique hc3
    cases hp with
    | sequence hp =>
    obtain ⟨kk, c, hx, hwr⟩ := core_contents hc2 ho2 h
    cases hx with
    | @sequence _ _ _ xs es hes =>
      have hle := wrapped_length hwr
      have hkn : ∀ s ∈ slots wm' cs', Known new wm' s.type := fun s hs => known_sequence hL hoc hs
      have hge : ∀ e' ∈ es, e'.length ≤ es.flatten.length := fun e' hm => length_le_flatten hm
      have hgood := encodesSlots_good hL hkn hes fun e' hm => by have := hge e' hm; omega
      obtain ⟨vs, a3, a4⟩ := elements_seen es hgood
      have a5 := sane_flatten hgood
      obtain ⟨b1, b2⟩ := seq_later hL hH hU fs ext wm _ wm' _ _ _ vs es.flatten.length (by omega) hb hw.2 hu.2 (sizeOf_list hs) hb' hkn (hL.sequences _ _ _ hoc) hp
        (places_of (by omega) hL hkn hes hge vs a4)
      refine (good_wrapped hw.1 he hwr hlen (Spec_sane_peek a5) fun _ => a5).imp ?_
      rintro v hv ⟨w, h1, h2, h3⟩
      refine ⟨⟨w, _, vs, _, h1, h2, a3, rfl, b1⟩, ?_⟩
      rintro z ⟨w', bs, vs', zs, h1', h2', h3', rfl, h4'⟩
      cases matches_unique h1 h1'
      rw [h2] at h2'
      cases h2'
      cases a3.unique h3'
      rw [b2 zs h4']
  | .set id ext fs, mod, t, mod', t', x, y, e, ⟨⟨wm, cs, hc, hb⟩, ts, ho, he⟩, hw, hu, hs, hlt, hk, hp, h, hlen => by
    obtain ⟨_, _, _, wm', _, ho1, ho2, hc1, hc2, hb'⟩ := later_step hlt
    cases ho.unique ho1
    have hoc := hk.core _ _ hc2
    obtain ⟨rfl, rfl⟩ := hc.unique hc1
    cases hb' with
    | @set _ _ cs' _ hb' =>
    cases hp with
    | intro hc3 hp =>
    obtain ⟨rfl, rfl⟩ := hc.unique hc3
    cases hp with
    | set hp =>
    obtain ⟨kk, c, hx, hwr⟩ := core_contents hc2 ho2 h
    cases hx with
    | @set _ _ _ xs es es' hes hperm =>
      have hle := wrapped_length hwr
      have hkn : ∀ s ∈ slots wm' cs', Known new wm' s.type := fun s hs => known_set hL hoc hs
      have hge : ∀ e' ∈ es, e'.length ≤ es'.flatten.length := fun e' hm => length_le_flatten (hperm.mem_iff.1 hm)
      have hgood' := encodesSlots_good hL hkn hes fun e' hm => by have := hge e' hm; omega
      have hgood : ∀ e ∈ es', e ≠ [] → Good (fun _ => True) e := fun e hm => hgood' e (hperm.mem_iff.2 hm)
      obtain ⟨vs, a3, a4⟩ := elements_seen es' hgood
      have a5 := sane_flatten hgood
      obtain ⟨vs0, p3, p4⟩ := all2_perm (hperm.filter fun e => !e.isEmpty).symm a4
      obtain ⟨b1, b2, bk⟩ := set_later hL hH hU fs ext wm _ wm' _ _ _ vs0 es'.flatten.length (by omega) hb hw.2 hu.2 (sizeOf_list hs) hb' hkn (hL.sets _ _ _ hoc) hp
        (places_of (by omega) hL hkn hes hge vs0 p4) [] (fun u h => by cases h)
      rw [List.nil_append] at b1 b2
      refine (good_wrapped hw.1 he hwr hlen (Spec_sane_peek a5) fun _ => a5).imp ?_
      rintro v hv ⟨w, h1, h2, h3⟩
      refine ⟨⟨w, _, vs, _, h1, h2, a3, rfl, readsSet_perm fs p3.symm b1, fun u hu' => ?_⟩, ?_⟩
      · cases ext with
        | true => exact .inl rfl
        | false => exact .inr (.inr (bk rfl u (p3.mem_iff.1 hu')))
      rintro z ⟨w', bs, vs', zs, h1', h2', h3', rfl, h4', _⟩
      cases matches_unique h1 h1'
      rw [h2] at h2'
      cases h2'
      cases a3.unique h3'
      rw [b2 zs (readsSet_perm fs p3 h4')]
  | .choice (.untagged ids) as, mod, t, mod', t', x, y, e, ⟨⟨wm, as', _, hc, hb, _⟩, ts, ho, he⟩, hw, hu, hs, hlt, hk, hp, h, hlen => by
    obtain ⟨_, _, _, wm', _, ho1, ho2, hc1, hc2, hb'⟩ := later_step hlt
    cases ho.unique ho1
    have hoc := hk.core _ _ hc2
    obtain ⟨rfl, rfl⟩ := hc.unique hc1
    cases hb' with
    | @choice _ _ as2 _ _ hb' =>
    cases hp with
    | intro hc3 hp =>
    obtain ⟨rfl, rfl⟩ := hc.unique hc3
    cases hp with
    | @choice _ _ _ i u _ _ hi hp =>
    obtain ⟨kk, c, hx, hwr⟩ := core_contents hc2 ho2 h
    cases hx with
    | @choice _ _ _ _ u' _ _ hi' hes =>
      have : ts = [] := by
        cases ts with
        | nil => rfl
        | cons => cases he
      subst this
      cases hwr
      refine (alt_later hL hH hU as wm _ wm' _ i u u' _ _ e hb hw.2.1 hu.2 (sizeOf_alt hs) hb' (fun t ht => known_choice hL hoc ht) hi hi' hp hes hlen).imp ?_
      rintro v hv ⟨h1, h2⟩
      refine ⟨⟨i, _, rfl, h1⟩, ?_⟩
      rintro z ⟨j, y', rfl, h3⟩
      cases alts_index as hu.1 i j v _ y' hv h1 h3
      rw [h2 y' h3]
  | .choice (.tagged id) as, mod, t, mod', t', x, y, e, ⟨⟨wm, as', _, hc, hb, _⟩, ts, ho, he⟩, hw, hu, hs, hlt, hk, hp, h, hlen => by
    obtain ⟨_, _, _, wm', _, ho1, ho2, hc1, hc2, hb'⟩ := later_step hlt
    cases ho.unique ho1
    have hoc := hk.core _ _ hc2
    obtain ⟨rfl, rfl⟩ := hc.unique hc1
    cases hb' with
    | @choice _ _ as2 _ _ hb' =>
    cases hp with
    | intro hc3 hp =>
    obtain ⟨rfl, rfl⟩ := hc.unique hc3
    cases hp with
    | @choice _ _ _ i u _ _ hp0 hp =>
    obtain ⟨kk, c, hx, hwr⟩ := core_contents hc2 ho2 h
    cases hx with
    | @choice _ _ _ _ u' _ _ hi' hes =>
      have hle := wrapped_length hwr
      have hg := alt_later hL hH hU as wm _ wm' _ i u u' _ _ c hb hw.2.1 hu.2 (sizeOf_alt hs) hb' (fun t ht => known_choice hL hoc ht) hp0 hi' hp hes (by omega)
      refine (good_wrapped hw.1 he hwr hlen (Spec_sane_peek hg.sane) fun _ => hg.sane).imp ?_
      rintro v hv ⟨w, h1, h2, h3⟩
      obtain ⟨v', a1, a2, _, ⟨a3, a4⟩, _⟩ := hg [] sane_nil
      rw [List.append_nil] at a1
      refine ⟨⟨w, c, v', i, _, h1, h2, a1, a2, rfl, a3⟩, ?_⟩
      rintro z ⟨w', bs, v'', j, y', h1', h2', h3', _, rfl, h4'⟩
      cases matches_unique h1 h1'
      rw [h2] at h2'
      cases h2'
      rw [a1] at h3'
      cases h3'
      cases alts_index as hu.1 i j v' _ y' a2 a3 h4'
      rw [a4 y' h4']
theorem seq_later {H : Holes} {added : List Slot → Prop} {dropped : List Val → Prop} {lib : Lib} {old new : Tree} (hL : Legal new) (hH : HolesBegin old H) {s : Nat}
    (hU : ∀ T mod t, H T mod t → ∀ mod' t' x y e, sizeOf x < s → Later added old new mod t mod' t' → Known new mod' t' → Part dropped old mod t x y →
      Encodes (definite readable) new mod' t' x e → e.length < 2 ^ 64 → Good (Read T y) e) : ∀ (fs : Fields) (ext : Bool) (mod : Module) (ss : List Slot) (mod' : Module) (ss' : List Slot)
    (xs ys : List Val) (vs : List BerView) (n : Nat), n < 2 ^ 64 → fs.Body H lib old false mod ss → fs.WF → fs.AllUnamb → (∀ x ∈ xs, sizeOf x < s) → LaterSlots added (fun t t' => Later added old new mod t mod' t') ext ss ss' →
    (∀ s ∈ ss', Known new mod' s.type) → SlotsDistinct new mod' ss' → PartSlots dropped old mod ss xs ys → Places (Sees new mod' n) ss' xs vs →
    fs.ReadsSeq vs ys ∧ ∀ zs, fs.ReadsSeq vs zs → zs = ys
  | .nil, _, _, _, _, _, _, ys, _, _, _, hb, _, _, _, _, _, _, hp, _ => by
    cases hb
    cases hp
    exact ⟨rfl, fun zs h => h⟩
  | .cons k ls T rest, ext, mod, ss, mod', ss', xs, ys, vs, n, hn, hb, hw, hu, hz, hl, hkn, hd, hp, hpl => by
    obtain ⟨sl, ss1, rfl, hk, _, h12, h3⟩ := hb
    obtain ⟨ab, st⟩ := sl
    cases hl with
    | @cons _ _ _ t' _ ss2 hl1 hl2 =>
    have hkn' : ∀ s ∈ ss2, Known new mod' s.type := fun s hs => hkn s (List.mem_cons_of_mem _ hs)
    have one : ∀ x y v, sizeOf x < s → Part dropped old mod st x y → Sees new mod' n t' x v → ReadV T y v := by
      rintro x y v hsx hpx ⟨e, hx, hle, hse⟩
      refine ⟨hse.2 _ ?_, hse.1⟩
      rcases h12 with h1 | h1
      · exact good_later hL hH hU T mod st mod' t' x y e h1 hw.1 hu.1 (Nat.le_of_lt hsx) hl1 (hkn _ List.mem_cons_self) hpx hx (by omega)
      · exact hU T mod st h1 mod' t' x y e hsx hl1 (hkn _ List.mem_cons_self) hpx hx (by omega)
    cases hp with
    | @mandatory _ _ _ x y xs ys hpx hps =>
      cases hpl with
      | @mandatory _ _ _ _ v vs hs hpl =>
      obtain ⟨a1, a2⟩ := seq_later hL hH hU rest ext mod ss1 mod' ss2 xs ys vs n hn h3 hw.2.2 hu.2 (fun x hx => hz x (List.mem_cons_of_mem _ hx)) hl2 hkn' (distinct_tail hd) hps hpl
      have hr := one x y v (hz _ List.mem_cons_self) hpx hs
      have hkm : k = .mandatory := by
        cases k with
        | mandatory => rfl
        | optional => cases hk
        | default d => cases hk.1
      subst hkm
      refine ⟨⟨y, ys, vs, rfl, ⟨v, rfl, hr.1.reads⟩, a1⟩, ?_⟩
      rintro zs ⟨z, zs', vs', rfl, ⟨v', hv, hy⟩, hrs⟩
      cases hv
      rw [hr.1.only z hy, a2 _ hrs]
    | @present _ _ _ x y xs ys hpx hps =>
      have hkm : k ≠ .mandatory := by
        rintro rfl
        cases hk
      cases hpl with
      | @present _ _ _ _ v vs hs hpl =>
      obtain ⟨a1, a2⟩ := seq_later hL hH hU rest ext mod ss1 mod' ss2 xs ys vs n hn h3 hw.2.2 hu.2 (fun x hx => hz x (List.mem_cons_of_mem _ hx)) hl2 hkn' (distinct_tail hd) hps hpl
      have hr := one x y v (by have := hz _ List.mem_cons_self; rw [Val.present.sizeOf_spec] at this; omega) hpx hs
      have ho := T.reads_outer v y hr.1.reads hr.2
      refine ⟨⟨.present y, ys, vs, rfl, (compReadsSeq_opt hkm).2 (.inr ⟨v, y, rfl, ho, rfl, hr.1.reads⟩), a1⟩, ?_⟩
      rintro zs ⟨z, zs', vs', rfl, hc, hrs⟩
      rcases (compReadsSeq_opt hkm).1 hc with ⟨_, _, hn⟩ | ⟨v', x', hv, _, rfl, hy⟩
      · rw [hn v vs rfl] at ho; cases ho
      · cases hv
        rw [hr.1.only x' hy, a2 _ hrs]
    | @absent _ _ _ xs ys hps =>
      have hkm : k ≠ .mandatory := by
        rintro rfl
        cases hk
      cases hpl with
      | absent hpl =>
      obtain ⟨a1, a2⟩ := seq_later hL hH hU rest ext mod ss1 mod' ss2 xs ys vs n hn h3 hw.2.2 hu.2 (fun x hx => hz x (List.mem_cons_of_mem _ hx)) hl2 hkn' (distinct_tail hd) hps hpl
      have hno : ∀ v vs', vs = v :: vs' → hasId T.outer v = false := by
        intro v vs' hv
        cases hb : hasId T.outer v with
        | false => rfl
        | true =>
          obtain ⟨j, s, g1, g2, g3⟩ := places_first hL hn hpl hkn' v vs' hv
          refine (hd 0 (j + 1) _ s (by omega) rfl g1 (fun k c _ hkj hc => ?_) (clash_of (begins_of_hasId hH h12 hl1 hb) g3)).elim
          cases k with
          | zero => cases hc; rfl
          | succ k => exact g2 k c (by omega) hc
      refine ⟨⟨.absent, ys, vs, rfl, (compReadsSeq_opt hkm).2 (.inl ⟨rfl, rfl, hno⟩), a1⟩, ?_⟩
      rintro zs ⟨z, zs', vs', rfl, hc, hrs⟩
      rcases (compReadsSeq_opt hkm).1 hc with ⟨rfl, rfl, _⟩ | ⟨v', x', hv, ho, rfl, hy⟩
      · rw [a2 _ hrs]
      · rw [hno v' vs' hv] at ho; cases ho
theorem set_later {H : Holes} {added : List Slot → Prop} {dropped : List Val → Prop} {lib : Lib} {old new : Tree} (hL : Legal new) (hH : HolesBegin old H) {s : Nat}
    (hU : ∀ T mod t, H T mod t → ∀ mod' t' x y e, sizeOf x < s → Later added old new mod t mod' t' → Known new mod' t' → Part dropped old mod t x y →
      Encodes (definite readable) new mod' t' x e → e.length < 2 ^ 64 → Good (Read T y) e) : ∀ (fs : Fields) (ext : Bool) (mod : Module) (ss : List Slot) (mod' : Module) (ss' : List Slot)
    (xs ys : List Val) (vs : List BerView) (n : Nat), n < 2 ^ 64 → fs.Body H lib old true mod ss → fs.WF → fs.AllUnamb → (∀ x ∈ xs, sizeOf x < s) → LaterSlots added (fun t t' => Later added old new mod t mod' t') ext ss ss' →
    (∀ s ∈ ss', Known new mod' s.type) → SetSlotsDistinct new mod' ss' → PartSlots dropped old mod ss xs ys → Places (Sees new mod' n) ss' xs vs →
    ∀ junk, (∀ u ∈ junk, ∀ s ∈ ss', ¬ Begins new mod' s.type u) →
    fs.ReadsSet (junk ++ vs) ys ∧ (∀ zs, fs.ReadsSet (junk ++ vs) zs → zs = ys) ∧ (ext = false → ∀ u ∈ vs, hasId fs.outer u = true)
  | .nil, ext, _, _, _, _, _, ys, _, _, _, hb, _, _, _, hl, _, _, hp, hpl, junk, _ => by
    cases hb
    cases hp
    refine ⟨rfl, fun zs h => h, ?_⟩
    rintro rfl
    cases hl
    cases hpl
    intro u h
    cases h
  | .cons k ls T rest, ext, mod, ss, mod', ss', xs, ys, vs, n, hn, hb, hw, hu, hz, hl, hkn, hd, hp, hpl, junk, hj => by
    obtain ⟨sl, ss1, rfl, hk, _, h12, h3⟩ := hb
    obtain ⟨ab, st⟩ := sl
    cases hl with
    | @cons _ _ _ t' _ ss2 hl1 hl2 =>
    have hkn' : ∀ s ∈ ss2, Known new mod' s.type := fun s hs => hkn s (List.mem_cons_of_mem _ hs)
    have one : ∀ x y v, sizeOf x < s → Part dropped old mod st x y → Sees new mod' n t' x v → ReadV T y v := by
      rintro x y v hsx hpx ⟨e, hx, hle, hse⟩
      refine ⟨hse.2 _ ?_, hse.1⟩
      rcases h12 with h1 | h1
      · exact good_later hL hH hU T mod st mod' t' x y e h1 hw.1 hu.1 (Nat.le_of_lt hsx) hl1 (hkn _ List.mem_cons_self) hpx hx (by omega)
      · exact hU T mod st h1 mod' t' x y e hsx hl1 (hkn _ List.mem_cons_self) hpx hx (by omega)
    have filt : ∀ x y v xs vs, ReadV T y v → Sees new mod' n t' x v → Places (Sees new mod' n) ss2 xs vs → hasId T.outer v = true ∧
        (junk ++ v :: vs).filter (hasId T.outer) = [v] ∧ ∀ u ∈ junk ++ [v], ∀ s ∈ ss2, ¬ Begins new mod' s.type u := by
      intro x y v xs vs hr hs hpl
      have ho := T.reads_outer v y hr.1.reads hr.2
      refine ⟨ho, ?_, ?_⟩
      · have := set_one hH hL h12 hl1 hd hn hkn' hpl hj
        rw [List.filter_append] at this ⊢
        obtain ⟨g1, g2⟩ := List.append_eq_nil_iff.1 this
        rw [g1, List.filter_cons_of_pos ho, g2]
        rfl
      · intro u hu s hs'
        rcases List.mem_append.1 hu with h | h
        · exact hj u h s (List.mem_cons_of_mem _ hs')
        · cases List.mem_singleton.1 h
          exact fun hb => setDistinct_head hd hs' (clash_of (sees_begins hL hn (hkn _ List.mem_cons_self) hs) hb)
    have hsplit : ∀ (v : BerView) vs, junk ++ v :: vs = (junk ++ [v]) ++ vs := by simp
    cases hp with
    | @mandatory _ _ _ x y xs ys hpx hps =>
      cases hpl with
      | @mandatory _ _ _ _ v vs hs hpl =>
      have hr := one x y v (hz _ List.mem_cons_self) hpx hs
      obtain ⟨ho, hf, hj'⟩ := filt x y v xs vs hr hs hpl
      obtain ⟨b1, b2, b3⟩ := set_later hL hH hU rest ext mod ss1 mod' ss2 xs ys vs n hn h3 hw.2.2 hu.2 (fun x hx => hz x (List.mem_cons_of_mem _ hx)) hl2 hkn' (setDistinct_tail hd) hps hpl (junk ++ [v]) hj'
      have hkm : k = .mandatory := by
        cases k with
        | mandatory => rfl
        | optional => cases hk
        | default d => cases hk.1
      subst hkm
      refine ⟨⟨y, ys, rfl, ⟨v, hf, hr.1.reads⟩, by rw [hsplit]; exact b1⟩, ?_, ?_⟩
      · rintro zs ⟨z, zs', rfl, ⟨v', hv, hy⟩, hrs⟩
        rw [hf] at hv
        cases hv
        rw [hsplit] at hrs
        rw [hr.1.only z hy, b2 _ hrs]
      · intro he u hu'
        rw [outer_cons]
        rcases List.mem_cons.1 hu' with rfl | h
        · simp [ho]
        · simp [b3 he u h]
    | @present _ _ _ x y xs ys hpx hps =>
      have hkm : k ≠ .mandatory := by
        rintro rfl
        cases hk
      cases hpl with
      | @present _ _ _ _ v vs hs hpl =>
      have hr := one x y v (by have := hz _ List.mem_cons_self; rw [Val.present.sizeOf_spec] at this; omega) hpx hs
      obtain ⟨ho, hf, hj'⟩ := filt x y v xs vs hr hs hpl
      obtain ⟨b1, b2, b3⟩ := set_later hL hH hU rest ext mod ss1 mod' ss2 xs ys vs n hn h3 hw.2.2 hu.2 (fun x hx => hz x (List.mem_cons_of_mem _ hx)) hl2 hkn' (setDistinct_tail hd) hps hpl (junk ++ [v]) hj'
      refine ⟨⟨.present y, ys, rfl, (compReadsSet_opt hkm).2 (.inr ⟨v, y, hf, rfl, hr.1.reads⟩), by rw [hsplit]; exact b1⟩, ?_, ?_⟩
      · rintro zs ⟨z, zs', rfl, hc, hrs⟩
        rw [hsplit] at hrs
        rcases (compReadsSet_opt hkm).1 hc with ⟨hv, _⟩ | ⟨v', x', hv, rfl, hy⟩
        · rw [hf] at hv; cases hv
        · rw [hf] at hv
          cases hv
          rw [hr.1.only x' hy, b2 _ hrs]
      · intro he u hu'
        rw [outer_cons]
        rcases List.mem_cons.1 hu' with rfl | h
        · simp [ho]
        · simp [b3 he u h]
    | @absent _ _ _ xs ys hps =>
      have hkm : k ≠ .mandatory := by
        rintro rfl
        cases hk
      cases hpl with
      | absent hpl =>
      have hf := set_one hH hL h12 hl1 hd hn hkn' hpl hj
      obtain ⟨b1, b2, b3⟩ := set_later hL hH hU rest ext mod ss1 mod' ss2 xs ys vs n hn h3 hw.2.2 hu.2 (fun x hx => hz x (List.mem_cons_of_mem _ hx)) hl2 hkn' (setDistinct_tail hd) hps hpl junk
        (fun u h s hs => hj u h s (List.mem_cons_of_mem _ hs))
      refine ⟨⟨.absent, ys, rfl, (compReadsSet_opt hkm).2 (.inl ⟨hf, rfl⟩), b1⟩, ?_, ?_⟩
      · rintro zs ⟨z, zs', rfl, hc, hrs⟩
        rcases (compReadsSet_opt hkm).1 hc with ⟨_, rfl⟩ | ⟨v', x', hv, rfl, hy⟩
        · rw [b2 _ hrs]
        · rw [hf] at hv; cases hv
      · intro he u hu'
        rw [outer_cons]
        simp [b3 he u hu']
theorem alt_later {H : Holes} {added : List Slot → Prop} {dropped : List Val → Prop} {lib : Lib} {old new : Tree} (hL : Legal new) (hH : HolesBegin old H) {s : Nat}
    (hU : ∀ T mod t, H T mod t → ∀ mod' t' x y e, sizeOf x < s → Later added old new mod t mod' t' → Known new mod' t' → Part dropped old mod t x y →
      Encodes (definite readable) new mod' t' x e → e.length < 2 ^ 64 → Good (Read T y) e) : ∀ (as : Alts) (mod : Module) (ts : List AType) (mod' : Module) (ts' : List AType)
    (i : Nat) (t u : AType) (x y : Val) (e : Bytes), as.Body H lib old mod ts → as.WF → as.AllUnamb → sizeOf x < s → LaterEach (fun t t' => Later added old new mod t mod' t') ts ts' →
    (∀ t ∈ ts', Known new mod' t) → ts[i]? = some t → ts'[i]? = some u → Part dropped old mod t x y → Encodes (definite readable) new mod' u x e → e.length < 2 ^ 64 →
    Good (fun v => as.Reads i v y ∧ ∀ z, as.Reads i v z → z = y) e
  | .nil, _, _, _, _, i, _, _, _, _, _, hb, _, _, _, _, _, ht, _, _, _, _ => by cases hb; cases ht
  | .cons ls T rest, mod, ts, mod', ts', i, t, u, x, y, e, hb, hw, hun, hs, hl, hkn, ht, hu, hp, h, hlen => by
    obtain ⟨t1, ts1, rfl, _, h12, h3⟩ := hb
    cases hl with
    | @cons _ t' _ ts2 hl1 hl2 =>
    cases i with
    | zero =>
      cases ht
      cases hu
      refine Good.imp ?_ fun v _ hr => ⟨Read.reads hr, Read.only hr⟩
      rcases h12 with h1 | h1
      · exact good_later hL hH hU T mod _ mod' _ x y e h1 hw.1 hun.1 (Nat.le_of_lt hs) hl1 (hkn _ List.mem_cons_self) hp h hlen
      · exact hU T mod _ h1 mod' _ x y e hs hl1 (hkn _ List.mem_cons_self) hp h hlen
    | succ i => exact alt_later hL hH hU rest mod ts1 mod' ts2 i t u x y e h3 hw.2 hun.2 hs hl2 (fun t ht => hkn t (List.mem_cons_of_mem _ ht)) ht hu hp h hlen
end

/-! ## Values of the old version as values of the new one -/

theorem slots_absent {r : Rules} {tree : Tree} {mod : Module} : ∀ (ss : List Slot), MayBeLeftOut ss →
    EncodesSlots r tree mod ss (List.replicate ss.length .absent) (List.replicate ss.length [])
  | [], _ => .nil _
  | ⟨b, t⟩ :: ss, h => by
    have : b = true := h _ List.mem_cons_self
    subst this
    exact .absent (slots_absent ss fun s hs => h s (List.mem_cons_of_mem _ hs))

theorem flatten_nils (n : Nat) : (List.replicate n ([] : Bytes)).flatten = [] := by
  induction n with
  | zero => rfl
  | succ n ih => rw [List.replicate_succ, List.flatten_cons, ih]; rfl

/-- Octets that encode a value of the old version encode a value of the new one whose additional components are absent. -/
theorem encodes_later {r : Rules} {old new : Tree} {mod : Module} {t : AType} {y : Val} {e : Bytes} (h : Encodes r old mod t y e) :
    ∀ mod' t', Later MayBeLeftOut old new mod t mod' t' → ∃ x, Part NothingIn old mod t x y ∧ Encodes r new mod' t' x e := by
  refine Encodes.rec (r := r) (tree := old)
    (motive_1 := fun mod t y e _ => ∀ mod' t', Later MayBeLeftOut old new mod t mod' t' → ∃ x, Part NothingIn old mod t x y ∧ Encodes r new mod' t' x e)
    (motive_2 := fun mod t y k c _ => ∀ mod' t', LaterOf MayBeLeftOut (Later MayBeLeftOut old new) mod t mod' t' → ∃ x, PartOf NothingIn old mod t x y ∧ Contents r new mod' t' x k c)
    (motive_3 := fun mod t ys es _ => ∀ mod' t', Later MayBeLeftOut old new mod t mod' t' → ∃ xs, PartEach NothingIn old mod t xs ys ∧ EncodesEach r new mod' t' xs es)
    (motive_4 := fun mod ss ys es _ => ∀ ext mod' ss', LaterSlots MayBeLeftOut (fun t t' => Later MayBeLeftOut old new mod t mod' t') ext ss ss' →
      ∃ xs n, PartSlots NothingIn old mod ss xs ys ∧ EncodesSlots r new mod' ss' xs (es ++ List.replicate n []))
    ?_ ?_ ?_ ?_ ?_ ?_ ?_ ?_ ?_ ?_ ?_ ?_ ?_ h
  · intro mod wm t u ts y k c e ho hc _ hw ih mod' t' hl
    obtain ⟨_, _, _, _, _, ho1, ho2, hc1, hc2, hb⟩ := later_step hl
    cases ho.unique ho1
    obtain ⟨rfl, rfl⟩ := hc.unique hc1
    obtain ⟨x, h1, h2⟩ := ih _ _ hb
    exact ⟨x, .intro hc h1, .intro ho2 hc2 h2 hw⟩
  · intro mod k c hr mod' t' hl
    cases hl
    exact ⟨_, .leaf _ _ _, .leaf hr⟩
  · intro mod n t s ys es _ ih mod' t' hl
    cases hl with
    | seqOf hl =>
    obtain ⟨xs, h1, h2⟩ := ih _ _ hl
    exact ⟨_, .seqOf h1, .seqOf h2⟩
  · intro mod n t s ys es _ ih mod' t' hl
    cases hl with
    | setOf hl =>
    obtain ⟨xs, h1, h2⟩ := ih _ _ hl
    exact ⟨_, .setOf h1, .setOf h2⟩
  · intro mod cs ext ys es _ ih mod' t' hl
    cases hl with
    | sequence hl =>
    obtain ⟨xs, n, h1, h2⟩ := ih _ _ _ hl
    refine ⟨_, .sequence h1, ?_⟩
    have := Contents.sequence (r := r) (tree := new) (ext := ext) h2
    rwa [List.flatten_append, flatten_nils, List.append_nil] at this
  · intro mod cs ext ys es es' _ hp ih mod' t' hl
    cases hl with
    | set hl =>
    obtain ⟨xs, n, h1, h2⟩ := ih _ _ _ hl
    refine ⟨_, .set h1, ?_⟩
    have := Contents.set (r := r) (tree := new) (ext := ext) h2 (hp.append_right (List.replicate n []))
    rwa [List.flatten_append, flatten_nils, List.append_nil] at this
  · intro mod as s i t y e hi _ ih mod' t' hl
    cases hl with
    | choice hl =>
    obtain ⟨t1, hi', hl1⟩ := each_index hl i t hi
    obtain ⟨x, h1, h2⟩ := ih _ _ hl1
    exact ⟨_, .choice hi h1, .choice hi' h2⟩
  · intro mod t mod' t' _
    exact ⟨[], .nil _ _, .nil _ _⟩
  · intro mod t y e ys es _ _ ih1 ih2 mod' t' hl
    obtain ⟨x, h1, h2⟩ := ih1 _ _ hl
    obtain ⟨xs, h3, h4⟩ := ih2 _ _ hl
    exact ⟨_, .cons h1 h3, .cons h2 h4⟩
  · intro mod ext mod' ss' hl
    cases hl with
    | same => exact ⟨[], 0, .nil _ (fun _ h => by cases h), .nil _⟩
    | more ha => exact ⟨_, _, .nil _ (fun x hx => List.eq_of_mem_replicate hx), slots_absent ss' ha⟩
  · intro mod t ss y e ys es _ _ ih1 ih2 ext mod' ss' hl
    cases hl with
    | cons hl1 hl2 =>
    obtain ⟨x, h1, h2⟩ := ih1 _ _ hl1
    obtain ⟨xs, n, h3, h4⟩ := ih2 _ _ _ hl2
    exact ⟨_, n, .mandatory h1 h3, .mandatory h2 h4⟩
  · intro mod t ss y e ys es _ _ ih1 ih2 ext mod' ss' hl
    cases hl with
    | cons hl1 hl2 =>
    obtain ⟨x, h1, h2⟩ := ih1 _ _ hl1
    obtain ⟨xs, n, h3, h4⟩ := ih2 _ _ _ hl2
    exact ⟨_, n, .present h1 h3, .present h2 h4⟩
  · intro mod t ss ys es _ ih2 ext mod' ss' hl
    cases hl with
    | cons hl1 hl2 =>
    obtain ⟨xs, n, h3, h4⟩ := ih2 _ _ _ hl2
    exact ⟨_, n, .absent h3, .absent h4⟩

end FastBer.Ast.Evo
