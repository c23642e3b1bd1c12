import Verif.Proofs.DecodeElement
import Verif.Proofs.EncodeHold
import Verif.Proofs.SchemaSafeSet
/-!
# Every X.690 encoding of a value of the ASN.1 type reads as that value, and no other
-/
namespace FastBer.Ast
open Spec FastBer.Spec

/-- The element stands for this value only. -/
structure Read (T : Ty) (x : Val) (v : BerView) : Prop where
  reads : T.Reads v x
  only : ∀ y, T.Reads v y → y = x

/-- Things that go with the components that are present, in order. -/
inductive Along {α : Type} (R : Ty → Val → α → Prop) : Fields → List Val → List α → Prop where
  | nil : Along R .nil [] []
  | mandatory {ls : List Id} {T : Ty} {rest : Fields} {x : Val} {xs : List Val} {a : α} {as : List α} :
      R T x a → Along R rest xs as → Along R (.cons .mandatory ls T rest) (x :: xs) (a :: as)
  | present {k : Kind} {ls : List Id} {T : Ty} {rest : Fields} {x : Val} {xs : List Val} {a : α} {as : List α} :
      k ≠ .mandatory → R T x a → Along R rest xs as → Along R (.cons k ls T rest) (.present x :: xs) (a :: as)
  | absent {k : Kind} {ls : List Id} {T : Ty} {rest : Fields} {xs : List Val} {as : List α} :
      k ≠ .mandatory → Along R rest xs as → Along R (.cons k ls T rest) (.absent :: xs) as

/-- What holds of the element of a component. -/
def ReadV (T : Ty) (x : Val) (v : BerView) : Prop := Read T x v ∧ v.valid = true

theorem along_split {fs : Fields} {xs : List Val} {es : List Bytes} (h : Along (fun T x e => Good (Read T x) e) fs xs es) :
    ∃ Ps : List (BerView → Prop), all2 (fun e P => Good P e) es Ps ∧ ∀ vs, all2 (fun v (P : BerView → Prop) => P v ∧ v.valid = true) vs Ps → Along ReadV fs xs vs := by
  induction h with
  | nil =>
    refine ⟨[], trivial, fun vs h => ?_⟩
    cases vs with
    | nil => exact .nil
    | cons => cases h
  | @mandatory ls T rest x xs a as h1 _ ih =>
    obtain ⟨Ps, h2, h3⟩ := ih
    refine ⟨Read T x :: Ps, ⟨h1, h2⟩, fun vs h => ?_⟩
    cases vs with
    | nil => cases h
    | cons v vs => exact .mandatory h.1 (h3 vs h.2)
  | @present k ls T rest x xs a as hk h1 _ ih =>
    obtain ⟨Ps, h2, h3⟩ := ih
    refine ⟨Read T x :: Ps, ⟨h1, h2⟩, fun vs h => ?_⟩
    cases vs with
    | nil => cases h
    | cons v vs => exact .present hk h.1 (h3 vs h.2)
  | absent hk _ ih =>
    obtain ⟨Ps, h2, h3⟩ := ih
    exact ⟨Ps, h2, fun vs h => .absent hk (h3 vs h)⟩

theorem hasId_false {l : List Id} {v : BerView} (h : ∀ i, v.identifier = .ok i → i ∉ l) : hasId l v = false := by
  cases hb : hasId l v with
  | false => rfl
  | true =>
    obtain ⟨i, h1, h2⟩ := hasId_iff.1 hb
    exact absurd h2 (h i h1)

theorem firsts_opt {k : Kind} (hk : k ≠ .mandatory) (ls : List Id) (T : Ty) (rest : Fields) : (Fields.cons k ls T rest).firsts = T.outer ++ rest.firsts := by
  cases k with
  | mandatory => exact absurd rfl hk
  | optional => rfl
  | default d => rfl

theorem seqUnamb_opt {k : Kind} (hk : k ≠ .mandatory) {ls : List Id} {T : Ty} {rest : Fields} (h : (Fields.cons k ls T rest).SeqUnamb) :
    (∀ i, i ∈ ls ↔ i ∈ T.outer) ∧ (∀ i ∈ ls, i ∉ rest.firsts) ∧ rest.SeqUnamb := by
  cases k with
  | mandatory => exact absurd rfl hk
  | optional => exact h
  | default d => exact h

theorem along_seq {fs : Fields} {xs : List Val} {vs : List BerView} (h : Along ReadV fs xs vs) (hu : fs.SeqUnamb) :
    fs.ReadsSeq vs xs ∧ (∀ ys, fs.ReadsSeq vs ys → ys = xs) ∧ ∀ v vs', vs = v :: vs' → hasId fs.firsts v = true := by
  induction h with
  | nil => exact ⟨rfl, fun ys h => h, fun v vs' h => by cases h⟩
  | @mandatory ls T rest x xs v vs h1 _ ih =>
    obtain ⟨a1, a2, a3⟩ := ih hu
    refine ⟨⟨x, xs, vs, rfl, ⟨v, rfl, h1.1.reads⟩, a1⟩, ?_, ?_⟩
    · rintro ys ⟨y, ys', vs', rfl, ⟨v', hv, hy⟩, hr⟩
      cases hv
      rw [h1.1.only y hy, a2 _ hr]
    · intro v' vs' hv
      cases hv
      exact T.reads_outer v x h1.1.reads h1.2
  | @present k ls T rest x xs v vs hk h1 _ ih =>
    obtain ⟨u1, u2, u3⟩ := seqUnamb_opt hk hu
    obtain ⟨a1, a2, a3⟩ := ih u3
    have ho := T.reads_outer v x h1.1.reads h1.2
    refine ⟨⟨.present x, xs, vs, rfl, (compReadsSeq_opt hk).2 (.inr ⟨v, x, rfl, ho, rfl, h1.1.reads⟩), a1⟩, ?_, ?_⟩
    · rintro ys ⟨y, ys', vs', rfl, hc, hr⟩
      rcases (compReadsSeq_opt hk).1 hc with ⟨_, _, hn⟩ | ⟨v', x', hv, _, rfl, hy⟩
      · rw [hn v vs rfl] at ho; cases ho
      · cases hv
        rw [h1.1.only x' hy, a2 _ hr]
    · intro v' vs' hv
      cases hv
      obtain ⟨i, h2, h3⟩ := hasId_iff.1 ho
      exact hasId_iff.2 ⟨i, h2, by rw [firsts_opt hk]; exact List.mem_append_left _ h3⟩
  | @absent k ls T rest xs vs hk _ ih =>
    obtain ⟨u1, u2, u3⟩ := seqUnamb_opt hk hu
    obtain ⟨a1, a2, a3⟩ := ih u3
    have hn : ∀ v vs', vs = v :: vs' → hasId T.outer v = false := by
      intro v vs' hv
      obtain ⟨i, h2, h3⟩ := hasId_iff.1 (a3 v vs' hv)
      refine hasId_false fun j hj hjo => ?_
      rw [h2] at hj
      cases hj
      exact u2 i ((u1 i).2 hjo) h3
    refine ⟨⟨.absent, xs, vs, rfl, (compReadsSeq_opt hk).2 (.inl ⟨rfl, rfl, hn⟩), a1⟩, ?_, ?_⟩
    · rintro ys ⟨y, ys', vs', rfl, hc, hr⟩
      rcases (compReadsSeq_opt hk).1 hc with ⟨rfl, rfl, _⟩ | ⟨v', x', hv, ho, rfl, hy⟩
      · rw [a2 _ hr]
      · rw [hn v' vs' hv] at ho; cases ho
    · intro v vs' hv
      obtain ⟨i, h2, h3⟩ := hasId_iff.1 (a3 v vs' hv)
      exact hasId_iff.2 ⟨i, h2, by rw [firsts_opt hk]; exact List.mem_append_right _ h3⟩

theorem setUnamb_labels : ∀ (fs : Fields), fs.SetUnamb → ∀ i, i ∈ fs.labels ↔ i ∈ fs.outer
  | .nil, _, _ => Iff.rfl
  | .cons k ls T rest, h, i => by
    rw [Fields.labels, Fields.outer, List.mem_append, List.mem_append, h.1 i, setUnamb_labels rest h.2.2 i]

theorem filter_none {l : List BerView} {p : BerView → Bool} (h : ∀ u ∈ l, p u = false) : l.filter p = [] :=
  List.filter_eq_nil_iff.2 fun u hu hp => by rw [h u hu] at hp; cases hp

theorem outer_cons (k : Kind) (ls : List Id) (T : Ty) (rest : Fields) (v : BerView) :
    hasId (Fields.cons k ls T rest).outer v = (hasId T.outer v || hasId rest.outer v) := by
  unfold hasId
  split
  · simp [Fields.outer]
  · rfl

theorem along_set {fs : Fields} {xs : List Val} {vs : List BerView} (h : Along ReadV fs xs vs) (hu : fs.SetUnamb) :
    (∀ junk, (∀ u ∈ junk, hasId fs.outer u = false) → fs.ReadsSet (junk ++ vs) xs ∧ ∀ ys, fs.ReadsSet (junk ++ vs) ys → ys = xs) ∧
      ∀ v ∈ vs, hasId fs.outer v = true := by
  have disj : ∀ {k : Kind} {ls : List Id} {T : Ty} {rest : Fields}, (Fields.cons k ls T rest).SetUnamb → ∀ v, hasId T.outer v = true → hasId rest.outer v = true → False := by
    intro k ls T rest hu v h1 h2
    obtain ⟨i, a1, a2⟩ := hasId_iff.1 h1
    obtain ⟨j, b1, b2⟩ := hasId_iff.1 h2
    rw [a1] at b1
    cases b1
    exact hu.2.1 i ((hu.1 i).2 a2) ((setUnamb_labels rest hu.2.2 i).2 b2)
  induction h with
  | nil => exact ⟨fun junk _ => ⟨rfl, fun ys h => h⟩, fun v h => by cases h⟩
  | @mandatory ls T rest x xs v vs h1 _ ih =>
    obtain ⟨a1, a2⟩ := ih hu.2.2
    have ho := T.reads_outer v x h1.1.reads h1.2
    refine ⟨fun junk hj => ?_, fun u h => ?_⟩
    · have hj' : ∀ u ∈ junk, hasId T.outer u = false ∧ hasId rest.outer u = false := by
        intro u h
        have := hj u h
        rw [outer_cons] at this
        simpa using this
      have hf : (junk ++ v :: vs).filter (hasId T.outer) = [v] := by
        rw [List.filter_append, filter_none fun u h => (hj' u h).1, List.nil_append, List.filter_cons_of_pos ho, filter_none]
        intro u h
        cases hb : hasId T.outer u with
        | false => rfl
        | true => exact (disj hu u hb (a2 u h)).elim
      have hr : junk ++ v :: vs = (junk ++ [v]) ++ vs := by simp
      obtain ⟨b1, b2⟩ := a1 (junk ++ [v]) fun u h => by
        rcases List.mem_append.1 h with h | h
        · exact (hj' u h).2
        · cases List.mem_singleton.1 h
          cases hb : hasId rest.outer v with
          | false => rfl
          | true => exact (disj hu v ho hb).elim
      refine ⟨⟨x, xs, rfl, ⟨v, hf, h1.1.reads⟩, by rw [hr]; exact b1⟩, ?_⟩
      rintro ys ⟨y, ys', rfl, ⟨v', hv, hy⟩, hrs⟩
      rw [hf] at hv
      cases hv
      rw [hr] at hrs
      rw [h1.1.only y hy, b2 _ hrs]
    · rw [outer_cons]
      rcases List.mem_cons.1 h with rfl | h
      · simp [ho]
      · simp [a2 u h]
  | @present k ls T rest x xs v vs hk h1 _ ih =>
    obtain ⟨a1, a2⟩ := ih hu.2.2
    have ho := T.reads_outer v x h1.1.reads h1.2
    refine ⟨fun junk hj => ?_, fun u h => ?_⟩
    · have hj' : ∀ u ∈ junk, hasId T.outer u = false ∧ hasId rest.outer u = false := by
        intro u h
        have := hj u h
        rw [outer_cons] at this
        simpa using this
      have hf : (junk ++ v :: vs).filter (hasId T.outer) = [v] := by
        rw [List.filter_append, filter_none fun u h => (hj' u h).1, List.nil_append, List.filter_cons_of_pos ho, filter_none]
        intro u h
        cases hb : hasId T.outer u with
        | false => rfl
        | true => exact (disj hu u hb (a2 u h)).elim
      have hr : junk ++ v :: vs = (junk ++ [v]) ++ vs := by simp
      obtain ⟨b1, b2⟩ := a1 (junk ++ [v]) fun u h => by
        rcases List.mem_append.1 h with h | h
        · exact (hj' u h).2
        · cases List.mem_singleton.1 h
          cases hb : hasId rest.outer v with
          | false => rfl
          | true => exact (disj hu v ho hb).elim
      refine ⟨⟨.present x, xs, rfl, (compReadsSet_opt hk).2 (.inr ⟨v, x, hf, rfl, h1.1.reads⟩), by rw [hr]; exact b1⟩, ?_⟩
      rintro ys ⟨y, ys', rfl, hc, hrs⟩
      rw [hr] at hrs
      rcases (compReadsSet_opt hk).1 hc with ⟨hv, _⟩ | ⟨v', x', hv, rfl, hy⟩
      · rw [hf] at hv; cases hv
      · rw [hf] at hv
        cases hv
        rw [h1.1.only x' hy, b2 _ hrs]
    · rw [outer_cons]
      rcases List.mem_cons.1 h with rfl | h
      · simp [ho]
      · simp [a2 u h]
  | @absent k ls T rest xs vs hk _ ih =>
    obtain ⟨a1, a2⟩ := ih hu.2.2
    refine ⟨fun junk hj => ?_, fun u h => ?_⟩
    · have hj' : ∀ u ∈ junk, hasId T.outer u = false ∧ hasId rest.outer u = false := by
        intro u h
        have := hj u h
        rw [outer_cons] at this
        simpa using this
      have hf : (junk ++ vs).filter (hasId T.outer) = [] := by
        refine filter_none fun u h => ?_
        rcases List.mem_append.1 h with h | h
        · exact (hj' u h).1
        · cases hb : hasId T.outer u with
          | false => rfl
          | true => exact (disj hu u hb (a2 u h)).elim
      obtain ⟨b1, b2⟩ := a1 junk fun u h => (hj' u h).2
      refine ⟨⟨.absent, xs, rfl, (compReadsSet_opt hk).2 (.inl ⟨hf, rfl⟩), b1⟩, ?_⟩
      rintro ys ⟨y, ys', rfl, hc, hrs⟩
      rcases (compReadsSet_opt hk).1 hc with ⟨_, rfl⟩ | ⟨v', x', hv, rfl, hy⟩
      · rw [b2 _ hrs]
      · rw [hf] at hv; cases hv
    · rw [outer_cons]
      simp [a2 u h]

theorem readsSet_perm : ∀ (fs : Fields) {vs vs' : List BerView} {xs : List Val}, vs.Perm vs' → fs.ReadsSet vs xs → fs.ReadsSet vs' xs
  | .nil, _, _, _, _, h => h
  | .cons k ls T rest, vs, vs', xs, hp, h => by
    obtain ⟨x, xs', rfl, hc, hr⟩ := h
    refine ⟨x, xs', rfl, ?_, readsSet_perm rest hp hr⟩
    have hf := hp.filter (hasId T.outer)
    cases k with
    | mandatory =>
      obtain ⟨v, hv, hy⟩ := hc
      rw [hv] at hf
      exact ⟨v, hf.symm.eq_singleton, hy⟩
    | optional | default d =>
      rcases hc with ⟨hv, hy⟩ | ⟨v, x', hv, hx, hy⟩
      · rw [hv] at hf
        exact .inl ⟨hf.symm.eq_nil, hy⟩
      · rw [hv] at hf
        exact .inr ⟨v, x', hf.symm.eq_singleton, hx, hy⟩

theorem unamb_labels : ∀ (as : Alts), as.Unamb → ∀ i, i ∈ as.outer → i ∈ as.labels
  | .nil, _, _, h => h
  | .cons ls T rest, hu, i, h => by
    rw [Alts.labels]
    rcases List.mem_append.1 h with h | h
    · exact List.mem_append_left _ ((hu.1 i).2 h)
    · exact List.mem_append_right _ (unamb_labels rest hu.2.2 i h)

theorem alts_index : ∀ (as : Alts), as.Unamb → ∀ (i j : Nat) (v : BerView) (x y : Val), v.valid = true → as.Reads i v x → as.Reads j v y → i = j
  | .nil, _, _, _, _, _, _, _, h, _ => False.elim h
  | .cons ls T rest, hu, i, j, v, x, y, hv, h1, h2 => by
    have hout : ∀ (rest : Alts), rest.Unamb → ∀ (i : Nat) (x : Val), rest.Reads i v x → hasId rest.labels v = true := by
      intro rest hu i x h
      obtain ⟨id, a1, a2⟩ := hasId_iff.1 (rest.reads_outer i v x h hv)
      refine hasId_iff.2 ⟨id, a1, ?_⟩
      exact unamb_labels rest hu id a2
    have clash : ∀ (n : Nat) (x y : Val), T.Reads v x → rest.Reads n v y → False := by
      intro n x y h1 h2
      obtain ⟨id, a1, a2⟩ := hasId_iff.1 (T.reads_outer v x h1 hv)
      obtain ⟨id', b1, b2⟩ := hasId_iff.1 (hout rest hu.2.2 n y h2)
      rw [a1] at b1
      cases b1
      exact hu.2.1 id ((hu.1 id).2 a2) id b2 rfl
    cases i with
    | zero =>
      cases j with
      | zero => rfl
      | succ j => exact (clash j x y h1 h2).elim
    | succ i =>
      cases j with
      | zero => exact (clash i y x h2 h1).elim
      | succ j => rw [alts_index rest hu.2.2 i j v x y hv h1 h2]

theorem leaf_takes {lib : Lib} {k : Builtin} {l : Leaf} (hl : LeafFor lib k l) {c : Bytes} (hc : storable k c) : leafTakes l c.length := by
  rcases hl with hl | ⟨rfl, rfl⟩
  · cases k with
    | generalizedTime | utcTime | date | dateTime | duration | time | timeOfDay | boolean | integer | null | real => cases hl; exact hc
    | octetString | bitString | charString _ | objectIdentifier => cases hl; trivial
    | enumerated | any | embeddedPDV | external | instanceOf | iri | objectDescriptor | relativeIRI | relativeOID | t61String => cases hl
  · exact hc

theorem leaf_read {lib : Lib} {k : Builtin} {l : Leaf} (hl : LeafFor lib k l) {id : Ident} {c : Bytes} (hc : storable k c) {v w : BerView}
    (hm : Matches v id .primitive w) (hcont : w.content = .ok c) (hfill : Fills v id w) : Read (.leaf l id) (.content c) v where
  reads := ⟨w, c, c, hm, hcont, leaf_takes hl hc, rfl, rfl, by cases l <;> first | rfl | exact fun _ => rfl⟩
  only := by
    rintro y ⟨w', c', c'', hm', hcont', _, rfl, _, hy⟩
    have := matches_unique hm hm'
    subst this
    rw [hcont] at hcont'
    cases hcont'
    have : c'' = c := by cases l <;> first | exact hy | exact hy hfill
    rw [this]

theorem all2_read {T : Ty} : ∀ {vs : List BerView} {xs : List Val}, all2 (ReadV T · ·) xs vs → all2 T.Reads vs xs ∧ ∀ ys, all2 T.Reads vs ys → ys = xs
  | [], [], _ => ⟨trivial, fun ys h => by cases ys with | nil => rfl | cons => cases h⟩
  | v :: vs, x :: xs, h => by
    obtain ⟨h1, h2⟩ := all2_read h.2
    refine ⟨⟨h.1.1.reads, h1⟩, fun ys hy => ?_⟩
    cases ys with
    | nil => cases hy
    | cons y ys => rw [h.1.1.only y hy.1, h2 ys hy.2]
  | [], _ :: _, h => False.elim h
  | _ :: _, [], h => False.elim h

theorem nonempty_flatten (es : List Bytes) : (es.filter fun e => !e.isEmpty).flatten = es.flatten := by
  induction es with
  | nil => rfl
  | cons e es ih =>
    cases e with
    | nil => simpa using ih
    | cons b e => simp [ih]

theorem good_list {T : Ty} : ∀ (xs : List Val) (es : List Bytes), all2 (fun x e => Good (Read T x) e) xs es →
    ∃ vs, Elements es.flatten vs ∧ all2 (ReadV T · ·) xs vs ∧ Sane es.flatten := by
  intro xs es h
  obtain ⟨vs, h1, h2, h3⟩ := good_elements es (xs.map (Read T)) (by
    revert es
    induction xs with
    | nil => intro es h; cases es with | nil => trivial | cons => cases h
    | cons x xs ih =>
      intro es h
      cases es with
      | nil => cases h
      | cons e es => exact ⟨h.1, ih es h.2⟩)
  refine ⟨vs, h1, ?_, h3⟩
  clear h1 h3 h
  revert vs
  induction xs with
  | nil => intro vs h; cases vs with | nil => trivial | cons => cases h
  | cons x xs ih =>
    intro vs h
    cases vs with
    | nil => cases h
    | cons v vs => exact ⟨h.1, ih vs h.2⟩

theorem encodesEach_all2 {r : Rules} {tree : Tree} {mod : Module} {t : AType} {R : Val → Bytes → Prop} : ∀ {xs : List Val} {es : List Bytes}, EncodesEach r tree mod t xs es →
    (∀ x e, x ∈ xs → e ∈ es → Encodes r tree mod t x e → R x e) → all2 R xs es := by
  intro xs
  induction xs with
  | nil => intro es h _; cases h; trivial
  | cons x xs ih =>
    intro es h hr
    cases h with
    | cons h1 h2 => exact ⟨hr _ _ List.mem_cons_self List.mem_cons_self h1, ih h2 fun x e hx he => hr x e (List.mem_cons_of_mem _ hx) (List.mem_cons_of_mem _ he)⟩

theorem core_contents {r : Rules} {tree : Tree} {mod wm : Module} {t u : AType} {ts : List Spec.Tag} {x : Val} {e : Bytes} (hc : Core tree mod t wm u)
    (ho : OwnTags tree mod t ts) (h : Encodes r tree mod t x e) : ∃ k c, Contents r tree wm u x k c ∧ Wrapped r ts k c e := by
  cases h with
  | intro ho' hc' hx hw =>
    obtain ⟨rfl, rfl⟩ := hc.unique hc'
    cases ho.unique ho'
    exact ⟨_, _, hx, hw⟩

mutual
theorem good_of_encodes {H : Holes} {lib : Lib} {tree : Tree} {s : Nat}
    (hU : ∀ T mod t, H T mod t → ∀ x e, sizeOf x < s → Encodes (definite readable) tree mod t x e → e.length < 2 ^ 64 → Good (Read T x) e) : ∀ (T : Ty) (mod : Module) (t : AType) (x : Val) (e : Bytes), T.Is H lib tree mod t → T.WF → T.Unamb → sizeOf x ≤ s →
    Encodes (definite readable) tree mod t x e → e.length < 2 ^ 64 → Good (Read T x) e
  | .leaf l id, mod, t, x, e, ⟨⟨wm, k, hc, hl⟩, ts, ho, he⟩, hw, _, _, h, hlen => by
    obtain ⟨kk, c, hx, hwr⟩ := core_contents hc ho h
    cases hx with
    | leaf hk =>
      obtain ⟨hk1, hk2⟩ := hk
      refine (good_wrapped hw he hwr hlen (parse_of_noHugeTag hk2) (fun h => by cases h)).imp ?_
      rintro v hv ⟨w, h1, h2, h3⟩
      exact leaf_read hl hk1 h1 h2 h3
  | .seqOf id T, mod, t, x, e, ⟨⟨wm, n, u, _, hc, hb⟩, ts, ho, he⟩, hw, hu, hs, h, hlen => by
    have one : ∀ x e, sizeOf x < s → Encodes (definite readable) tree wm u x e → e.length < 2 ^ 64 → Good (Read T x) e := by
      intro x e hz hx hl
      rcases hb with hb | hb
      · exact good_of_encodes hU T wm u x e hb hw.2 hu (Nat.le_of_lt hz) hx hl
      · exact hU T wm u hb x e hz hx hl
    have key : ∀ xs es, (∀ x ∈ xs, sizeOf x < s) → EncodesEach (definite readable) tree wm u xs es → Wrapped (definite readable) ts .constructed es.flatten e →
        Good (Read (.seqOf id T) (.list xs)) e := by
      intro xs es hz hes hwr
      have hle := wrapped_length hwr
      obtain ⟨vs, a1, a2, a3⟩ := good_list xs es (encodesEach_all2 hes fun x e' hxm hm hx =>
        one x e' (hz x hxm) hx (by have := length_le_flatten hm; omega))
      obtain ⟨b1, b2⟩ := all2_read a2
      refine (good_wrapped hw.1 he hwr hlen (Spec_sane_peek a3) fun _ => a3).imp ?_
      rintro v hv ⟨w, h1, h2, h3⟩
      refine ⟨⟨w, _, vs, xs, h1, h2, a1, rfl, b1⟩, ?_⟩
      rintro y ⟨w', bs, vs', ys, h1', h2', h3', rfl, h4'⟩
      cases matches_unique h1 h1'
      rw [h2] at h2'
      cases h2'
      cases a1.unique h3'
      rw [b2 ys h4']
    rcases hc with hc | hc
    · obtain ⟨kk, c, hx, hwr⟩ := core_contents hc ho h
      cases hx with
      | seqOf hes => exact key _ _ (sizeOf_list hs) hes hwr
    · obtain ⟨kk, c, hx, hwr⟩ := core_contents hc ho h
      cases hx with
      | setOf hes => exact key _ _ (sizeOf_list hs) hes hwr
  | .seq id fs, mod, t, x, e, ⟨⟨wm, cs, ext, hc, hb⟩, ts, ho, he⟩, hw, hu, hs, h, hlen => by
    obtain ⟨kk, c, hx, hwr⟩ := core_contents hc ho h
    cases hx with
    | @sequence _ _ _ xs es hes =>
      have hle := wrapped_length hwr
      have hal := along_of_encodes hU fs false wm _ xs es hb hw.2 hu.2 (sizeOf_list hs) hes fun e' hm => by have := length_le_flatten hm; omega
      obtain ⟨Ps, a1, a2⟩ := along_split hal
      obtain ⟨vs, a3, a4, a5⟩ := good_elements _ Ps a1
      rw [nonempty_flatten] at a3 a5
      obtain ⟨b1, b2, _⟩ := along_seq (a2 vs a4) hu.1
      refine (good_wrapped hw.1 he hwr hlen (Spec_sane_peek a5) fun _ => a5).imp ?_
      rintro v hv ⟨w, h1, h2, h3⟩
      refine ⟨⟨w, _, vs, xs, h1, h2, a3, rfl, b1⟩, ?_⟩
      rintro y ⟨w', bs, vs', ys, h1', h2', h3', rfl, h4'⟩
      cases matches_unique h1 h1'
      rw [h2] at h2'
      cases h2'
      cases a3.unique h3'
      rw [b2 ys h4']
  | .set id ext fs, mod, t, x, e, ⟨⟨wm, cs, hc, hb⟩, ts, ho, he⟩, hw, hu, hs, h, hlen => by
    obtain ⟨kk, c, hx, hwr⟩ := core_contents hc ho h
    cases hx with
    | @set _ _ _ xs es es' hes hperm =>
      have hle := wrapped_length hwr
      have hal := along_of_encodes hU fs true wm _ xs es hb hw.2 hu.2 (sizeOf_list hs) hes fun e' hm => by have := length_le_flatten (hperm.mem_iff.1 hm); omega
      obtain ⟨Ps, a1, a2⟩ := along_split hal
      obtain ⟨Ps', p1, p2⟩ := all2_perm (hperm.filter fun e => !e.isEmpty) a1
      obtain ⟨vs, a3, a4, a5⟩ := good_elements _ Ps' p2
      obtain ⟨vs0, p3, p4⟩ := all2_perm p1.symm (all2_flip a4)
      rw [nonempty_flatten] at a3 a5
      obtain ⟨b1, b2⟩ := along_set (a2 vs0 (all2_flip p4)) hu.1
      obtain ⟨b3, b4⟩ := b1 [] (fun u h => by cases h)
      rw [List.nil_append] at b3 b4
      refine (good_wrapped hw.1 he hwr hlen (Spec_sane_peek a5) fun _ => a5).imp ?_
      rintro v hv ⟨w, h1, h2, h3⟩
      refine ⟨⟨w, _, vs, xs, h1, h2, a3, rfl, readsSet_perm fs p3.symm b3, fun u hu' => .inr (.inr (b2 u (p3.mem_iff.1 hu')))⟩, ?_⟩
      rintro y ⟨w', bs, vs', ys, h1', h2', h3', rfl, h4', _⟩
      cases matches_unique h1 h1'
      rw [h2] at h2'
      cases h2'
      cases a3.unique h3'
      rw [b4 ys (readsSet_perm fs p3 h4')]
  | .choice (.untagged ids) as, mod, t, x, e, ⟨⟨wm, as', _, hc, hb, _⟩, ts, ho, he⟩, hw, hu, hs, h, hlen => by
    obtain ⟨kk, c, hx, hwr⟩ := core_contents hc ho h
    cases hx with
    | @choice _ _ _ i u y _ hi hes =>
      have : ts = [] := by
        cases ts with
        | nil => rfl
        | cons => cases he
      subst this
      cases hwr
      refine (alt_good hU as wm _ i u y e hb hw.2.1 hu.2 (sizeOf_alt hs) hi hes hlen).imp ?_
      rintro v hv ⟨h1, h2⟩
      refine ⟨⟨i, y, rfl, h1⟩, ?_⟩
      rintro z ⟨j, y', rfl, h3⟩
      cases alts_index as hu.1 i j v y y' hv h1 h3
      rw [h2 y' h3]
  | .choice (.tagged id) as, mod, t, x, e, ⟨⟨wm, as', _, hc, hb, _⟩, ts, ho, he⟩, hw, hu, hs, h, hlen => by
    obtain ⟨kk, c, hx, hwr⟩ := core_contents hc ho h
    cases hx with
    | @choice _ _ _ i u y _ hi hes =>
      have hle := wrapped_length hwr
      have hg := alt_good hU as wm _ i u y c hb hw.2.1 hu.2 (sizeOf_alt hs) hi hes (by omega)
      refine (good_wrapped hw.1 he hwr hlen (Spec_sane_peek hg.sane) fun _ => hg.sane).imp ?_
      rintro v hv ⟨w, h1, h2, h3⟩
      obtain ⟨v', a1, a2, _, ⟨a3, a4⟩, _⟩ := hg [] sane_nil
      rw [List.append_nil] at a1
      refine ⟨⟨w, c, v', i, y, h1, h2, a1, a2, rfl, a3⟩, ?_⟩
      rintro z ⟨w', bs, v'', j, y', h1', h2', h3', _, rfl, h4'⟩
      cases matches_unique h1 h1'
      rw [h2] at h2'
      cases h2'
      rw [a1] at h3'
      cases h3'
      cases alts_index as hu.1 i j v' y y' a2 a3 h4'
      rw [a4 y' h4']
theorem along_of_encodes {H : Holes} {lib : Lib} {tree : Tree} {s : Nat}
    (hU : ∀ T mod t, H T mod t → ∀ x e, sizeOf x < s → Encodes (definite readable) tree mod t x e → e.length < 2 ^ 64 → Good (Read T x) e) : ∀ (fs : Fields) (all : Bool) (mod : Module) (ss : List Slot) (xs : List Val) (es : List Bytes),
    fs.Body H lib tree all mod ss → fs.WF → fs.AllUnamb → (∀ x ∈ xs, sizeOf x < s) → EncodesSlots (definite readable) tree mod ss xs es → (∀ e ∈ es, e.length < 2 ^ 64) →
    Along (fun T x e => Good (Read T x) e) fs xs (es.filter fun e => !e.isEmpty)
  | .nil, all, mod, ss, xs, es, hb, _, _, _, h, _ => by
    cases hb
    cases h
    exact .nil
  | .cons k ls T rest, all, mod, ss, xs, es, hb, hw, hu, hz, h, hlen => by
    obtain ⟨sl, ss', rfl, hk, _, h12, h3⟩ := hb
    obtain ⟨ab, st⟩ := sl
    have one : ∀ x e, sizeOf x < s → Encodes (definite readable) tree mod st x e → e.length < 2 ^ 64 → Good (Read T x) e := by
      intro x e hz hx hl
      rcases h12 with hb | hb
      · exact good_of_encodes hU T mod st x e hb hw.1 hu.1 (Nat.le_of_lt hz) hx hl
      · exact hU T mod st hb x e hz hx hl
    cases h with
    | @mandatory _ _ _ x e xs es hx hr =>
      have hg := one x e (hz _ List.mem_cons_self) hx (hlen _ List.mem_cons_self)
      have ih := along_of_encodes hU rest all mod ss' xs es h3 hw.2.2 hu.2 (fun x h => hz x (List.mem_cons_of_mem _ h)) hr fun e he => hlen e (List.mem_cons_of_mem _ he)
      rw [List.filter_cons_of_pos (by have := hg.ne; cases e with | nil => exact absurd rfl this | cons => rfl)]
      cases k with
      | mandatory => exact .mandatory hg ih
      | optional => cases hk
      | default d => cases hk.1
    | @present _ _ _ x e xs es hx hr =>
      have hg := one x e (by have := hz _ List.mem_cons_self; rw [Val.present.sizeOf_spec] at this; omega) hx (hlen _ List.mem_cons_self)
      have ih := along_of_encodes hU rest all mod ss' xs es h3 hw.2.2 hu.2 (fun x h => hz x (List.mem_cons_of_mem _ h)) hr fun e he => hlen e (List.mem_cons_of_mem _ he)
      rw [List.filter_cons_of_pos (by have := hg.ne; cases e with | nil => exact absurd rfl this | cons => rfl)]
      refine .present ?_ hg ih
      rintro rfl
      cases hk
    | @absent _ _ _ xs es hr =>
      have ih := along_of_encodes hU rest all mod ss' xs es h3 hw.2.2 hu.2 (fun x h => hz x (List.mem_cons_of_mem _ h)) hr fun e he => hlen e (List.mem_cons_of_mem _ he)
      rw [List.filter_cons_of_neg (by simp)]
      refine .absent ?_ ih
      rintro rfl
      cases hk
theorem alt_good {H : Holes} {lib : Lib} {tree : Tree} {s : Nat}
    (hU : ∀ T mod t, H T mod t → ∀ x e, sizeOf x < s → Encodes (definite readable) tree mod t x e → e.length < 2 ^ 64 → Good (Read T x) e) : ∀ (as : Alts) (mod : Module) (ts : List AType) (i : Nat) (u : AType) (x : Val) (e : Bytes),
    as.Body H lib tree mod ts → as.WF → as.AllUnamb → sizeOf x < s → ts[i]? = some u → Encodes (definite readable) tree mod u x e → e.length < 2 ^ 64 →
    Good (fun v => as.Reads i v x ∧ ∀ y, as.Reads i v y → y = x) e
  | .nil, _, ts, i, _, _, _, hb, _, _, _, hu, _, _ => by cases hb; cases hu
  | .cons ls T rest, mod, ts, i, u, x, e, hb, hw, hun, hs, hu, h, hlen => by
    obtain ⟨t, ts', rfl, _, h12, h3⟩ := hb
    cases i with
    | zero =>
      cases hu
      have hg : Good (Read T x) e := by
        rcases h12 with hb | hb
        · exact good_of_encodes hU T mod _ x e hb hw.1 hun.1 (Nat.le_of_lt hs) h hlen
        · exact hU T mod _ hb x e hs h hlen
      exact hg.imp fun v _ hr => ⟨hr.reads, hr.only⟩
    | succ i => exact alt_good hU rest mod ts' i u x e h3 hw.2 hun.2 hs hu h hlen
end

end FastBer.Ast
