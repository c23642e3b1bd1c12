import Verif.Model.ParserValues
/-!
# Comparing syntax trees

For examples: `decide` needs a decidable equality, and Lean derives none for nested inductive types.
-/
namespace FastBer.Ast
open FastBer

mutual
def eqValue : Value → Value → Bool
  | .list a, .list b => eqValues a b
  | .int a, .int b => a = b
  | .str a, .str b => a = b
  | .namedNumber a i, .namedNumber b j => decide (a = b) && decide (i = j)
  | .bits a, .bits b => a = b
  | .hex a, .hex b => a = b
  | .chars a, .chars b => a = b
  | .defined a, .defined b => a = b
  | .bool a, .bool b => a = b
  | .null, .null => true
  | .time a, .time b => a = b
  | .real a, .real b => a = b
  | _, _ => false
def eqValues : List Value → List Value → Bool
  | [], [] => true
  | a :: as, b :: bs => eqValue a b && eqValues as bs
  | _, _ => false
end

def eqOption {α : Type} (f : α → α → Bool) : Option α → Option α → Bool
  | none, none => true
  | some a, some b => f a b
  | _, _ => false

mutual
def eqType : AType → AType → Bool
  | .leaf a, .leaf b => a = b
  | .choice a s, .choice b t => eqNameds a b && decide (s = t)
  | .sequence a s, .sequence b t => eqComps a b && decide (s = t)
  | .set a s, .set b t => eqComps a b && decide (s = t)
  | .seqOf n a s, .seqOf m b t => decide (n = m) && eqType a b && decide (s = t)
  | .setOf n a s, .setOf m b t => decide (n = m) && eqType a b && decide (s = t)
  | .prefixed c n m a, .prefixed c' n' m' b => decide (c = c') && decide (n = n') && decide (m = m') && eqType a b
  | .objField m c f, .objField m' c' f' => decide (m = m') && decide (c = c') && decide (f = f')
  | .defined m r p, .defined m' r' p' => decide (m = m') && decide (r = r') && eqTypes p p'
  | _, _ => false
def eqTypes : List AType → List AType → Bool
  | [], [] => true
  | a :: as, b :: bs => eqType a b && eqTypes as bs
  | _, _ => false
def eqNameds : List Named → List Named → Bool
  | [], [] => true
  | .mk n a :: as, .mk m b :: bs => decide (n = m) && eqType a b && eqNameds as bs
  | _, _ => false
def eqComps : List Comp → List Comp → Bool
  | [], [] => true
  | .mk n a o d c s :: as, .mk m b o' d' c' s' :: bs =>
    decide (n = m) && eqType a b && decide (o = o') && eqOption eqValue d d' && eqOptType c c' && decide (s = s') && eqComps as bs
  | _, _ => false
def eqOptType : Option AType → Option AType → Bool
  | none, none => true
  | some a, some b => eqType a b
  | _, _ => false
end

mutual
theorem eqValue_sound : ∀ a b, eqValue a b = true → a = b
  | .list a, b, h => by cases b <;> simp [eqValue] at h; rw [eqValues_sound _ _ h]
  | .int a, b, h => by cases b <;> simp_all [eqValue]
  | .str a, b, h => by cases b <;> simp_all [eqValue]
  | .namedNumber a i, b, h => by cases b <;> simp_all [eqValue]
  | .bits a, b, h => by cases b <;> simp_all [eqValue]
  | .hex a, b, h => by cases b <;> simp_all [eqValue]
  | .chars a, b, h => by cases b <;> simp_all [eqValue]
  | .defined a, b, h => by cases b <;> simp_all [eqValue]
  | .bool a, b, h => by cases b <;> simp_all [eqValue]
  | .null, b, h => by cases b <;> simp_all [eqValue]
  | .time a, b, h => by cases b <;> simp_all [eqValue]
  | .real a, b, h => by cases b <;> simp_all [eqValue]
theorem eqValues_sound : ∀ a b, eqValues a b = true → a = b
  | [], b, h => by cases b <;> simp_all [eqValues]
  | a :: as, b, h => by
    cases b with
    | nil => simp [eqValues] at h
    | cons b bs =>
      simp only [eqValues, Bool.and_eq_true] at h
      rw [eqValue_sound _ _ h.1, eqValues_sound _ _ h.2]
end

theorem eqOption_sound {α : Type} {f : α → α → Bool} (hf : ∀ a b, f a b = true → a = b) : ∀ a b, eqOption f a b = true → a = b
  | none, none, _ => rfl
  | some a, some b, h => by rw [hf a b h]
  | none, some _, h => by simp [eqOption] at h
  | some _, none, h => by simp [eqOption] at h

mutual
theorem eqType_sound : ∀ a b, eqType a b = true → a = b
  | .leaf a, b, h => by cases b <;> simp_all [eqType]
  | .choice a s, b, h => by
    cases b <;> simp only [eqType, Bool.and_eq_true, decide_eq_true_eq, Bool.false_eq_true] at h
    rw [eqNameds_sound _ _ h.1, h.2]
  | .sequence a s, b, h => by
    cases b <;> simp only [eqType, Bool.and_eq_true, decide_eq_true_eq, Bool.false_eq_true] at h
    rw [eqComps_sound _ _ h.1, h.2]
  | .set a s, b, h => by
    cases b <;> simp only [eqType, Bool.and_eq_true, decide_eq_true_eq, Bool.false_eq_true] at h
    rw [eqComps_sound _ _ h.1, h.2]
  | .seqOf n a s, b, h => by
    cases b <;> simp only [eqType, Bool.and_eq_true, decide_eq_true_eq, Bool.false_eq_true] at h
    rw [h.1.1, eqType_sound _ _ h.1.2, h.2]
  | .setOf n a s, b, h => by
    cases b <;> simp only [eqType, Bool.and_eq_true, decide_eq_true_eq, Bool.false_eq_true] at h
    rw [h.1.1, eqType_sound _ _ h.1.2, h.2]
  | .prefixed c n m a, b, h => by
    cases b <;> simp only [eqType, Bool.and_eq_true, decide_eq_true_eq, Bool.false_eq_true] at h
    rw [h.1.1.1, h.1.1.2, h.1.2, eqType_sound _ _ h.2]
  | .objField m c f, b, h => by cases b <;> simp_all [eqType]
  | .defined m r p, b, h => by
    cases b <;> simp only [eqType, Bool.and_eq_true, decide_eq_true_eq, Bool.false_eq_true] at h
    rw [h.1.1, h.1.2, eqTypes_sound _ _ h.2]
theorem eqTypes_sound : ∀ a b, eqTypes a b = true → a = b
  | [], b, h => by cases b <;> simp_all [eqTypes]
  | a :: as, b, h => by
    cases b with
    | nil => simp [eqTypes] at h
    | cons b bs =>
      simp only [eqTypes, Bool.and_eq_true] at h
      rw [eqType_sound _ _ h.1, eqTypes_sound _ _ h.2]
theorem eqNameds_sound : ∀ a b, eqNameds a b = true → a = b
  | [], b, h => by cases b <;> simp_all [eqNameds]
  | .mk n a :: as, b, h => by
    cases b with
    | nil => simp [eqNameds] at h
    | cons b bs =>
      cases b
      simp only [eqNameds, Bool.and_eq_true, decide_eq_true_eq] at h
      rw [h.1.1, eqType_sound _ _ h.1.2, eqNameds_sound _ _ h.2]
theorem eqComps_sound : ∀ a b, eqComps a b = true → a = b
  | [], b, h => by cases b <;> simp_all [eqComps]
  | .mk n a o d c s :: as, b, h => by
    cases b with
    | nil => simp [eqComps] at h
    | cons b bs =>
      cases b
      simp only [eqComps, Bool.and_eq_true, decide_eq_true_eq] at h
      obtain ⟨⟨⟨⟨⟨⟨h1, h2⟩, h3⟩, h4⟩, h5⟩, h6⟩, h7⟩ := h
      rw [h1, eqType_sound _ _ h2, h3, eqOption_sound eqValue_sound _ _ h4, eqOptType_sound _ _ h5, h6, eqComps_sound _ _ h7]
theorem eqOptType_sound : ∀ a b, eqOptType a b = true → a = b
  | none, b, h => by cases b <;> simp_all [eqOptType]
  | some a, b, h => by
    cases b with
    | none => simp [eqOptType] at h
    | some b =>
      have := eqType_sound a b (by simpa [eqOptType] using h)
      rw [this]
end

/-- Lists, item by item. -/
def eqList {α : Type} (f : α → α → Bool) : List α → List α → Bool
  | [], [] => true
  | a :: as, b :: bs => f a b && eqList f as bs
  | _, _ => false

theorem eqList_sound {α : Type} {f : α → α → Bool} (hf : ∀ a b, f a b = true → a = b) : ∀ a b, eqList f a b = true → a = b
  | [], b, h => by cases b <;> simp_all [eqList]
  | a :: as, b, h => by
    cases b with
    | nil => simp [eqList] at h
    | cons b bs =>
      simp only [eqList, Bool.and_eq_true] at h
      rw [hf _ _ h.1, eqList_sound hf _ _ h.2]

def eqField (a b : ClassField) : Bool := decide (a.name = b.name) && eqOption eqType a.type b.type

theorem eqField_sound (a b : ClassField) (h : eqField a b = true) : a = b := by
  obtain ⟨n, t⟩ := a
  obtain ⟨m, u⟩ := b
  simp only [eqField, Bool.and_eq_true, decide_eq_true_eq] at h
  rw [h.1, eqOption_sound eqType_sound _ _ h.2]

def eqBody : Body → Body → Bool
  | .type a, .type b => eqType a b
  | .value a v, .value b w => eqType a b && eqValue v w
  | .objectClass a, .objectClass b => eqList eqField a b
  | .objectSet, .objectSet => true
  | _, _ => false

theorem eqBody_sound (a b : Body) (h : eqBody a b = true) : a = b := by
  cases a <;> cases b <;> simp only [eqBody, Bool.and_eq_true, Bool.false_eq_true] at h
  · rw [eqType_sound _ _ h]
  · rw [eqType_sound _ _ h.1, eqValue_sound _ _ h.2]
  · rw [eqList_sound eqField_sound _ _ h]
  · rfl

def eqParam (a b : Param) : Bool := eqOption eqType a.governor b.governor && decide (a.reference = b.reference)

theorem eqParam_sound (a b : Param) (h : eqParam a b = true) : a = b := by
  obtain ⟨n, t⟩ := a
  obtain ⟨m, u⟩ := b
  simp only [eqParam, Bool.and_eq_true, decide_eq_true_eq] at h
  rw [h.2, eqOption_sound eqType_sound _ _ h.1]

def eqAssignment (a b : Assignment) : Bool := decide (a.name = b.name) && eqBody a.body b.body && eqList eqParam a.params b.params

theorem eqAssignment_sound (a b : Assignment) (h : eqAssignment a b = true) : a = b := by
  obtain ⟨n, t, p⟩ := a
  obtain ⟨m, u, q⟩ := b
  simp only [eqAssignment, Bool.and_eq_true, decide_eq_true_eq] at h
  rw [h.1.1, eqBody_sound _ _ h.1.2, eqList_sound eqParam_sound _ _ h.2]

def eqImport (a b : Import) : Bool := decide (a.module = b.module) && decide (a.types = b.types) && decide (a.values = b.values)

theorem eqImport_sound (a b : Import) (h : eqImport a b = true) : a = b := by
  obtain ⟨n, t, p⟩ := a
  obtain ⟨m, u, q⟩ := b
  simp only [eqImport, Bool.and_eq_true, decide_eq_true_eq] at h
  rw [h.1.1, h.1.2, h.2]

def eqModule (a b : Module) : Bool :=
  decide (a.name = b.name) && decide (a.tagging = b.tagging) && eqList eqImport a.imports b.imports && eqList eqAssignment a.assignments b.assignments

theorem eqModule_sound (a b : Module) (h : eqModule a b = true) : a = b := by
  obtain ⟨n, t, p, r⟩ := a
  obtain ⟨m, u, q, s⟩ := b
  simp only [eqModule, Bool.and_eq_true, decide_eq_true_eq] at h
  rw [h.1.1.1, h.1.1.2, eqList_sound eqImport_sound _ _ h.1.2, eqList_sound eqAssignment_sound _ _ h.2]

end FastBer.Ast

namespace FastBer.Parser
open FastBer Ast

/-- The parser gave these modules. -/
def gave (r : Exec (Option St)) (ms : List Module) (anon : Nat) : Bool :=
  match r with
  | .ok (some st) => eqList eqModule st.modules ms && decide (st.anon = anon)
  | _ => false

theorem gave_sound {r : Exec (Option St)} {ms : List Module} {anon : Nat} (h : gave r ms anon = true) : r = .ok (some ⟨ms, anon⟩) := by
  unfold gave at h
  split at h
  · rename_i st
    simp only [Bool.and_eq_true, decide_eq_true_eq] at h
    obtain ⟨m, a⟩ := st
    dsimp only at h
    rw [eqList_sound eqModule_sound _ _ h.1, h.2]
  · cases h

/-- The parser gave an error. -/
def refused (r : Exec (Option St)) : Bool :=
  match r with
  | .ok none => true
  | _ => false

theorem refused_sound {r : Exec (Option St)} (h : refused r = true) : r = .ok none := by
  unfold refused at h
  split at h
  · rfl
  · cases h

end FastBer.Parser
