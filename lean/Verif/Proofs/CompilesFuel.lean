import Verif.Proofs.Pipeline
/-!
# More fuel does not change what the front end returns
-/
namespace FastBer.Ast
open FastBer.Ast.Spec

/-- What succeeds succeeds with the same result. -/
structure OkLe {α : Type} (r r' : Res α) : Prop where
  ok : ∀ x, r = .ok x → r' = .ok x

theorem OkLe.refl {α : Type} (r : Res α) : OkLe r r := ⟨fun _ h => h⟩

theorem OkLe.bind {α β : Type} {r r' : Res α} {f f' : α → Res β} (h : OkLe r r') (hf : ∀ x, OkLe (f x) (f' x)) : OkLe (r >>= f) (r' >>= f') := by
  refine ⟨fun y hy => ?_⟩
  obtain ⟨x, h1, h2⟩ := Res.bind_eq_ok.1 hy
  rw [h.ok x h1, Res.ok_bind]
  exact (hf x).ok y h2

theorem OkLe.foldlM {α β : Type} {f f' : β → α → Res β} (h : ∀ s a, OkLe (f s a) (f' s a)) : ∀ (l : List α) (s : β), OkLe (l.foldlM f s) (l.foldlM f' s)
  | [], s => OkLe.refl _
  | a :: l, s => by
    rw [List.foldlM_cons, List.foldlM_cons]
    exact (h s a).bind fun x => OkLe.foldlM h l x

section
variable {rf rf' : Nat} (hle : rf ≤ rf')

include hle

theorem resolveType_okLe (tree : Tree) (cur n : Name) : ∀ t, OkLe (resolveType tree cur rf n t) (resolveType tree cur rf' n t)
  | .defined m ref ps => ⟨fun x h => resolveDefined_mono_le h (by nofun) hle⟩
  | .prefixed _ _ _ t => resolveType_okLe tree cur n t
  | .leaf _ | .objField .. | .choice .. | .sequence .. | .set .. | .seqOf .. | .setOf .. => OkLe.refl _

variable {rec rec' : Name → DepState → Res DepState} (hr : ∀ n s, OkLe (rec n s) (rec' n s))
include hr

theorem followDefault_okLe (tree : Tree) (own : Name) (c : Comp) (v : Value) (s : DepState) :
    OkLe (followDefault tree own rf rec c v s) (followDefault tree own rf' rec' c v s) := by
  unfold followDefault
  split
  · refine (resolveType_okLe hle ..).bind fun r => ?_
    split
    · exact OkLe.refl _
    · exact hr ..
  · exact OkLe.refl _

omit hle in
theorem followAll_okLe (ns : List Name) (s : DepState) : OkLe (followAll rec ns s) (followAll rec' ns s) := OkLe.foldlM (fun s n => hr n s) ns s

theorem followComp_okLe (as : List Assignment) (tree : Tree) (own name : Name) (c : Comp) (s : DepState) :
    OkLe (followComp as tree own rf rec name c s) (followComp as tree own rf' rec' name c s) := by
  unfold followComp
  split
  · exact (followAll_okLe hr ..).bind fun s => (followDefault_okLe hle hr ..).bind fun s => OkLe.refl _
  · split
    · refine (OkLe.refl _).bind fun b => ?_
      split
      · exact OkLe.refl _
      · exact (followAll_okLe hr ..).bind fun s => OkLe.refl _
    · exact (followAll_okLe hr ..).bind fun s => OkLe.refl _

theorem followComps_okLe (as : List Assignment) (tree : Tree) (own name : Name) : ∀ (cs : List Comp) (s : DepState),
    OkLe (followComps as tree own rf rec name cs s) (followComps as tree own rf' rec' name cs s)
  | [], s => OkLe.refl _
  | c :: cs, s => by
    rw [followComps, followComps]
    exact (followComp_okLe hle hr ..).bind fun ⟨c', s⟩ => (followComps_okLe as tree own name cs s).bind fun ⟨cs', s⟩ => OkLe.refl _

omit hle in
theorem followBreakable_okLe (as : List Assignment) (own : Name) (a : Assignment) (dyn : AType) (s : DepState) :
    OkLe (followBreakable as own rec a dyn s) (followBreakable as own rec' a dyn s) := by
  unfold followBreakable
  refine (OkLe.refl _).bind fun b => ?_
  split
  · exact OkLe.refl _
  · exact (followAll_okLe hr ..).bind fun s => OkLe.refl _

theorem followAssignment_okLe (as : List Assignment) (tree : Tree) (own : Name) (a : Assignment) (s : DepState) :
    OkLe (followAssignment as tree own rf rec a s) (followAssignment as tree own rf' rec' a s) := by
  unfold followAssignment
  split
  · exact followBreakable_okLe hr ..
  · exact followBreakable_okLe hr ..
  · exact followBreakable_okLe hr ..
  · exact (followComps_okLe hle hr ..).bind fun ⟨cs, s⟩ => OkLe.refl _
  · exact (followComps_okLe hle hr ..).bind fun ⟨cs, s⟩ => OkLe.refl _
  · exact (followAll_okLe hr ..).bind fun s => OkLe.refl _

omit hr in
theorem resolveDeps_okLe (as : List Assignment) (tree : Tree) (own : Name) : ∀ (fuel : Nat) (n : Name) (s : DepState),
    OkLe (resolveDeps as tree own rf fuel n s) (resolveDeps as tree own rf' fuel n s)
  | 0, _, _ => OkLe.refl _
  | fuel + 1, n, s => by
    rw [resolveDeps, resolveDeps]
    split
    · exact OkLe.refl _
    · split
      · exact OkLe.refl _
      · split
        · exact OkLe.refl _
        · exact (followAssignment_okLe hle (resolveDeps_okLe as tree own fuel) ..).bind fun ⟨a, s⟩ => OkLe.refl _

omit hr in
theorem reorderAssignments_okLe (tree : Tree) (own : Name) (as : List Assignment) : OkLe (reorderAssignments tree own rf as) (reorderAssignments tree own rf' as) := by
  unfold reorderAssignments
  exact (OkLe.foldlM (fun s a => resolveDeps_okLe hle ..) as _).bind fun s => OkLe.refl _

omit hr in
theorem reorderLoop_okLe : ∀ (ms done : List Module), OkLe (reorderLoop rf done ms) (reorderLoop rf' done ms)
  | [], done => OkLe.refl _
  | m :: ms, done => by
    rw [reorderLoop, reorderLoop]
    exact (reorderAssignments_okLe hle ..).bind fun as => reorderLoop_okLe ms _

omit hr in
theorem frontEnd_okLe (tree : Tree) : OkLe (frontEnd rf tree) (frontEnd rf' tree) := by
  unfold frontEnd
  exact (OkLe.refl _).bind fun _ => (OkLe.refl _).bind fun _ => (OkLe.refl _).bind fun _ => (OkLe.refl _).bind fun _ => (OkLe.refl _).bind fun _ =>
    (reorderLoop_okLe hle ..).bind fun _ => OkLe.refl _

end

end FastBer.Ast
