import Verif.Proofs.ForwardRank
import Verif.Proofs.RepValue
import Verif.Proofs.DecodeComplete
/-!
# Values and encodings of generated recursive types are those of the ASN.1 types
-/
namespace FastBer.Ast.Fwd
open Spec FastBer.Spec

section
variable {lib : Lib} {tree : Tree} {E : REnv Key}

/-- The named type implements the ASN.1 type. -/
structure Fits (lib : Lib) (tree : Tree) (E : REnv Key) (n : Key) (mod : Module) (t : AType) : Prop where
  is : (E n).Is lib tree mod t
  known : Known tree mod t
  placed : Placed tree mod t

theorem hole_fits {σ : Key → Ty} {T : Ty} {mod : Module} {t : AType} (h : hole lib tree E σ T mod t) : ∃ k, T = σ k ∧ Fits lib tree E k mod t := by
  obtain ⟨k, h1, h2, h3, h4⟩ := h
  exact ⟨k, h1, h2, h3, h4⟩

/-- An unfolding implements the type. -/
theorem unfold_is (hS : Supported tree) (hL : Legal tree) (hl : Linked lib tree E) (ho : E.Ok) {b : Key → Ty} (hb : ∀ n, (b n).outer = (E n).ids) (k : Nat)
    {n : Key} {mod : Module} {t : AType} (h : Fits lib tree E n mod t) : (E.unfold b (k + 1) n).Is (hole lib tree E (E.unfold b k)) lib tree mod t :=
  ⟨body_close hS hL hl (fun m => ho.unfold_outer hb k m) (E n) mod t (hl.proper n) h.is.1 h.known.core, head_close (hl.proper n) h.is.2⟩

theorem unfold_value (hS : Supported tree) (hL : Legal tree) (hl : Linked lib tree E) (ho : E.Ok) : ∀ (k : Nat) (n : Key) (mod : Module) (t : AType),
    Fits lib tree E n mod t → ∀ o x e, (E.unfold E.void k n).Rep o x e → Spec.Value holdable tree mod t x
  | 0, n, mod, t, _, o, x, e, hr => (REnv.void_rep n o x e hr).elim
  | k + 1, n, mod, t, h, o, x, e, hr => by
    refine value_of_rep ?_ _ mod t o x e (unfold_is hS hL hl ho REnv.void_outer k h).1 hr
    intro T mod t hT o x e hr
    obtain ⟨m, rfl, hm⟩ := hole_fits hT
    exact unfold_value hS hL hl ho k m mod t hm o x e hr

theorem unfold_encodes (hS : Supported tree) (hL : Legal tree) (hl : Linked lib tree E) (ho : E.Ok) {contents : Builtin → Bytes → Prop} :
    ∀ (k : Nat) (n : Key) (mod : Module) (t : AType),
    Fits lib tree E n mod t → ∀ o x e, Spec.Value contents tree mod t x → (E.unfold E.void k n).Rep o x e → (E.unfold E.void k n).Fresh o →
      Encodes (shortest contents) tree mod t x e
  | 0, n, mod, t, _, o, x, e, _, hr, _ => (REnv.void_rep n o x e hr).elim
  | k + 1, n, mod, t, h, o, x, e, hv, hr, hf => by
    refine encodes_of_rep ?_ _ mod t o x e (unfold_is hS hL hl ho REnv.void_outer k h) hv hr hf
    intro T mod t hT o x e hv hr hf
    obtain ⟨m, rfl, hm⟩ := hole_fits hT
    exact unfold_encodes hS hL hl ho k m mod t hm o x e hv hr hf

theorem sizeOf_val (x : Val) : 0 < sizeOf x := by cases x <;> simp <;> omega

theorem unfold_holds (hS : Supported tree) (hL : Legal tree) (hl : Linked lib tree E) (ho : E.Ok) : ∀ (k : Nat) (n : Key) (mod : Module) (t : AType),
    Fits lib tree E n mod t → ∀ x, sizeOf x ≤ k → Spec.Value storable tree mod t x →
      ∃ o e, (E.unfold E.void k n).Rep o x e ∧ (E.unfold E.void k n).Fresh o
  | 0, n, mod, t, _, x, hs, _ => by have := sizeOf_val x; omega
  | k + 1, n, mod, t, h, x, hs, hv => by
    have his := unfold_is hS hL hl ho REnv.void_outer k h
    refine value_holds hL (s := k + 1) ?_ _ mod t x his.1 (own_ok h.known.bound his.2) h.known.core hs hv
    intro T mod t hT x hs hv
    obtain ⟨m, rfl, hm⟩ := hole_fits hT
    exact unfold_holds hS hL hl ho k m mod t hm x (by omega) hv

theorem unfold_valid (hS : Supported tree) (hL : Legal tree) (hl : Linked lib tree E) (ho : E.Ok) : ∀ (k : Nat) (n : Key) (mod : Module) (t : AType),
    Fits lib tree E n mod t → ∀ x, Spec.Value storable tree mod t x → (E.unfold E.void k n).Valid x
  | 0, n, mod, t, _, x, _ => REnv.void_valid n x
  | k + 1, n, mod, t, h, x, hv => by
    refine value_valid ?_ _ mod t x (unfold_is hS hL hl ho REnv.void_outer k h).1 hv
    intro T mod t hT x hv
    obtain ⟨m, rfl, hm⟩ := hole_fits hT
    exact unfold_valid hS hL hl ho k m mod t hm x hv

theorem unfold_good (hS : Supported tree) (hL : Legal tree) (hl : Linked lib tree E) (ho : E.Ok) : ∀ (k : Nat) (n : Key) (mod : Module) (t : AType),
    Fits lib tree E n mod t → ∀ x e, sizeOf x ≤ k → Encodes (definite readable) tree mod t x e → e.length < 2 ^ 64 →
      Good (Read (E.unfold E.stub k n) x) e
  | 0, n, mod, t, _, x, e, hs, _, _ => by have := sizeOf_val x; omega
  | k + 1, n, mod, t, h, x, e, hs, hx, hlen => by
    refine good_of_encodes (s := k + 1) ?_ _ mod t x e (unfold_is hS hL hl ho hl.stub_outer k h) (ho.unfold_wf (k + 1) n)
      (ho.unfold_unamb (hl.unamb hS hL) (k + 1) n) hs hx hlen
    intro T mod t hT x e hs hx hlen
    obtain ⟨m, rfl, hm⟩ := hole_fits hT
    exact unfold_good hS hL hl ho k m mod t hm x e (by omega) hx hlen

end

end FastBer.Ast.Fwd
