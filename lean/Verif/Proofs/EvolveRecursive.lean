import Verif.Proofs.Evolve
import Verif.Proofs.ForwardValue
/-!
# Versions of recursive types
-/
namespace FastBer.Ast.Fwd
open Spec FastBer.Spec

/-- What the unfoldings of a generated recursive type make of encodings of a later version. -/
theorem unfold_later {added : List Slot → Prop} {dropped : List Val → Prop} {lib : Lib} {old new : Tree} {E : REnv Key} (hS : Supported old) (hL : Legal old) (hl : Linked lib old E) (ho : E.Ok)
    (hN : Legal new) : ∀ (k : Nat) (n : Key) (mod : Module) (t : AType), Fits lib old E n mod t → ∀ mod' t' x y e, sizeOf x ≤ k → Later added old new mod t mod' t' → Known new mod' t' →
      Part dropped old mod t x y → Encodes (definite readable) new mod' t' x e → e.length < 2 ^ 64 → Good (Read (E.unfold E.stub k n) y) e
  | 0, n, mod, t, _, _, _, x, _, e, hs, _, _, _, _, _ => by have := sizeOf_val x; omega
  | k + 1, n, mod, t, h, mod', t', x, y, e, hs, hlt, hk, hp, hx, hlen => by
    refine Evo.good_later hN (hole_begins hS hl fun m => ho.unfold_outer hl.stub_outer k m) (s := k + 1) ?_ _ mod t mod' t' x y e (unfold_is hS hL hl ho hl.stub_outer k h) (ho.unfold_wf (k + 1) n)
      (ho.unfold_unamb (hl.unamb hS hL) (k + 1) n) hs hlt hk hp hx hlen
    intro T mod t hT mod' t' x y e hs hlt hk hp hx hlen
    obtain ⟨m, rfl, hm⟩ := hole_fits hT
    exact unfold_later hS hL hl ho hN k m mod t hm mod' t' x y e (by omega) hlt hk hp hx hlen

end FastBer.Ast.Fwd
