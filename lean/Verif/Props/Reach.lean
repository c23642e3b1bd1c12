import Verif.Props.Schema
import Verif.Props.Prims
import Verif.Props.Strings
import Verif.Props.Oid
/-!
# C66: objects reachable through the public API

`Reach t o`: `o` is the state of an object of the generated type `t` after some sequence of public operations:
default construction, assignment to leaves, member assignment, pushing/removing list elements, setting and
resetting OPTIONAL and DEFAULT members, choosing an alternative, decoding (whether it succeeds or fails).
-/
namespace FastBer.Props
open Spec FastBer

mutual
/-- States of an object of a generated type after any sequence of public operations.  The length hypotheses say
that no object is larger than the address space; decoded input is `Sane` (C06) and, for an untagged CHOICE, begins
with an element (C44). -/
inductive Reach : Ty → Obj → Prop
  | new {t o} : t.new = .ok o → Reach t o
  | decode {t o bs r o'} : Reach t o → Sane bs → (t.isUntaggedChoice → StartsElement bs) →
      t.decode o bs = .ok (r, o') → Reach t o'
  | int {id d x} : IntReach id d x → Reach (.leaf .int id) (.raw d)
  | enum {id d x} : IntReach id d x → Reach (.leaf .enum id) (.raw d)
  | bool {id d b} : BoolReach id d b → Reach (.leaf .bool id) (.raw d)
  | str {id c} : StrReach id c → Reach (.leaf .str id) (.cont c)
  | oid {id c} : StrReach id c → Reach (.leaf .oid id) (.cont c)
  | oidAssign {id c oid r c'} : Reach (.leaf .oid id) (.cont c) → id.encodedLength (encodedObjectIdLength oid) < 2 ^ 64 →
      Oid.assign id c oid = .ok (r, c') → Reach (.leaf .oid id) (.cont c')
  | real {cmp id d c d'} : Reach (.leaf (.real cmp) id) (.raw d) → c.length ≤ 100 →
      Small.assignContent id d c = .ok d' → Reach (.leaf (.real cmp) id) (.raw d')
  | time {cmp id c} : StrReach id c → Reach (.leaf (.time cmp) id) (.cont c)
  | list {id t os} : (∀ o ∈ os, Reach t o) → Reach (.seqOf id t) (.list os)
  | seqMember {id fs os n c o} : Reach (.seq id fs) (.struct os) → fs.comps[n]? = some c → Member c o →
      Reach (.seq id fs) (.struct (os.set n o))
  | setMember {id ext fs os n c o} : Reach (.set id ext fs) (.struct os) → fs.comps[n]? = some c → Member c o →
      Reach (.set id ext fs) (.struct (os.set n o))
  | alt {cid as i a o} : as.list[i]? = some a → Reach a.ty o → Reach (.choice cid as) (.alt i o)
/-- States of a member: the type itself, an empty or filled OPTIONAL, a DEFAULT reset or assigned. -/
inductive Member : Comp → Obj → Prop
  | mandatory {l t o} : Reach t o → Member ⟨.mandatory, l, t⟩ o
  | reset {k l t} : k ≠ .mandatory → Member ⟨k, l, t⟩ .none
  | optional {l t o} : Reach t o → Member ⟨.optional, l, t⟩ (.some o)
  | default {d l t o m} : Reach t o → Default.assign t d o = .ok m → Member ⟨.default d, l, t⟩ m
end

/-! ## Components of well-formed and guarded types -/

theorem wf_comp : (fs : Fields) → fs.WF → ∀ {n : Nat} {c : Comp}, fs.comps[n]? = some c → c.ty.WF
  | .nil, _, _, _, h => by simp [Fields.comps] at h
  | .cons k l t rest, hw, n, c, h => by
    cases n with
    | zero => simp only [Fields.comps, List.getElem?_cons_zero, Option.some.injEq] at h; subst h; exact hw.1
    | succ n => exact wf_comp rest hw.2.2 (by simpa [Fields.comps] using h)

theorem seqGuarded_comp : (fs : Fields) → fs.SeqGuarded → ∀ {n : Nat} {c : Comp}, fs.comps[n]? = some c → c.ty.Guarded
  | .nil, _, _, _, h => by simp [Fields.comps] at h
  | .cons k l t rest, hw, n, c, h => by
    cases n with
    | zero => simp only [Fields.comps, List.getElem?_cons_zero, Option.some.injEq] at h; subst h; exact hw.1
    | succ n => exact seqGuarded_comp rest hw.2.2 (by simpa [Fields.comps] using h)

theorem setGuarded_comp : (fs : Fields) → fs.SetGuarded → ∀ {n : Nat} {c : Comp}, fs.comps[n]? = some c → c.ty.Guarded
  | .nil, _, _, _, h => by simp [Fields.comps] at h
  | .cons k l t rest, hw, n, c, h => by
    cases n with
    | zero => simp only [Fields.comps, List.getElem?_cons_zero, Option.some.injEq] at h; subst h; exact hw.1
    | succ n => exact setGuarded_comp rest hw.2 (by simpa [Fields.comps] using h)

theorem wf_alt : (as : Alts) → as.WF → ∀ {n : Nat} {a : AltC}, as.list[n]? = some a → a.ty.WF
  | .nil, _, _, _, h => by simp [Alts.list] at h
  | .cons l t rest, hw, n, c, h => by
    cases n with
    | zero => simp only [Alts.list, List.getElem?_cons_zero, Option.some.injEq] at h; subst h; exact hw.1
    | succ n => exact wf_alt rest hw.2 (by simpa [Alts.list] using h)

theorem guarded_alt : (as : Alts) → as.Guarded → ∀ {n : Nat} {a : AltC}, as.list[n]? = some a → a.ty.Guarded
  | .nil, _, _, _, h => by simp [Alts.list] at h
  | .cons l t rest, hw, n, c, h => by
    cases n with
    | zero => simp only [Alts.list, List.getElem?_cons_zero, Option.some.injEq] at h; subst h; exact hw.1
    | succ n => exact guarded_alt rest hw.2 (by simpa [Alts.list] using h)

/-! ## ObjectIdentifier::assign keeps a well-formed container -/

theorem oidWrite_length {out : Bytes} {pos : Nat} {first : Bool} {c : Nat} {out' : Bytes} {pos' : Nat}
    (h : oidWrite out pos first c = .ok (out', pos')) : out'.length = out.length := by
  induction c using Nat.strongRecOn generalizing out pos first with
  | _ c ih =>
    rw [oidWrite] at h
    split at h
    · dsimp only at h
      split at h
      · rename_i hc
        have := ih (c / 128) (by omega) h
        simpa using this
      · simp only [Exec.ok.injEq, Prod.mk.injEq] at h
        rw [← h.1, List.length_set]
    · cases h

theorem oidLoop_length {cs : List Int} {out : Bytes} {pos : Nat} {ok : Bool} {out' : Bytes}
    (h : oidLoop out pos cs = .ok (ok, out')) : out'.length = out.length := by
  induction cs generalizing out pos with
  | nil => simp only [oidLoop, Exec.ok.injEq, Prod.mk.injEq] at h; rw [h.2]
  | cons c cs ih =>
    rw [oidLoop] at h
    split at h
    · simp only [Exec.ok.injEq, Prod.mk.injEq] at h; rw [h.2]
    · cases hw : oidWrite out pos true c.toNat with
      | ok p =>
        rw [hw] at h
        rw [ih (out := p.1) (pos := p.2) h, oidWrite_length (pos' := p.2) (out' := p.1) (by rw [hw])]
      | ub => rw [hw] at h; cases h
      | loop => rw [hw] at h; cases h

theorem encodeObjectId_length {out : Bytes} {oid : List Int} {n : Nat} {r : EncodeResult} {out' : Bytes}
    (h : encodeObjectId out oid n = .ok (r, out')) : out'.length = out.length := by
  unfold encodeObjectId at h
  generalize hm : (if n = 0 then encodedObjectIdLength oid else n) = m at h
  dsimp only at h
  match oid with
  | [] => simp only [Exec.ok.injEq, Prod.mk.injEq] at h; rw [h.2]
  | [_] => simp only [Exec.ok.injEq, Prod.mk.injEq] at h; rw [h.2]
  | a :: b :: rest =>
    dsimp only at h
    by_cases h1 : out.length = 0 ∨ out.length < m ∨ a > 2 ∨ b > 39
    · rw [if_pos h1] at h
      simp only [Exec.ok.injEq, Prod.mk.injEq] at h; rw [h.2]
    · rw [if_neg h1] at h
      by_cases h2 : 40 * a < -2 ^ 63 ∨ 40 * a + b < -2 ^ 63
      · rw [if_pos h2] at h; cases h
      · rw [if_neg h2] at h
        cases hl : oidLoop (out.set 0 (UInt8.ofNat ((40 * a + b) % 256).toNat)) (decPos m) rest.reverse with
        | ok p =>
          rw [hl] at h
          simp only [Exec.ok_bind, Exec.ok.injEq, Prod.mk.injEq] at h
          rw [← h.2, oidLoop_length (ok := p.1) (out' := p.2) (by rw [hl]), List.length_set]
        | ub => rw [hl] at h; cases h
        | loop => rw [hl] at h; cases h

theorem resize_canon {id : Ident} (hid : identOk id) {c c' : Cont} (hc : ContWf id c) {n : Nat}
    (hn : id.encodedLength n < 2 ^ 64) (he : Cont.resizeContent id c n = .ok c') :
    ∃ x, x.length = n ∧ ContCanon id x c' := by
  obtain ⟨v, w, _, _, _, _, h5, h6⟩ := hc
  have hle : c.len ≤ c.data.length := by omega
  by_cases hs : c.data.length - c.len + min c.len n ≤ id.headerLength n + n
  · obtain ⟨x, c2, e, hc, hxl, _⟩ := resizeContent_ok hid c n hn hle hs
    rw [he] at e
    simp only [Exec.ok.injEq] at e
    subst e
    exact ⟨x, hxl, hc⟩
  · simp only [Cont.resizeContent] at he
    rw [if_neg (by omega), if_neg (by rw [length_vecResize]; omega)] at he
    cases he

theorem oidAssign_wf {id : Ident} (hid : identOk id) {c c' : Cont} (hc : ContWf id c) {oid : List Int} {r : Bool}
    (hn : id.encodedLength (encodedObjectIdLength oid) < 2 ^ 64) (h : Oid.assign id c oid = .ok (r, c')) :
    ContWf id c' := by
  simp only [Oid.assign] at h
  cases hr : Cont.resizeContent id c (encodedObjectIdLength oid) with
  | ub => rw [hr] at h; cases h
  | loop => rw [hr] at h; cases h
  | ok c1 =>
    obtain ⟨x, hx, hcan⟩ := resize_canon hid hc hn hr
    rw [hr, Exec.ok_bind, hcan.content, Exec.ok_bind] at h
    cases he : encodeObjectId x oid (encodedObjectIdLength oid) with
    | ub => rw [he] at h; cases h
    | loop => rw [he] at h; cases h
    | ok p =>
      have hl := encodeObjectId_length (r := p.1) (out' := p.2) (by rw [he])
      rw [he] at h
      simp only [Exec.ok_bind, Exec.ok.injEq, Prod.mk.injEq] at h
      obtain ⟨_, rfl⟩ := h
      have h1 := length_tagged' id .primitive x
      have hc1 : c1 = ⟨tagged id .primitive x, x.length⟩ := hcan
      subst hc1
      have : ContCanon id p.2 ⟨writeAt (tagged id .primitive x) ((tagged id .primitive x).length - x.length) p.2, x.length⟩ := by
        have hw : writeAt (tagged id .primitive x) ((tagged id .primitive x).length - x.length) p.2
            = tagged id .primitive p.2 := by
          rw [h1, Nat.add_sub_cancel, writeAt, tagged_eq, tagged_eq, hl, List.take_left, List.drop_eq_nil_of_le
            (by rw [List.length_append]; omega), List.append_nil]
        rw [ContCanon, hw, hl]
      refine this.wf hid ?_
      rw [← hx, ← hl] at hn
      rw [length_tagged hid _ _ hn]; exact hn

theorem cont_holds {id : Ident} {c : Cont} (h : ContWf id c) : ∃ x e, contRep id (.cont c) x e :=
  ⟨_, _, contRep_iff.mpr ⟨c, rfl, h, rfl, rfl⟩⟩

theorem small_holds {id : Ident} {max : Nat} {c d : Bytes} (h : SmallWf id max c d) : ∃ x e, smallRep max id (.raw d) x e :=
  ⟨_, _, smallRep_iff.mpr ⟨c, d, rfl, rfl, h, rfl⟩⟩

theorem list_holds {t : Ty} {id : Ident} : (os : List Obj) → (∀ o ∈ os, t.Holds o) → (Ty.seqOf id t).Holds (.list os) := by
  intro os h
  suffices ∃ xs es, all3 t.Rep os xs es by
    obtain ⟨xs, es, h⟩ := this
    exact ⟨.list xs, _, os, xs, es, rfl, rfl, rfl, h⟩
  induction os with
  | nil => exact ⟨[], [], trivial⟩
  | cons o os ih =>
    obtain ⟨xs, es, h1⟩ := ih (fun o ho => h o (by simp [ho]))
    obtain ⟨x, e, h2⟩ := h o (by simp)
    exact ⟨x :: xs, e :: es, h2, h1⟩

mutual
theorem reach_holds {t : Ty} {o : Obj} : Reach t o → t.WF → t.Guarded → t.Holds o
  | .new h, hw, _ => by
    obtain ⟨o', x, e, h1, h2, _⟩ := (t.encLaws hw).init
    rw [Ty.new, h1] at h
    simp only [Exec.ok.injEq] at h
    subst h; exact ⟨x, e, h2⟩
  | .decode h0 hs hc hd, hw, hg => by
    obtain ⟨v, r, o', _, _, h2, h3, _⟩ := t.decode_law hw hg hs hc (reach_holds h0 hw hg)
    rw [hd] at h2
    simp only [Exec.ok.injEq, Prod.mk.injEq] at h2
    rw [h2.2]; exact h3
  | .int h, hw, _ => by obtain ⟨c, h1, _⟩ := reach_wf hw h; exact small_holds h1
  | .enum h, hw, _ => by obtain ⟨c, h1, _⟩ := reach_wf hw h; exact small_holds h1
  | .bool h, _, _ => by obtain ⟨_, rfl⟩ := boolReach_eq h; exact ⟨_, _, _, rfl, rfl, rfl⟩
  | .str h, hw, _ => cont_holds (strReach_wf hw h)
  | .oid h, hw, _ => cont_holds (strReach_wf hw h)
  | .time h, hw, _ => cont_holds (strReach_wf hw h)
  | .oidAssign h hn ha, hw, hg => by
    obtain ⟨x, e, hr⟩ := reach_holds h hw hg
    obtain ⟨c, hc, hwf, _⟩ := contRep_iff.mp (show contRep _ _ x e from hr)
    simp only [Obj.cont.injEq] at hc
    subst hc
    exact cont_holds (oidAssign_wf hw hwf hn ha)
  | .real h hl ha, hw, hg => by
    obtain ⟨x, e, hr⟩ := reach_holds h hw hg
    obtain ⟨c, d, _, hd, hwf, _⟩ := smallRep_iff.mp (show smallRep 100 _ _ x e from hr)
    simp only [Obj.raw.injEq] at hd
    subst hd
    obtain ⟨d', h1, h2⟩ := hwf.assignContent hw (by omega) _ hl
    rw [h1] at ha
    simp only [Exec.ok.injEq] at ha
    subst ha
    exact small_holds h2
  | .list h, hw, hg => list_holds _ (fun o ho => reach_holds (h o ho) hw.2 hg)
  | .seqMember h hc hm, hw, hg => by
    obtain ⟨x, e, os, xs, es, ho, rfl, rfl, hr⟩ := reach_holds h hw hg
    simp only [Obj.struct.injEq] at ho
    subst ho
    have hh := member_holds hm (wf_comp _ hw.2 hc) (seqGuarded_comp _ hg hc)
    obtain ⟨xs', es', h2⟩ := compsHold_of (holdAt_set (holdAt_of ⟨xs, es, (Fields.rep_iff _ _ _ _).mp hr⟩) hc hh)
    exact ⟨_, _, _, xs', es', rfl, rfl, rfl, (Fields.rep_iff _ _ _ _).mpr h2⟩
  | .setMember h hc hm, hw, hg => by
    obtain ⟨x, e, os, xs, es, ho, rfl, rfl, hr⟩ := reach_holds h hw hg
    simp only [Obj.struct.injEq] at ho
    subst ho
    have hh := member_holds hm (wf_comp _ hw.2 hc) (setGuarded_comp _ hg hc)
    obtain ⟨xs', es', h2⟩ := compsHold_of (holdAt_set (holdAt_of ⟨xs, es, (Fields.rep_iff _ _ _ _).mp hr⟩) hc hh)
    exact ⟨_, _, _, xs', es', rfl, rfl, rfl, (Fields.rep_iff _ _ _ _).mpr h2⟩
  | .alt (cid := cid) (as := as) ha h, hw, hg => by
    have hw' : as.WF := by
      cases cid with
      | tagged id => exact hw.2.1
      | untagged ids => exact hw.2.1
    obtain ⟨x, e, hr⟩ := reach_holds h (wf_alt _ hw' ha) (guarded_alt _ hg ha)
    exact ⟨_, _, _, _, x, e, rfl, rfl, (Alts.rep_iff _ _ _ _ _).mpr ⟨_, ha, hr⟩, rfl⟩
theorem member_holds {c : Comp} {o : Obj} : Member c o → c.ty.WF → c.ty.Guarded → c.Holds o
  | .mandatory h, hw, hg => reach_holds h hw hg
  | .reset (k := k) hk, _, _ => by
    refine ⟨.absent, [], ?_⟩
    cases k with
    | mandatory => exact absurd rfl hk
    | optional => exact .inl ⟨rfl, rfl, rfl⟩
    | default d => exact .inl ⟨rfl, rfl, rfl⟩
  | .optional h, hw, hg => by
    obtain ⟨x, e, hr⟩ := reach_holds h hw hg
    exact ⟨_, _, .inr ⟨_, _, rfl, rfl, hr⟩⟩
  | .default (d := d) (o := o) (t := t) h ha, hw, hg => by
    obtain ⟨x, e, hr⟩ := reach_holds h hw hg
    simp only [Default.assign] at ha
    cases hq : t.codec.eq d o with
    | ub => rw [hq] at ha; cases ha
    | loop => rw [hq] at ha; cases ha
    | ok b =>
      rw [hq, Exec.ok_bind] at ha
      cases b with
      | true => simp only [if_true, Exec.ok.injEq] at ha; subst ha; exact ⟨_, _, .inl ⟨rfl, rfl, rfl⟩⟩
      | false =>
        simp only [Bool.false_eq_true, if_false, Exec.ok.injEq] at ha
        subst ha; exact ⟨_, _, .inr ⟨_, _, rfl, rfl, hr⟩⟩
end

/-- C66.  After any sequence of public operations an object of a generated type holds a value of the type, i.e. it
satisfies the hypotheses of C31-C48. -/
theorem C66_reachable_holds_partial (t : Ty) (hw : t.WF) (hg : t.Guarded) {o : Obj} (h : Reach t o) : t.Holds o :=
  reach_holds h hw hg

/-- C66: … therefore `encode` of it into a buffer of `encoded_length` bytes succeeds and fills exactly those,
unless the encoding would exceed the address space. -/
theorem C66_reachable_encodes_partial (t : Ty) (hw : t.WF) (hg : t.Guarded) {o : Obj} (h : Reach t o)
    (hl : ∀ x e, t.Rep o x e → e.length < 2 ^ 64) (buf : Bytes) (hb : t.encodedLength o ≤ buf.length) :
    ∃ e, e.length = t.encodedLength o ∧
      t.encode o buf = .ok (⟨true, t.encodedLength o⟩, e ++ buf.drop (t.encodedLength o)) := by
  obtain ⟨x, e, hr⟩ := reach_holds h hw hg
  have hsz : t.encodedLength o = e.length := (t.encLaws hw).size hr (hl x e hr)
  refine ⟨e, hsz.symm, ?_⟩
  have := ((t.encLaws hw).writes hr (hl x e hr)).1 buf (by omega)
  rw [hsz, Ty.encode, this]

/-- A history: default-construct, set the list, choose the second alternative, set and reset members. -/
example : ∃ o, Reach sample o ∧ sample.Holds o ∧
    sample.encode o (List.replicate 23 0) = .ok (⟨true, 23⟩,
      [0x30, 21, 2, 1, 0, 1, 1, 255, 0xA1, 3, 2, 1, 0, 0x31, 3, 10, 1, 0, 0xA2, 3, 2, 1, 0]) := by
  have hint : Reach (.leaf .int (univ 2)) (.raw [2, 1, 0, 0, 0, 0, 0, 0, 0, 0]) := .new rfl
  have hb : BoolReach (univ 1) [1, 1, 255] 255 := .assign (d := [1, 1, 0]) true (.default (by simp [univ, identOk, idOk]))
  have h0 : ∃ o, sample.new = .ok (.struct o) ∧ o.length = 7 := ⟨_, rfl, rfl⟩
  obtain ⟨os, h0, _⟩ := h0
  have h1 : Reach sample (.struct os) := .new h0
  have h2 : Reach sample (.struct (os.set 3 (.list [.raw [2, 1, 0, 0, 0, 0, 0, 0, 0, 0]]))) :=
    .seqMember h1 rfl (.mandatory (.list (by simpa using hint)))
  have h3 := Reach.seqMember (n := 2) h2 rfl (.default (.bool hb) rfl)
  have h4 := Reach.seqMember (n := 1) h3 rfl (.reset (by simp))
  refine ⟨_, h4, C66_reachable_holds_partial _ sample_wf sample_guarded h4, ?_⟩
  have e0 : (.struct os : Obj) = _ := (Exec.ok.inj (h0.symm.trans rfl))
  simp only [Obj.struct.injEq] at e0
  subst e0
  rfl

end FastBer.Props
