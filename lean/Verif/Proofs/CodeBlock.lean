import Verif.Model.CodeBlock
import Verif.Spec.CodeBlock
/-! # Proofs about code blocks -/
namespace FastBer.Code
open Spec

theorem braces_other {c : Char} (h1 : c ≠ '{') (h2 : c ≠ '}') (d : Nat) (cs : List Char) :
    braces d (c :: cs) = braces d cs := by
  rw [braces.eq_def]
  split
  · rename_i h; cases h
  · rename_i h; simp at h; exact absurd h.1 h1
  · rename_i h; simp at h; exact absurd h.1 h2
  · rename_i h; simp at h; exact absurd h.1 h2
  · rename_i h; simp at h; obtain ⟨rfl, rfl⟩ := h; rfl

theorem braces_open (d : Nat) (cs : List Char) : braces d ('{' :: cs) = braces (d + 1) cs := by
  rw [braces]
theorem braces_close (d : Nat) (cs : List Char) : braces (d + 1) ('}' :: cs) = braces d cs := by
  rw [braces]
theorem braces_close0 (cs : List Char) : braces 0 ('}' :: cs) = none := by
  rw [braces]

theorem braces_append : ∀ (a : List Char) (d : Nat) (b : List Char),
    braces d (a ++ b) = (braces d a).bind fun e => braces e b
  | [], d, b => by simp [braces]
  | c :: a, d, b => by
    rw [List.cons_append]
    by_cases h1 : c = '{'
    · subst h1; rw [braces_open, braces_open, braces_append a]
    · by_cases h2 : c = '}'
      · subst h2
        cases d with
        | zero => rw [braces_close0, braces_close0]; rfl
        | succ d => rw [braces_close, braces_close, braces_append a]
      · rw [braces_other h1 h2, braces_other h1 h2, braces_append a]

theorem braces_shift (n : Nat) : ∀ (l : List Char) (a b : Nat), braces a l = some b →
    braces (a + n) l = some (b + n)
  | [], a, b, h => by simp [braces] at h ⊢; omega
  | c :: l, a, b, h => by
    by_cases h1 : c = '{'
    · subst h1; rw [braces_open] at *
      have := braces_shift n l _ _ h
      rw [show a + n + 1 = a + 1 + n by omega]; exact this
    · by_cases h2 : c = '}'
      · subst h2
        cases a with
        | zero => rw [braces_close0] at h; cases h
        | succ a =>
          rw [braces_close] at h
          rw [show a + 1 + n = a + n + 1 by omega, braces_close]
          exact braces_shift n l _ _ h
      · rw [braces_other h1 h2] at *
        exact braces_shift n l _ _ h

theorem braces_spaces (d k : Nat) (l : List Char) :
    braces d (List.replicate k ' ' ++ l) = braces d l := by
  induction k with
  | zero => simp
  | succ k ih => rw [List.replicate_succ, List.cons_append, braces_other (by decide) (by decide), ih]

/-- A piece of text that starts at brace depth `d`, ends at depth `d'` and is indented accordingly. -/
structure Chunk (d d' : Nat) (t : List Char) : Prop where
  ends : t = [] ∨ t.getLast? = some '\n'
  depth : braces d t = some d'
  ind : ∀ p q, (p = [] ∨ p.getLast? = some '\n') → t = p ++ q → q.head? ≠ some '\n' → q ≠ [] →
    ∃ e, braces d p = some e ∧ ∃ k r, q = List.replicate (4 * k) ' ' ++ r ∧ r ≠ [] ∧
      r.head? ≠ some ' ' ∧ k = if r.head? = some '}' then e - 1 else e

theorem Chunk.nil (d : Nat) : Chunk d d [] where
  ends := .inl rfl
  depth := rfl
  ind := by
    intro p q _ h _ hq
    have := congrArg List.length h
    simp at this
    exact absurd (List.eq_nil_of_length_eq_zero (by omega)) hq

theorem Chunk.append {a b c : Nat} {s t : List Char} (h : Chunk a b s) (k : Chunk b c t) :
    Chunk a c (s ++ t) where
  ends := by
    rcases k.ends with rfl | e
    · simpa using h.ends
    · right
      cases t with
      | nil => simp at e
      | cons x t => rw [List.getLast?_append, e]; rfl
  depth := by rw [braces_append, h.depth]; exact k.depth
  ind := by
    intro p q hp e hq hqn
    rcases List.append_eq_append_iff.mp e with ⟨m, rfl, rfl⟩ | ⟨m, rfl, rfl⟩
    · -- the line starts inside `t`
      obtain ⟨e, h1, h2⟩ := k.ind m q (by
        rcases hp with hp | hp
        · left; simp at hp; exact hp.2
        · cases m with
          | nil => left; rfl
          | cons x m => right; rw [List.getLast?_append] at hp; simpa using hp) rfl hq hqn
      exact ⟨e, by rw [braces_append, h.depth]; exact h1, h2⟩
    · cases m with
      | nil =>
        simp only [List.append_nil, List.nil_append] at *
        obtain ⟨e, h1, h2⟩ := k.ind [] _ (.inl rfl) rfl hq hqn
        refine ⟨b, h.depth, ?_⟩
        simp [braces] at h1; subst h1; exact h2
      | cons x m =>
        obtain ⟨e, h1, j, r, h2, h3, h4, h5⟩ := h.ind p (x :: m) hp rfl (by simpa using hq) (by simp)
        refine ⟨e, h1, j, r ++ t, by rw [h2, List.append_assoc], by simp [h3], ?_, ?_⟩
        · cases r with
          | nil => exact absurd rfl h3
          | cons y r => simpa using h4
        · cases r with
          | nil => exact absurd rfl h3
          | cons y r => simpa using h5

/-- One line of output. -/
theorem Chunk.line {d d' i : Nat} {l : List Char} (hn : '\n' ∉ l) (hne : l ≠ [])
    (hs : l.head? ≠ some ' ') (hb : braces d l = some d')
    (hi : i = if l.head? = some '}' then d - 1 else d) :
    Chunk d d' (List.replicate (i * 4) ' ' ++ l ++ ['\n']) where
  ends := .inr (by simp)
  depth := by
    rw [List.append_assoc, braces_spaces, braces_append, hb]
    simp [braces]
  ind := by
    intro p q hp e hq hqn
    have hp0 : p = [] := by
      rcases hp with hp | hp
      · exact hp
      · exfalso
        -- the only newline is the last character
        obtain ⟨x, q', rfl⟩ := List.exists_cons_of_ne_nil hqn
        have hm : '\n' ∈ List.replicate (i * 4) ' ' ++ l := by
          have hmem : '\n' ∈ p := List.mem_of_getLast? hp
          rcases List.append_eq_append_iff.mp e with ⟨m, rfl, h2⟩ | ⟨m, h1, h2⟩
          · cases m with
            | nil => simpa using hmem
            | cons y m =>
              have := congrArg List.length h2
              simp at this
          · rw [h1]; exact List.mem_append_left _ hmem
        rcases List.mem_append.mp hm with h | h
        · have := (List.mem_replicate.mp h).2
          exact absurd this (by decide)
        · exact hn h
    subst hp0
    simp only [List.nil_append] at e
    refine ⟨d, rfl, i, l ++ ['\n'], ?_, by simp, ?_, ?_⟩
    · rw [← e, Nat.mul_comm, List.append_assoc]
    · cases l with
      | nil => exact absurd rfl hne
      | cons x l => simpa using hs
    · cases l with
      | nil => exact absurd rfl hne
      | cons x l => simpa using hi

theorem Chunk.blank (d : Nat) : Chunk d d ['\n'] where
  ends := .inr rfl
  depth := by rw [braces_other (by decide) (by decide)]; rfl
  ind := by
    intro p q hp e hq hqn
    exfalso
    cases p with
    | nil => simp at e; subst e; simp at hq
    | cons x p =>
      simp only [List.cons_append, List.cons.injEq] at e
      have := e.2
      simp at this
      exact hqn this.2

theorem streamContents_append (d : Nat) : ∀ (a b : List Content),
    CodeBlock.streamContents d (a ++ b) = CodeBlock.streamContents d a ++ CodeBlock.streamContents d b
  | [], b => by simp [CodeBlock.streamContents]
  | c :: a, b => by
    simp only [List.cons_append, CodeBlock.streamContents, streamContents_append d a b, List.append_assoc]

mutual
theorem exec_chunk : ∀ (c : Cmd) (b : CodeBlock), LinesOf CleanLine c →
    (exec b c).indentation = b.indentation ∧ ∃ new, (exec b c).content = b.content ++ new ∧
      ∀ D, Chunk (D + b.indentation) (D + b.indentation) (CodeBlock.streamContents D new)
  | .line l, b, h => by
    simp only [LinesOf] at h
    refine ⟨by simp [exec, CodeBlock.addLine, CodeBlock.indentation],
      [.line b.indentation l], by simp [exec, CodeBlock.addLine, CodeBlock.content], ?_⟩
    intro D
    simp only [CodeBlock.streamContents, CodeBlock.streamContent, List.append_nil]
    cases hl : l with
    | nil => simpa using Chunk.blank _
    | cons x xs =>
      simp only [List.isEmpty_cons, Bool.false_eq_true, if_false]
      rw [← hl]
      refine .line h.newline (by simp [hl]) h.space ?_ ?_
      · have := braces_shift (D + b.indentation) l 0 0 h.braces
        simpa using this
      · rw [if_neg h.close]
  | .block body, b, h => by
    simp only [LinesOf] at h
    obtain ⟨h1, new, h2, h3⟩ := execAll_chunk body .empty h
    refine ⟨by simp [exec, CodeBlock.addBlock, CodeBlock.indentation],
      [.block b.indentation (execAll .empty body)],
      by simp [exec, CodeBlock.addBlock, CodeBlock.content], ?_⟩
    intro D
    simp only [CodeBlock.streamContents, CodeBlock.streamContent, List.append_nil]
    rcases e : execAll .empty body with ⟨i, c⟩
    rw [e] at h2
    simp only [CodeBlock.content, CodeBlock.empty, List.nil_append] at h2
    simp only [CodeBlock.stream, h2]
    have := h3 (D + b.indentation)
    simpa [CodeBlock.empty, CodeBlock.indentation] using this
  | .scope semi body, b, h => by
    simp only [LinesOf] at h
    obtain ⟨h1, new, h2, h3⟩ := execAll_chunk body b.openScope h
    have hi : (execAll b.openScope body).indentation = b.indentation + 1 := by
      rw [h1]; simp [CodeBlock.openScope, CodeBlock.addLine, CodeBlock.indentation]
    have hc : (execAll b.openScope body).content = b.content ++ (.line b.indentation ['{'] :: new) := by
      rw [h2]; simp [CodeBlock.openScope, CodeBlock.addLine, CodeBlock.content]
    refine ⟨by simp [exec, CodeBlock.closeScope, CodeBlock.addLine, CodeBlock.indentation] at hi ⊢; omega,
      .line b.indentation ['{'] :: new ++
        [.line b.indentation (if semi then ['}', ';'] else ['}'])], ?_, ?_⟩
    · simp only [exec, CodeBlock.closeScope, CodeBlock.addLine, hi, hc, Nat.add_sub_cancel]
      simp [CodeBlock.content, CodeBlock.indentation]
    · intro D
      rw [List.cons_append, CodeBlock.streamContents, streamContents_append]
      have ho : Chunk (D + b.indentation) (D + b.indentation + 1)
          (CodeBlock.streamContent D (.line b.indentation ['{'])) := by
        simp only [CodeBlock.streamContent, List.isEmpty_cons, Bool.false_eq_true, if_false]
        exact .line (by decide) (by decide) (by decide) (by rw [braces_open]; rfl) (by simp)
      have hcl : Chunk (D + b.indentation + 1) (D + b.indentation)
          (CodeBlock.streamContents D [.line b.indentation (if semi then ['}', ';'] else ['}'])]) := by
        simp only [CodeBlock.streamContents, CodeBlock.streamContent, List.append_nil]
        cases semi
        · exact .line (l := ['}']) (by decide) (by decide) (by decide) (by rw [braces_close]; rfl) rfl
        · refine .line (l := ['}', ';']) (by decide) (by decide) (by decide) ?_ rfl
          rw [braces_close, braces_other (by decide) (by decide)]; rfl
      have hm := h3 D
      have : b.openScope.indentation = b.indentation + 1 := by
        simp [CodeBlock.openScope, CodeBlock.addLine, CodeBlock.indentation]
      rw [this, ← Nat.add_assoc] at hm
      exact ho.append (hm.append hcl)
theorem execAll_chunk : ∀ (cs : List Cmd) (b : CodeBlock), LinesOfAll CleanLine cs →
    (execAll b cs).indentation = b.indentation ∧ ∃ new, (execAll b cs).content = b.content ++ new ∧
      ∀ D, Chunk (D + b.indentation) (D + b.indentation) (CodeBlock.streamContents D new)
  | [], b, _ => ⟨rfl, [], by simp [execAll], fun D => by simpa [CodeBlock.streamContents] using Chunk.nil _⟩
  | c :: cs, b, h => by
    simp only [LinesOfAll] at h
    obtain ⟨h1, n1, h2, h3⟩ := exec_chunk c b h.1
    obtain ⟨k1, n2, k2, k3⟩ := execAll_chunk cs (exec b c) h.2
    refine ⟨by simp only [execAll]; rw [k1, h1], n1 ++ n2, ?_, ?_⟩
    · simp only [execAll]; rw [k2, h2, List.append_assoc]
    · intro D
      rw [streamContents_append]
      have := k3 D
      rw [h1] at this
      exact (h3 D).append this
end

theorem text_chunk (cs : List Cmd) (h : LinesOfAll CleanLine cs) : Chunk 0 0 (execAll .empty cs).toText := by
  obtain ⟨_, new, h2, h3⟩ := execAll_chunk cs .empty h
  rcases e : execAll .empty cs with ⟨i, c⟩
  rw [e] at h2
  simp only [CodeBlock.content, CodeBlock.empty, List.nil_append] at h2
  simp only [CodeBlock.toText, CodeBlock.stream, h2]
  simpa [CodeBlock.empty, CodeBlock.indentation] using h3 0

/-! ## Braces alone -/

mutual
theorem exec_braces : ∀ (c : Cmd) (b : CodeBlock), LinesOf Balanced c →
    (exec b c).indentation = b.indentation ∧ ∃ new, (exec b c).content = b.content ++ new ∧
      ∀ D n, braces n (CodeBlock.streamContents D new) = some n
  | .line l, b, h => by
    simp only [LinesOf] at h
    refine ⟨by simp [exec, CodeBlock.addLine, CodeBlock.indentation],
      [.line b.indentation l], by simp [exec, CodeBlock.addLine, CodeBlock.content], ?_⟩
    intro D n
    simp only [CodeBlock.streamContents, CodeBlock.streamContent, List.append_nil]
    have := braces_shift n l 0 0 h
    simp only [Nat.zero_add] at this
    split
    · rw [List.nil_append, braces_other (by decide) (by decide)]; rfl
    · rw [List.append_assoc, braces_spaces, braces_append, this]
      show braces n ['\n'] = _
      rw [braces_other (by decide) (by decide)]; rfl
  | .block body, b, h => by
    simp only [LinesOf] at h
    obtain ⟨h1, new, h2, h3⟩ := execAll_braces body .empty h
    refine ⟨by simp [exec, CodeBlock.addBlock, CodeBlock.indentation],
      [.block b.indentation (execAll .empty body)],
      by simp [exec, CodeBlock.addBlock, CodeBlock.content], ?_⟩
    intro D n
    simp only [CodeBlock.streamContents, CodeBlock.streamContent, List.append_nil]
    rcases e : execAll .empty body with ⟨i, c⟩
    rw [e] at h2
    simp only [CodeBlock.content, CodeBlock.empty, List.nil_append] at h2
    simp only [CodeBlock.stream, h2]
    exact h3 _ _
  | .scope semi body, b, h => by
    simp only [LinesOf] at h
    obtain ⟨h1, new, h2, h3⟩ := execAll_braces body b.openScope h
    have hi : (execAll b.openScope body).indentation = b.indentation + 1 := by
      rw [h1]; simp [CodeBlock.openScope, CodeBlock.addLine, CodeBlock.indentation]
    have hc : (execAll b.openScope body).content = b.content ++ (.line b.indentation ['{'] :: new) := by
      rw [h2]; simp [CodeBlock.openScope, CodeBlock.addLine, CodeBlock.content]
    refine ⟨by simp [exec, CodeBlock.closeScope, CodeBlock.addLine, CodeBlock.indentation] at hi ⊢; omega,
      .line b.indentation ['{'] :: new ++
        [.line b.indentation (if semi then ['}', ';'] else ['}'])], ?_, ?_⟩
    · simp only [exec, CodeBlock.closeScope, CodeBlock.addLine, hi, hc, Nat.add_sub_cancel]
      simp [CodeBlock.content, CodeBlock.indentation]
    · intro D n
      rw [List.cons_append, CodeBlock.streamContents, streamContents_append, braces_append]
      have ho : braces n (CodeBlock.streamContent D (.line b.indentation ['{'])) = some (n + 1) := by
        simp only [CodeBlock.streamContent, List.isEmpty_cons, Bool.false_eq_true, if_false]
        rw [List.append_assoc, braces_spaces, List.singleton_append, braces_open,
          braces_other (by decide) (by decide)]; rfl
      have hcl : braces (n + 1) (CodeBlock.streamContents D
          [.line b.indentation (if semi then ['}', ';'] else ['}'])]) = some n := by
        simp only [CodeBlock.streamContents, CodeBlock.streamContent, List.append_nil]
        cases semi
        · simp only [Bool.false_eq_true, if_false, List.isEmpty_cons]
          rw [List.append_assoc, braces_spaces, List.singleton_append, braces_close,
            braces_other (by decide) (by decide)]; rfl
        · simp only [Bool.false_eq_true, if_true, if_false, List.isEmpty_cons]
          rw [List.append_assoc, braces_spaces, List.cons_append, braces_close, List.cons_append,
            braces_other (by decide) (by decide), List.nil_append, braces_other (by decide) (by decide)]
          rfl
      rw [ho, Option.bind_some, braces_append, h3 D (n + 1), Option.bind_some, hcl]
theorem execAll_braces : ∀ (cs : List Cmd) (b : CodeBlock), LinesOfAll Balanced cs →
    (execAll b cs).indentation = b.indentation ∧ ∃ new, (execAll b cs).content = b.content ++ new ∧
      ∀ D n, braces n (CodeBlock.streamContents D new) = some n
  | [], b, _ => ⟨rfl, [], by simp [execAll], fun D n => by simp [CodeBlock.streamContents, braces]⟩
  | c :: cs, b, h => by
    simp only [LinesOfAll] at h
    obtain ⟨h1, n1, h2, h3⟩ := exec_braces c b h.1
    obtain ⟨k1, n2, k2, k3⟩ := execAll_braces cs (exec b c) h.2
    refine ⟨by simp only [execAll]; rw [k1, h1], n1 ++ n2, ?_, ?_⟩
    · simp only [execAll]; rw [k2, h2, List.append_assoc]
    · intro D n
      rw [streamContents_append, braces_append, h3 D n, Option.bind_some, k3 D n]
end

theorem text_balanced (cs : List Cmd) (h : LinesOfAll Balanced cs) :
    Balanced (execAll .empty cs).toText := by
  obtain ⟨_, new, h2, h3⟩ := execAll_braces cs .empty h
  rcases e : execAll .empty cs with ⟨i, c⟩
  rw [e] at h2
  simp only [CodeBlock.content, CodeBlock.empty, List.nil_append] at h2
  simp only [CodeBlock.toText, CodeBlock.stream, h2]
  exact h3 0 0

end FastBer.Code
