import Verif.Proofs.ParserSafeCheck
import Verif.Proofs.ParserComplete
/-!
# The parser on any input

Whatever the tokens, the stack always holds a derivation of the tokens read so far, so the parser never takes more off its stack than is there, and what
it accepts is derived by the grammar.  And the parser ends: a weight of the stack and the tokens ahead falls with every step.
-/
namespace FastBer.Parser
open FastBer Lexer

mutual
/-- Derivations in the grammar of asn_compiler.yacc, with its actions. -/
inductive Parses (stod : Bytes → UInt64) : Nat → List Tok → St → Val → St → Prop
  | tok (t : Tok) (st : St) : Parses stod (terminal t) [t] st (tokenValue t) st
  | rule {r : Nat} {w : List Tok} {st st' st'' : St} {vs : List Val} {v : Val} :
      2 ≤ r → ParsesAll stod (rhsOf r) w st vs st' → action stod r vs st' = (v, st'') → Parses stod (entryNat yyr1 r) w st v st''
inductive ParsesAll (stod : Bytes → UInt64) : List Nat → List Tok → St → List Val → St → Prop
  | nil (st : St) : ParsesAll stod [] [] st [] st
  | cons {x : Nat} {γ : List Nat} {w w' : List Tok} {st st' st'' : St} {v : Val} {vs : List Val} :
      Parses stod x w st v st' → ParsesAll stod γ w' st' vs st'' → ParsesAll stod (x :: γ) (w ++ w') st (v :: vs) st''
end

theorem ParsesAll.snoc {stod : Bytes → UInt64} {γ : List Nat} {w : List Tok} {st st' : St} {vs : List Val} (h : ParsesAll stod γ w st vs st') :
    ∀ {x : Nat} {w' : List Tok} {st'' : St} {v : Val}, Parses stod x w' st' v st'' → ParsesAll stod (γ ++ [x]) (w ++ w') st (vs ++ [v]) st'' := by
  refine ParsesAll.rec (motive_1 := fun _ _ _ _ _ _ => True)
    (motive_2 := fun γ w st vs st' _ => ∀ {x : Nat} {w' : List Tok} {st'' : St} {v : Val},
      Parses stod x w' st' v st'' → ParsesAll stod (γ ++ [x]) (w ++ w') st (vs ++ [v]) st'') ?_ ?_ ?_ ?_ h
  · intros; trivial
  · intros; trivial
  · intro st x w' st'' v hx
    have := ParsesAll.cons hx (.nil st'')
    rw [List.append_nil] at this
    exact this
  · intro x γ w1 w2 st st1 st2 v vs hx _ _ ih y w' st'' v' hy
    rw [List.append_assoc]
    exact .cons hx (ih hy)

/-! ## Checked facts -/

theorem kernel_lt {s r d : Nat} (h : (r, d) ∈ kernelOf s) : s < 876 := by
  unfold kernelOf at h
  split at h
  · assumption
  · simp at h

theorem starts_lt {s r : Nat} (h : r ∈ startsOf s) : s < 876 := by
  unfold startsOf at h
  split at h
  · assumption
  · simp at h

theorem position_lt {s r d : Nat} (h : atPosition s r d = true) : s < 876 := by
  unfold atPosition at h
  split at h
  · exact starts_lt (by simpa using h)
  · exact kernel_lt (by simpa using h)

theorem rank_le (s : Nat) : rankOf s ≤ 15 := by
  unfold rankOf; omega

theorem startsOk_mem {s r : Nat} : ∀ (l : List Nat) (p : Nat), startsOk s p l = true → p = 0 ∨ gotoOk s p = true → r ∈ l → 2 ≤ r →
    gotoOk s (entryNat yyr1 r) = true ∧ ruleOk s r (entryNat yyr1 r) = true := by
  intro l
  induction l with
  | nil => intro p _ _ h; simp at h
  | cons a l ih =>
    intro p h hp hm hr
    unfold startsOk at h
    by_cases ha : a < 2
    · rw [if_pos ha] at h
      have hne : r ≠ a := by omega
      exact ih p h hp (by simpa [hne] using hm) hr
    · rw [if_neg ha] at h
      dsimp only at h
      simp only [Bool.and_eq_true, Bool.or_eq_true, beq_iff_eq] at h
      obtain ⟨⟨h1, h2⟩, h3⟩ := h
      have hx : gotoOk s (entryNat yyr1 a) = true ∨ entryNat yyr1 a = 0 := by
        rcases h1 with h1 | h1
        · rw [h1]; exact hp.symm
        · exact Or.inl h1
      rcases List.mem_cons.mp hm with rfl | hm
      · refine ⟨?_, h2⟩
        rcases hx with hx | hx
        · exact hx
        · unfold ruleOk at h2
          dsimp only at h2
          rw [Bool.and_eq_true, Bool.and_eq_true, decide_eq_true_eq, hx] at h2
          exact absurd h2.1.1 (by decide)
      · exact ih _ h3 (hx.symm) hm hr

theorem safe_starts {s r : Nat} (h : atPosition s r 0 = true) (hr : 2 ≤ r) :
    yyntokens ≤ entryNat yyr1 r ∧ standsOn s (gotoState s (entryNat yyr1 r)) (entryNat yyr1 r) = true ∧ entryNat yyr2 r = (rhsOf r).length ∧
    ∀ q, afterAll s (rhsOf r) = some q → weight (entryNat yyr1 r) + rankOf (gotoState s (entryNat yyr1 r)) < weightAll (rhsOf r) + rankOf q := by
  have h1 := states_safe (position_lt h)
  unfold stateSafe at h1
  rw [Bool.and_eq_true] at h1
  have h2 : r ∈ startsOf s := by simpa [atPosition] using h
  obtain ⟨h3, h4⟩ := startsOk_mem _ _ h1.2 (Or.inl rfl) h2 hr
  unfold gotoOk at h3
  unfold ruleOk at h4
  simp only [Bool.and_eq_true, decide_eq_true_eq] at h3
  dsimp only at h4
  rw [Bool.and_eq_true, Bool.and_eq_true, Bool.or_eq_true, beq_iff_eq] at h4
  refine ⟨h3.1, h3.2, h4.1.2, ?_⟩
  intro q hq
  have hr := rank_le (gotoState s (entryNat yyr1 r))
  rcases h4.2 with h5 | h5
  · have := of_decide_eq_true h5; omega
  · rw [hq] at h5
    simpa using h5

theorem safe_token {s t : Nat} (h : s < 876) (hs : s ≠ yyfinal) (ht : t < yyntokens) :
    match nextDo s t with
    | .shift s' => standsOn s s' t = true ∧ (t = 0 → s' = yyfinal)
    | .reduce r => atPosition s r (rhsOf r).length = true ∧ 2 ≤ r
    | .error => True := by
  have h1 := states_safe h
  unfold stateSafe at h1
  rw [Bool.and_eq_true, Bool.or_eq_true] at h1
  have h2 := h1.1.resolve_left (by simpa using hs)
  have conv : ∀ d, doOk s t d = true → match d with
    | .shift s' => standsOn s s' t = true ∧ (t = 0 → s' = yyfinal)
    | .reduce r => atPosition s r (rhsOf r).length = true ∧ 2 ≤ r
    | .error => True := by
    intro d hd
    cases d with
    | shift s' =>
      simp only [doOk, Bool.and_eq_true, Bool.or_eq_true, bne_iff_ne, ne_eq, beq_iff_eq] at hd
      exact ⟨hd.1, fun h0 => hd.2.resolve_left (fun h => h h0)⟩
    | reduce r =>
      simp only [doOk, Bool.and_eq_true, decide_eq_true_eq] at hd
      exact hd
    | error => trivial
  unfold tokensOk at h2
  rw [Bool.and_eq_true] at h2
  have hdef : doOk s t (defaultDo s) = true := by
    have := h2.1
    unfold defaultDo at this ⊢
    dsimp only at this ⊢
    split
    · rfl
    · rename_i hne
      rw [if_neg hne] at this
      exact this
  apply conv
  unfold nextDo
  dsimp only
  split
  · exact hdef
  · rename_i hn
    have h3 := h2.2
    dsimp only at h3
    rw [if_neg hn] at h3
    have h4 := List.all_eq_true.mp h3 t (List.mem_range.mpr ht)
    unfold tokenOk at h4
    dsimp only at h4
    split
    · exact hdef
    · rename_i hc
      rw [if_neg hc] at h4
      split
      · rename_i hz
        rw [if_pos hz] at h4
        split
        · rfl
        · rename_i he
          rw [if_neg he] at h4
          exact h4
      · rename_i hz
        rw [if_neg hz] at h4
        exact h4

theorem stands {s s' x r d : Nat} (h : standsOn s s' x = true) (hk : atPosition s' r (d + 1) = true) :
    atPosition s r d = true ∧ (rhsOf r)[d]? = some x := by
  unfold standsOn at h
  rw [Bool.and_eq_true] at h
  have h1 : (r, d + 1) ∈ kernelOf s' := by simpa [atPosition] using hk
  have h2 := List.all_eq_true.mp h.2 _ h1
  simp only [Nat.add_sub_cancel, Bool.and_eq_true, beq_iff_eq] at h2
  exact ⟨h2.1.2, h2.2⟩

theorem stands_sym {s s' x : Nat} (h : standsOn s s' x = true) : entryNat yystos s' = x := by
  unfold standsOn at h
  simp only [Bool.and_eq_true, beq_iff_eq] at h
  exact h.1.2

theorem parses_one {stod : Bytes → UInt64} {x : Nat} {w : List Tok} {st st' : St} {vs : List Val} (h : ParsesAll stod [x] w st vs st') :
    ∃ v, Parses stod x w st v st' := by
  generalize hx : [x] = l at h
  cases h with
  | nil => cases hx
  | cons h1 h2 =>
    cases hx
    cases h2
    rw [List.append_nil]
    exact ⟨_, h1⟩

theorem stands_lt {s s' x : Nat} (h : standsOn s s' x = true) : s' < 876 := by
  unfold standsOn at h
  simp only [Bool.and_eq_true, decide_eq_true_eq] at h
  exact h.1.1

/-! ## The stack -/

/-- The stack holds the tokens `w`. -/
inductive Holds (stod : Bytes → UInt64) : List (Nat × Val) → List Tok → St → St → Prop
  | base (v : Val) (st : St) : Holds stod [(0, v)] [] st st
  | push {s s' x : Nat} {v v' : Val} {rest : List (Nat × Val)} {w w' : List Tok} {st0 st st' : St} :
      Holds stod ((s, v) :: rest) w st0 st → standsOn s s' x = true → after s x = some s' → x ≠ 0 → Parses stod x w' st v' st' →
      Holds stod ((s', v') :: (s, v) :: rest) (w ++ w') st0 st'

theorem kernel_zero : kernelOf 0 = [] := by decide +kernel
theorem stos_zero : entryNat yystos 0 = 0 := by decide +kernel
theorem stos_final : entryNat yystos yyfinal = 0 := by decide +kernel

theorem Holds.top {stod : Bytes → UInt64} {stk : List (Nat × Val)} {w : List Tok} {st0 st : St} (h : Holds stod stk w st0 st) :
    ∃ s v rest, stk = (s, v) :: rest ∧ s < 876 ∧ s ≠ yyfinal ∧ (s = 0 → rest = [] ∧ w = [] ∧ st0 = st) := by
  cases h with
  | base v => exact ⟨0, v, [], rfl, by decide, by decide, fun _ => ⟨rfl, rfl, rfl⟩⟩
  | @push s s' x _ _ _ _ _ _ _ _ _ hs _ hx _ =>
    refine ⟨_, _, _, rfl, stands_lt hs, ?_, ?_⟩
    · rintro rfl
      exact hx ((stands_sym hs).symm.trans stos_final)
    · rintro rfl
      exact (hx ((stands_sym hs).symm.trans stos_zero)).elim

/-- The sum of the weights on the stack. -/
def load : List (Nat × Val) → Nat
  | [] => 0
  | e :: stk => weight (entryNat yystos e.1) + load stk

theorem afterAll_append {s q q' : Nat} {γ : List Nat} {x : Nat} (h : afterAll s γ = some q) (hx : after q x = some q') :
    afterAll s (γ ++ [x]) = some q' := by
  induction γ generalizing s with
  | nil =>
    simp only [afterAll, Option.some.injEq] at h
    subst h
    simp [afterAll, hx]
  | cons y γ ih =>
    rw [List.cons_append]
    unfold afterAll at h ⊢
    split at h
    · exact ih h
    · cases h

theorem weightAll_append (a b : List Nat) : weightAll (a ++ b) = weightAll a + weightAll b := by
  induction a with
  | nil => simp [weightAll]
  | cons x a ih => simp only [List.cons_append, weightAll, ih]; omega

/-- Taking the right-hand side of a rule off the stack. -/
theorem Holds.pop {stod : Bytes → UInt64} {r : Nat} : ∀ (n : Nat) {s : Nat} {v : Val} {rest : List (Nat × Val)} {w : List Tok} {st0 st : St},
    Holds stod ((s, v) :: rest) w st0 st → atPosition s r n = true →
    ∃ s2 v2 rest2 w1 w2 stm, ((s, v) :: rest).drop n = (s2, v2) :: rest2 ∧ Holds stod ((s2, v2) :: rest2) w1 st0 stm ∧ w = w1 ++ w2 ∧
      ParsesAll stod ((rhsOf r).take n) w2 stm ((((s, v) :: rest).take n).reverse.map (·.2)) st ∧ atPosition s2 r 0 = true ∧
      afterAll s2 ((rhsOf r).take n) = some s ∧
      load ((s, v) :: rest) = weightAll ((rhsOf r).take n) + load ((s2, v2) :: rest2) := by
  intro n
  induction n with
  | zero =>
    intro s v rest w st0 st h hp
    exact ⟨s, v, rest, w, [], st, rfl, h, by simp, .nil st, hp, rfl, by simp [weightAll]⟩
  | succ n ih =>
    intro s v rest w st0 st h hp
    cases h with
    | base =>
      exfalso
      have : (r, n + 1) ∈ kernelOf 0 := by simpa [atPosition] using hp
      rw [kernel_zero] at this
      simp at this
    | @push s1 _ x v1 _ rest1 wa wb _ sta _ h1 hs ha hx hpar =>
      obtain ⟨hp1, hx1⟩ := stands hs hp
      obtain ⟨s2, v2, rest2, w1, w2, stm, hd, hh, hw, hall, h0, haf, hload⟩ := ih h1 hp1
      have htake : (rhsOf r).take (n + 1) = (rhsOf r).take n ++ [x] := by
        rw [List.take_add_one, hx1]; rfl
      refine ⟨s2, v2, rest2, w1, w2 ++ wb, stm, hd, hh, by rw [hw, List.append_assoc], ?_, h0, ?_, ?_⟩
      · rw [htake, List.take_succ_cons, List.reverse_cons, List.map_append]
        exact hall.snoc hpar
      · rw [htake]
        exact afterAll_append haf ha
      · rw [htake, weightAll_append]
        show weight (entryNat yystos s) + load ((s1, v1) :: rest1) = _
        rw [hload, stands_sym hs]
        simp only [weightAll]
        omega

/-! ## Steps -/

/-- What holds of the parser: the tokens `w` have been read, or the end of the file too. -/
inductive Sound (stod : Bytes → UInt64) (ts : List Tok) (st0 : St) : Config → Prop
  | reading {w : List Tok} {c : Config} : Holds stod c.stack w st0 c.st → ts = w ++ c.input → Sound stod ts st0 c
  | done {v : Val} {st : St} {stk : List (Nat × Val)} : Parses stod Sym.ModuleDefinitionList ts st0 v st →
      Sound stod ts st0 ⟨(yyfinal, .none) :: stk, [], st⟩

def topRank : List (Nat × Val) → Nat
  | [] => 0
  | e :: _ => rankOf e.1

def onFinal : List (Nat × Val) → Nat
  | [] => 0
  | e :: _ => if e.1 = yyfinal then 0 else 40

/-- What falls with every step. -/
def fuelFor (c : Config) : Nat := load c.stack + topRank c.stack + 40 * c.input.length + onFinal c.stack

theorem weight_le (x : Nat) : weight x ≤ 16 := by
  unfold weight; split <;> omega

theorem final_kernel {s : Nat} (h : standsOn s yyfinal 0 = true) : atPosition s 1 1 = true :=
  (stands (r := 1) (d := 1) h (by decide +kernel)).1

theorem start_only {s : Nat} (h : atPosition s 1 0 = true) : s = 0 := by
  have h1 : 1 ∈ startsOf s := by simpa [atPosition] using h
  have h2 : ∀ s < 876, s ≠ 0 → 1 ∉ startsOf s := by
    have : (List.range 876).all (fun s => s == 0 || !(startsOf s).contains 1) = true := by decide +kernel
    intro s hs hne
    have := List.all_eq_true.mp this s (List.mem_range.mpr hs)
    simp only [Bool.or_eq_true, beq_iff_eq, Bool.not_eq_true'] at this
    have h3 := this.resolve_left hne
    intro hm
    rw [List.contains_iff_mem.mpr hm] at h3
    cases h3
  rcases Nat.decEq s 0 with hne | he
  · exact (h2 s (starts_lt h1) hne h1).elim
  · exact he

theorem rhs_one : rhsOf 1 = [Sym.ModuleDefinitionList, 0] := by decide +kernel

theorem terminal_pos (t : Tok) : terminal t ≠ 0 := by
  cases t with
  | sym s =>
    have hk : ∀ p ∈ symNumbers, p.2 ≠ 0 := by decide +kernel
    show (symNumbers.lookup s).getD 2 ≠ 0
    cases h : symNumbers.lookup s with
    | none => exact (by decide : 2 ≠ 0)
    | some n =>
      have : ∀ l : List (String × Nat), l.lookup s = some n → ∃ p ∈ l, p.2 = n := by
        intro l
        induction l with
        | nil => intro h; cases h
        | cons p l ih =>
          intro h
          obtain ⟨k, m⟩ := p
          rw [List.lookup_cons] at h
          split at h
          · exact ⟨(k, m), by simp, by simpa using h⟩
          · obtain ⟨p, hp, e⟩ := ih h
            exact ⟨p, by simp [hp], e⟩
      obtain ⟨p, hp, e⟩ := this _ h
      show n ≠ 0
      rw [← e]; exact hk p hp
  | _ => simp [terminal]

/-- One step: it keeps `Sound`, and the weight falls. -/
theorem step_sound {stod : Bytes → UInt64} {ts : List Tok} {st0 : St} {c : Config} (h : Sound stod ts st0 c) :
    match step stod c with
    | .cont c' => Sound stod ts st0 c' ∧ fuelFor c' < fuelFor c
    | .accept st => ∃ v, Parses stod Sym.ModuleDefinitionList ts st0 v st
    | .reject => True
    | .ub => False := by
  cases h with
  | done hp =>
    rename_i v st stk
    have e : step stod ⟨(yyfinal, .none) :: stk, [], st⟩ = .accept st := by
      generalize hf : yyfinal = f
      show (if f = yyfinal then Next.accept st else _) = _
      exact if_pos hf.symm
    rw [e]
    exact ⟨_, hp⟩
  | @reading w c hh hts =>
    obtain ⟨stk, input, st⟩ := c
    dsimp only at hh hts
    obtain ⟨s, v, rest, rfl, hlt, hne, _⟩ := hh.top
    have e : step stod ⟨(s, v) :: rest, input, st⟩ = (match nextDo s (ahead input) with
      | .shift s' => .cont (shift ⟨(s, v) :: rest, input, st⟩ s')
      | .reduce r => reduce stod ⟨(s, v) :: rest, input, st⟩ r
      | .error => .reject) := by
      show (if s = yyfinal then _ else _) = _
      rw [if_neg hne]
      rfl
    rw [e]
    have hst := safe_token hlt hne (ahead_lt input)
    cases hd : nextDo s (ahead input) with
    | error => trivial
    | shift s' =>
      rw [hd] at hst
      obtain ⟨hs, hz⟩ := hst
      show Sound stod ts st0 (shift _ s') ∧ _
      cases input with
      | nil =>
        have hs' := hz rfl
        rw [hs'] at hs ⊢
        obtain ⟨s2, v2, rest2, w1, w2, stm, _, hb, hw, hall, h0, _, _⟩ := hh.pop 1 (final_kernel hs)
        have hs2 := start_only h0
        obtain ⟨_, _, _, e2, _, _, e3⟩ := hb.top
        cases e2
        obtain ⟨_, hw1, hst0⟩ := e3 hs2
        rw [rhs_one] at hall
        subst hw1 hst0
        rw [List.nil_append] at hw
        subst hw
        rw [List.append_nil] at hts
        subst hts
        obtain ⟨vm, hvm⟩ := parses_one hall
        refine ⟨.done hvm, ?_⟩
        show weight (entryNat yystos yyfinal) + load ((s, v) :: rest) + rankOf yyfinal + 0 + (if yyfinal = yyfinal then 0 else 40)
          < load ((s, v) :: rest) + rankOf s + 0 + (if s = yyfinal then 0 else 40)
        rw [if_pos rfl, if_neg hne]
        have := rank_le yyfinal
        have := weight_le (entryNat yystos yyfinal)
        omega
      | cons t input =>
        have ha : after s (terminal t) = some s' := by
          unfold after
          rw [if_pos (terminal_lt t)]
          show (match nextDo s (terminal t) with | .shift s' => some s' | _ => none) = _
          have : nextDo s (terminal t) = .shift s' := hd
          rw [this]
        refine ⟨.reading (w := w ++ [t]) (Holds.push hh hs ha (terminal_pos t) (.tok t st)) ?_, ?_⟩
        · rw [hts, List.append_assoc]; rfl
        · show weight (entryNat yystos s') + load ((s, v) :: rest) + rankOf s' + 40 * input.length + (if s' = yyfinal then 0 else 40)
            < load ((s, v) :: rest) + rankOf s + 40 * (input.length + 1) + (if s = yyfinal then 0 else 40)
          rw [if_neg hne]
          have := rank_le s'
          have := weight_le (entryNat yystos s')
          split <;> omega
    | reduce r =>
      rw [hd] at hst
      obtain ⟨hpos, hr⟩ := hst
      obtain ⟨s2, v2, rest2, w1, w2, stm, hdrop, hb, hw, hall, h0, haf, hload⟩ := hh.pop _ hpos
      obtain ⟨hx, hs, hlen, hwt⟩ := safe_starts h0 hr
      rw [List.take_length] at hall haf hload
      have e2 : reduce stod ⟨(s, v) :: rest, input, st⟩ r =
          .cont ⟨(gotoState s2 (entryNat yyr1 r),
            (action stod r ((((s, v) :: rest).take (entryNat yyr2 r)).reverse.map (·.2)) st).1) :: (s2, v2) :: rest2, input,
            (action stod r ((((s, v) :: rest).take (entryNat yyr2 r)).reverse.map (·.2)) st).2⟩ := by
        show (match ((s, v) :: rest).drop (entryNat yyr2 r) with | [] => Next.ub | (s, v) :: rest => _) = _
        rw [hlen, hdrop]
      show match reduce stod ⟨(s, v) :: rest, input, st⟩ r with
        | .cont c' => Sound stod ts st0 c' ∧ fuelFor c' < fuelFor ⟨(s, v) :: rest, input, st⟩
        | .accept st => ∃ v, Parses stod Sym.ModuleDefinitionList ts st0 v st
        | .reject => True
        | .ub => False
      rw [e2, hlen]
      have hx0 : entryNat yyr1 r ≠ 0 := by
        intro h0
        rw [h0] at hx
        exact absurd hx (by decide)
      have ha : after s2 (entryNat yyr1 r) = some (gotoState s2 (entryNat yyr1 r)) := by
        unfold after
        rw [if_neg (Nat.not_lt.mpr hx)]
      refine ⟨.reading (w := w) ?_ hts, ?_⟩
      · show Holds stod _ w st0 _
        rw [hw]
        exact Holds.push hb hs ha hx0 (.rule hr hall rfl)
      · have h1 := hwt _ haf
        have h2 := stands_sym hs
        generalize gotoState s2 (entryNat yyr1 r) = g at h1 h2 ⊢
        generalize hxx : entryNat yyr1 r = x at h1 h2 ⊢
        generalize weightAll (rhsOf r) = n at h1 hload ⊢
        show weight (entryNat yystos g) + load ((s2, v2) :: rest2) + rankOf g + 40 * input.length + (if g = yyfinal then 0 else 40)
          < load ((s, v) :: rest) + rankOf s + 40 * input.length + (if s = yyfinal then 0 else 40)
        rw [if_neg hne, h2, hload]
        split <;> omega

/-- What the parser gives for any tokens. -/
theorem run_sound {stod : Bytes → UInt64} {ts : List Tok} {st0 : St} : ∀ (fuel : Nat) {c : Config}, Sound stod ts st0 c → fuelFor c < fuel →
    run stod fuel c = .ok none ∨ ∃ st v, run stod fuel c = .ok (some st) ∧ Parses stod Sym.ModuleDefinitionList ts st0 v st := by
  intro fuel
  induction fuel with
  | zero => intro c _ h; omega
  | succ fuel ih =>
    intro c hs hf
    have h1 := step_sound hs
    unfold run
    cases h : step stod c with
    | cont c' =>
      rw [h] at h1
      exact ih h1.1 (by have := h1.2; omega)
    | accept st =>
      rw [h] at h1
      obtain ⟨v, hv⟩ := h1
      exact Or.inr ⟨st, v, rfl, hv⟩
    | reject => exact Or.inl rfl
    | ub => rw [h] at h1; exact h1.elim

theorem start_fuel (ts : List Tok) (st : St) : fuelFor (start ts st) < enough ts := by
  show weight (entryNat yystos 0) + 0 + rankOf 0 + 40 * ts.length + (if (0 : Nat) = yyfinal then 0 else 40) < 100 * (ts.length + 2)
  have := rank_le 0
  have := weight_le (entryNat yystos 0)
  split <;> omega

theorem start_sound (stod : Bytes → UInt64) (ts : List Tok) (st : St) : Sound stod ts st (start ts st) :=
  .reading (w := []) (.base _ _) rfl

theorem parse_sound (stod : Bytes → UInt64) (ts : List Tok) (st0 : St) :
    parse stod ts st0 = .ok none ∨ ∃ st v, parse stod ts st0 = .ok (some st) ∧ Parses stod Sym.ModuleDefinitionList ts st0 v st :=
  run_sound _ (start_sound stod ts st0) (start_fuel ts st0)

/-! ## From steps to runs -/

theorem run_mono {stod : Bytes → UInt64} {fuel fuel' : Nat} {c : Config} (h : fuel ≤ fuel') (hne : run stod fuel c ≠ .loop) :
    run stod fuel' c = run stod fuel c := by
  induction fuel generalizing fuel' c with
  | zero => exact (hne rfl).elim
  | succ fuel ih =>
    obtain ⟨n, rfl⟩ : ∃ n, fuel' = n + 1 := ⟨fuel' - 1, by omega⟩
    unfold run at hne ⊢
    cases hs : step stod c with
    | cont c' =>
      rw [hs] at hne
      exact ih (by omega) hne
    | _ => rfl

theorem run_steps {stod : Bytes → UInt64} {c c' : Config} (h : Steps stod c c') {fuel : Nat} (hne : run stod fuel c' ≠ .loop) :
    ∃ n, run stod n c = run stod fuel c' := by
  induction h with
  | refl => exact ⟨fuel, rfl⟩
  | head hs _ ih =>
    obtain ⟨n, hn⟩ := ih hne
    refine ⟨n + 1, ?_⟩
    rw [← hn]
    show (match step stod _ with | .cont c => run stod n c | .accept st => .ok (some st) | .reject => .ok none | .ub => .ub) = _
    rw [hs]

theorem parse_of_derives {stod : Bytes → UInt64} {w : List Tok} {st st' : St} {v : Val} (h : Derives stod Sym.ModuleDefinitionList w st v st') :
    parse stod w st = .ok (some st') := by
  obtain ⟨c, hs, hacc⟩ := accepts_of_derives h
  have h1 : run stod 1 c = .ok (some st') := by
    unfold run
    rw [hacc]
  obtain ⟨n, hn⟩ := run_steps hs (fuel := 1) (by rw [h1]; simp)
  rw [h1] at hn
  have h2 : parse stod w st ≠ .loop := by
    rcases parse_sound stod w st with h | ⟨_, _, h, _⟩ <;> rw [h] <;> simp
  unfold parse at h2 ⊢
  rcases Nat.le_total n (enough w) with hle | hle
  · rw [run_mono hle (by rw [hn]; simp), hn]
  · rw [← run_mono hle h2, hn]

end FastBer.Parser
