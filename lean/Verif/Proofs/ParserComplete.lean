import Verif.Proofs.ParserCheck
/-!
# What the notation derives, the parser reads

`Derives stod x w st v st'`: the symbol `x` derives the tokens `w`; the actions make the value `v` and turn `st` into `st'`.  `reads_of_derives`: wherever
the items allow `x`, the parser gets from the tokens `w` to the state behind `x` with this value.
-/
namespace FastBer.Parser
open FastBer Lexer

mutual
/-- Derivations in the grammar of Proofs/ParserGrammar, with the actions of asn_compiler.yacc. -/
inductive Derives (stod : Bytes → UInt64) : Nat → List Tok → St → Val → St → Prop
  | tok (t : Tok) (st : St) : Derives stod (terminal t) [t] st (tokenValue t) st
  | rule {i x r : Nat} {γ : List Nat} {w : List Tok} {st st' st'' : St} {vs : List Val} {v : Val} :
      i ≠ 0 → prod i = some (x, r, γ) → DerivesAll stod γ w st vs st' → action stod r vs st' = (v, st'') → Derives stod x w st v st''
inductive DerivesAll (stod : Bytes → UInt64) : List Nat → List Tok → St → List Val → St → Prop
  | nil (st : St) : DerivesAll stod [] [] st [] st
  | cons {x : Nat} {γ : List Nat} {w w' : List Tok} {st st' st'' : St} {v : Val} {vs : List Val} :
      Derives stod x w st v st' → DerivesAll stod γ w' st' vs st'' → DerivesAll stod (x :: γ) (w ++ w') st (v :: vs) st''
end

theorem submask_testBit {a b t : Nat} (h : submask a b = true) (ha : a.testBit t = true) : b.testBit t = true := by
  have h1 : a &&& b = a := by simpa [submask] using h
  have h2 : (a &&& b).testBit t = true := by rw [h1]; exact ha
  rw [Nat.testBit_and] at h2
  simp only [Bool.and_eq_true] at h2
  exact h2.2

theorem submask_refl (a : Nat) : submask a a = true := by simp [submask]

theorem submask_trans {a b c : Nat} (h1 : submask a b = true) (h2 : submask b c = true) : submask a c = true := by
  have h1 : a &&& b = a := by simpa [submask] using h1
  have h2 : b &&& c = b := by simpa [submask] using h2
  have : a &&& c = a := by
    rw [← h1, Nat.and_assoc, h2]
  simpa [submask] using this

theorem terminal_lt (t : Tok) : terminal t < yyntokens := by
  cases t with
  | sym s =>
    have hk : ∀ p ∈ symNumbers, p.2 < yyntokens := by decide +kernel
    show (symNumbers.lookup s).getD 2 < yyntokens
    cases h : symNumbers.lookup s with
    | none => exact (by decide : 2 < 153)
    | some n =>
      have : ∀ l : List (String × Nat), l.lookup s = some n → ∃ p ∈ l, p.2 = n := by
        intro l
        induction l with
        | nil => intro h; cases h
        | cons p l ih =>
          intro h
          obtain ⟨k, m⟩ := p
          rw [List.lookup_cons] at h
          split at h
          · exact ⟨(k, m), by simp, by simpa using h⟩
          · obtain ⟨p, hp, e⟩ := ih h
            exact ⟨p, by simp [hp], e⟩
      obtain ⟨p, hp, e⟩ := this _ h
      show n < yyntokens
      rw [← e]; exact hk p hp
  | _ => simp [terminal, yyntokens]

theorem ahead_lt (u : List Tok) : ahead u < yyntokens := by
  cases u with
  | nil => decide
  | cons t u => exact terminal_lt t

/-- Rules of the grammar, apart from the first. -/
theorem prod_spec {i x r : Nat} {γ : List Nat} (hi : i ≠ 0) (h : prod i = some (x, r, γ)) :
    yyntokens ≤ x ∧ i ∈ rulesOf x ∧ entryNat yyr1 r = baseSym x ∧ entryNat yyr2 r = γ.length ∧
      submask (firstSeq γ 0) (firstOf x) = true ∧ (nullableSeq γ = true → nullable x = true) := by
  have h1 := prod_ok h
  unfold productionOk at h1
  rw [h] at h1
  simp only [Bool.and_eq_true, Bool.or_eq_true, Bool.not_eq_true', decide_eq_true_eq, beq_iff_eq, List.contains_iff_mem] at h1
  obtain ⟨⟨h2, h3⟩, h4⟩ := h1
  obtain ⟨⟨⟨h5, h6⟩, h7⟩, h8⟩ := h4.resolve_left hi
  refine ⟨h2, h3, h5, h6, h7, ?_⟩
  intro hn
  rcases h8 with h8 | h8
  · rw [hn] at h8; cases h8
  · exact h8

theorem hasItem_spec {s i d l : Nat} (h : hasItem s i d l = true) : ∃ k, (i, d, k) ∈ itemsOf s ∧ submask l (laMask k) = true := by
  unfold hasItem at h
  rw [List.any_eq_true] at h
  obtain ⟨⟨i', d', k⟩, hm, h1⟩ := h
  simp only [Bool.and_eq_true, beq_iff_eq] at h1
  obtain ⟨⟨rfl, rfl⟩, h2⟩ := h1
  exact ⟨k, hm, h2⟩

theorem item_spec {s i d k : Nat} (h : (i, d, k) ∈ itemsOf s) : itemOk s (i, d, k) = true :=
  List.all_eq_true.mp (states_ok s) _ h

/-- An item before a symbol. -/
theorem item_before {s i d k x r x0 : Nat} {γ β : List Nat} (h : (i, d, k) ∈ itemsOf s) (hp : prod i = some (x0, r, γ)) (hg : γ.drop d = x :: β) :
    s ≠ yyfinal ∧ hasItem (transition s x) i (d + 1) (laMask k) = true ∧ (x < yyntokens → nextDo s x = .shift (transition s x)) ∧
      (yyntokens ≤ x → ∀ j ∈ rulesOf x, hasItem s j 0 (firstSeq β (laMask k)) = true) := by
  have h1 := item_spec h
  unfold itemOk at h1
  rw [hp] at h1
  simp only [hg, Bool.and_eq_true] at h1
  obtain ⟨⟨h2, h3⟩, h4⟩ := h1
  refine ⟨by simpa using h2, h3, ?_, ?_⟩
  · intro hx
    rw [if_pos hx] at h4
    simpa using h4
  · intro hx j hj
    rw [if_neg (by omega)] at h4
    exact List.all_eq_true.mp h4 j hj

/-- An item at the end of its rule. -/
theorem item_end {s i d k r x0 t : Nat} {γ : List Nat} (h : (i, d, k) ∈ itemsOf s) (hi : i ≠ 0) (hp : prod i = some (x0, r, γ)) (hg : γ.drop d = [])
    (ht : t < yyntokens) (hl : (laMask k).testBit t = true) : s ≠ yyfinal ∧ nextDo s t = .reduce r := by
  have h1 := item_spec h
  unfold itemOk at h1
  rw [hp] at h1
  simp only [hg, Bool.or_eq_true, Bool.and_eq_true, beq_iff_eq, List.all_eq_true, List.mem_range, Bool.not_eq_true'] at h1
  obtain ⟨h2, h3⟩ := h1.resolve_left hi
  refine ⟨by simpa using h2, ?_⟩
  rcases h3 t ht with h4 | h4
  · rw [hl] at h4; cases h4
  · exact h4

/-! ## First terminals -/

theorem firstSeq_mono {γ : List Nat} {a b : Nat} (h : ∀ t, a.testBit t = true → b.testBit t = true) (t : Nat)
    (ht : (firstSeq γ a).testBit t = true) : (firstSeq γ b).testBit t = true := by
  induction γ with
  | nil => exact h t ht
  | cons x γ ih =>
    unfold firstSeq at ht ⊢
    split at ht
    · rename_i hn
      rw [if_pos hn]
      rw [Nat.testBit_or, Bool.or_eq_true] at ht ⊢
      exact ht.imp id ih
    · rename_i hn
      rw [if_neg hn]; exact ht

/-- What a word starts with. -/
def Starts (w : List Tok) (empty : Bool) (first : Nat) : Prop :=
  (w = [] → empty = true) ∧ ∀ t w', w = t :: w' → first.testBit (terminal t) = true

theorem firstOf_terminal (t : Tok) : (firstOf (terminal t)).testBit (terminal t) = true := by
  unfold firstOf
  rw [if_pos (show terminal t < 153 from terminal_lt t)]
  simp [Nat.testBit_shiftLeft]

theorem starts_cons {x : Nat} {γ : List Nat} {w1 w2 : List Tok} (hx : Starts w1 (nullable x) (firstOf x))
    (hr : Starts w2 (nullableSeq γ) (firstSeq γ 0)) : Starts (w1 ++ w2) (nullableSeq (x :: γ)) (firstSeq (x :: γ) 0) := by
  obtain ⟨h1, h2⟩ := hx
  obtain ⟨h3, h4⟩ := hr
  refine ⟨?_, ?_⟩
  · intro hw
    rw [List.append_eq_nil_iff] at hw
    unfold nullableSeq
    rw [h1 hw.1, h3 hw.2]; rfl
  · intro t w' hw
    unfold firstSeq
    cases w1 with
    | nil =>
      rw [if_pos (h1 rfl), Nat.testBit_or, Bool.or_eq_true]
      exact .inr (h4 t w' hw)
    | cons t' w1 =>
      simp only [List.cons_append, List.cons.injEq] at hw
      have := h2 t' w1 rfl
      rw [hw.1] at this
      split
      · rw [Nat.testBit_or, this]; rfl
      · exact this

theorem derivesAll_first {stod : Bytes → UInt64} {γ : List Nat} {w : List Tok} {st st' : St} {vs : List Val} (h : DerivesAll stod γ w st vs st') :
    Starts w (nullableSeq γ) (firstSeq γ 0) := by
  refine DerivesAll.rec (motive_1 := fun x w _ _ _ _ => Starts w (nullable x) (firstOf x))
    (motive_2 := fun γ w _ _ _ _ => Starts w (nullableSeq γ) (firstSeq γ 0)) ?_ ?_ ?_ ?_ h
  · intro t st
    refine ⟨by simp, ?_⟩
    intro t' w' hw
    simp only [List.cons.injEq] at hw
    rw [← hw.1]
    exact firstOf_terminal t
  · intro i x r γ w st st' st'' vs v hi hp _ _ ih
    obtain ⟨_, _, _, _, h1, h2⟩ := prod_spec hi hp
    exact ⟨fun hw => h2 (ih.1 hw), fun t w' hw => submask_testBit h1 (ih.2 t w' hw)⟩
  · intro st
    exact ⟨fun _ => rfl, fun _ _ hw => by cases hw⟩
  · intro x γ w w' st st' st'' v vs _ _ ih1 ih2
    exact starts_cons ih1 ih2

theorem firstSeq_ahead {stod : Bytes → UInt64} {γ : List Nat} {w : List Tok} {st st' : St} {vs : List Val} (h : DerivesAll stod γ w st vs st')
    (u : List Tok) (l : Nat) (hl : l.testBit (ahead u) = true) : (firstSeq γ l).testBit (ahead (w ++ u)) = true := by
  obtain ⟨h1, h2⟩ := derivesAll_first h
  cases w with
  | nil =>
    have hn := h1 rfl
    clear h h1 h2
    induction γ with
    | nil => exact hl
    | cons x γ ih =>
      simp only [nullableSeq, Bool.and_eq_true] at hn
      unfold firstSeq
      rw [if_pos hn.1, Nat.testBit_or, ih hn.2]
      simp
  | cons t w =>
    exact firstSeq_mono (a := 0) (by simp) _ (h2 t w rfl)

/-! ## Steps -/

inductive Steps (stod : Bytes → UInt64) : Config → Config → Prop
  | refl (c : Config) : Steps stod c c
  | head {c c' c'' : Config} : step stod c = .cont c' → Steps stod c' c'' → Steps stod c c''

theorem Steps.trans {stod : Bytes → UInt64} {a b c : Config} (h1 : Steps stod a b) (h2 : Steps stod b c) : Steps stod a c := by
  induction h1 with
  | refl => exact h2
  | head h _ ih => exact .head h (ih h2)

theorem Steps.one {stod : Bytes → UInt64} {a b : Config} (h : step stod a = .cont b) : Steps stod a b := .head h (.refl _)

/-- The parser reads `w` where the items allow `x`. -/
def Reads (stod : Bytes → UInt64) (x : Nat) (w : List Tok) (st : St) (v : Val) (st' : St) : Prop :=
  ∀ (q : Nat) (v0 : Val) (rest : List (Nat × Val)) (u : List Tok) (i d k x0 r0 : Nat) (γ β : List Nat),
    (i, d, k) ∈ itemsOf q → prod i = some (x0, r0, γ) → γ.drop d = x :: β → (firstSeq β (laMask k)).testBit (ahead u) = true →
    Steps stod ⟨(q, v0) :: rest, w ++ u, st⟩ ⟨(transition q x, v) :: (q, v0) :: rest, u, st'⟩

/-- The parser reads `w` where the items allow `δ` to the end of the rule. -/
def ReadsAll (stod : Bytes → UInt64) (δ : List Nat) (w : List Tok) (st : St) (vs : List Val) (st' : St) : Prop :=
  ∀ (q : Nat) (v0 : Val) (rest : List (Nat × Val)) (u : List Tok) (i d k x0 r0 : Nat) (γ : List Nat),
    (i, d, k) ∈ itemsOf q → prod i = some (x0, r0, γ) → γ.drop d = δ → (laMask k).testBit (ahead u) = true →
    ∃ stk q' v' tl k', Steps stod ⟨(q, v0) :: rest, w ++ u, st⟩ ⟨stk ++ (q, v0) :: rest, u, st'⟩ ∧
      stk ++ (q, v0) :: rest = (q', v') :: tl ∧ stk.length = δ.length ∧ stk.reverse.map (·.2) = vs ∧
      (i, d + δ.length, k') ∈ itemsOf q' ∧ (laMask k').testBit (ahead u) = true

theorem step_shift {stod : Bytes → UInt64} {q s : Nat} {v : Val} {rest : List (Nat × Val)} {t : Tok} {u : List Tok} {st : St} (hq : q ≠ yyfinal)
    (h : nextDo q (terminal t) = .shift s) :
    step stod ⟨(q, v) :: rest, t :: u, st⟩ = .cont ⟨(s, tokenValue t) :: (q, v) :: rest, u, st⟩ := by
  show (if q = yyfinal then _ else _) = _
  rw [if_neg hq]
  show (match nextDo q (terminal t) with | .shift s' => Next.cont (shift ⟨(q, v) :: rest, t :: u, st⟩ s') | .reduce r => reduce stod _ r | .error => .reject) = _
  rw [h]; rfl

theorem step_reduce {stod : Bytes → UInt64} {q q0 r : Nat} {v v0 : Val} {tl stk rest : List (Nat × Val)} {u : List Tok} {st : St} (hq : q ≠ yyfinal)
    (h : nextDo q (ahead u) = .reduce r) (he : stk ++ (q0, v0) :: rest = (q, v) :: tl) (hl : entryNat yyr2 r = stk.length) :
    step stod ⟨(q, v) :: tl, u, st⟩ = .cont ⟨(gotoState q0 (entryNat yyr1 r), (action stod r (stk.reverse.map (·.2)) st).1) :: (q0, v0) :: rest, u,
      (action stod r (stk.reverse.map (·.2)) st).2⟩ := by
  show (if q = yyfinal then _ else _) = _
  rw [if_neg hq]
  show (match nextDo q (ahead u) with | .shift s' => Next.cont (shift ⟨(q, v) :: tl, u, st⟩ s') | .reduce r => reduce stod _ r | .error => .reject) = _
  rw [h]
  show reduce stod ⟨(q, v) :: tl, u, st⟩ r = _
  unfold reduce
  rw [hl, ← he]
  dsimp only
  rw [List.drop_left, List.take_left]

/-- What is derived is read. -/
theorem reads_of_derives {stod : Bytes → UInt64} {x : Nat} {w : List Tok} {st st' : St} {v : Val} (h : Derives stod x w st v st') :
    Reads stod x w st v st' := by
  refine Derives.rec (motive_1 := fun x w st v st' _ => Reads stod x w st v st') (motive_2 := fun δ w st vs st' _ => ReadsAll stod δ w st vs st' ∧
    DerivesAll stod δ w st vs st') ?_ ?_ ?_ ?_ h
  · intro t st q v0 rest u i d k x0 r0 γ β hi hp hg hu
    obtain ⟨hq, _, h1, _⟩ := item_before hi hp hg
    exact .one (step_shift hq (h1 (terminal_lt t)))
  · intro j x r δ w st st1 st' vs v hj hpj _ ha ih q v0 rest u i d k x0 r0 γ β hi hp hg hu
    obtain ⟨hq, _, h1, h2⟩ := item_before hi hp hg
    obtain ⟨hx, hm, hr1, hr2, _, _⟩ := prod_spec hj hpj
    obtain ⟨k', hk', hs⟩ := hasItem_spec (h2 hx j hm)
    have hl : (laMask k').testBit (ahead u) = true := submask_testBit hs hu
    obtain ⟨stk, q', v', tl, k'', hst, he, hlen, hv, hit, hl'⟩ := ih.1 q v0 rest u j 0 k' x r δ hk' hpj rfl hl
    refine hst.trans (.one ?_)
    obtain ⟨hq', hdo⟩ := item_end hit hj hpj (by rw [Nat.zero_add]; exact List.drop_length) (ahead_lt u) hl'
    rw [he, step_reduce hq' hdo he (by rw [hr2, hlen]), hv, ha, hr1]
    unfold transition
    rw [if_neg (by omega)]
  · intro st
    refine ⟨?_, .nil st⟩
    intro q v0 rest u i d k x0 r0 γ hi hp hg hu
    exact ⟨[], q, v0, rest, k, .refl _, rfl, rfl, rfl, by simpa using hi, hu⟩
  · intro x δ w1 w2 st st1 st' v vs hx hr ih1 ih2
    refine ⟨?_, .cons hx hr⟩
    intro q v0 rest u i d k x0 r0 γ hi hp hg hu
    have hf := firstSeq_ahead hr u (laMask k) hu
    have h1 := ih1 q v0 rest (w2 ++ u) i d k x0 r0 γ δ hi hp hg hf
    obtain ⟨_, h2, _, _⟩ := item_before hi hp hg
    obtain ⟨k', hk', hs⟩ := hasItem_spec h2
    have hg' : γ.drop (d + 1) = δ := by
      rw [← List.drop_drop, hg]; rfl
    obtain ⟨stk, q', v', tl, k'', hst, he, hlen, hv, hit, hl⟩ :=
      ih2.1 (transition q x) v ((q, v0) :: rest) u i (d + 1) k' x0 r0 γ hk' hp hg' (submask_testBit hs hu)
    refine ⟨stk ++ [(transition q x, v)], q', v', tl, k'', ?_, ?_, ?_, ?_, ?_, hl⟩
    · rw [List.append_assoc, List.append_assoc]
      exact h1.trans hst
    · rw [List.append_assoc]; exact he
    · simp [hlen]
    · rw [List.reverse_append, List.map_append, hv]; rfl
    · have e : d + (x :: δ).length = d + 1 + δ.length := by simp only [List.length_cons]; omega
      rw [e]; exact hit

/-- A file is accepted. -/
theorem accepts_of_derives {stod : Bytes → UInt64} {w : List Tok} {st st' : St} {v : Val} (h : Derives stod Sym.ModuleDefinitionList w st v st') :
    ∃ c, Steps stod (start w st) c ∧ step stod c = .accept st' := by
  have h0 : (0, 0, 0) ∈ itemsOf 0 := by decide +kernel
  have hu : (firstSeq [0] (laMask 0)).testBit (ahead []) = true := by decide +kernel
  have hp0 : prod 0 = some (153, 1, [Sym.ModuleDefinitionList, 0]) := by decide +kernel
  have h1 := reads_of_derives h 0 .none [] [] 0 0 0 153 1 [Sym.ModuleDefinitionList, 0] [0] h0 hp0 rfl hu
  rw [List.append_nil] at h1
  have ht : transition 0 Sym.ModuleDefinitionList ≠ yyfinal ∧ nextDo (transition 0 Sym.ModuleDefinitionList) 0 = .shift yyfinal := by
    decide +kernel
  generalize transition 0 Sym.ModuleDefinitionList = s1 at h1 ht
  refine ⟨⟨(yyfinal, .none) :: (s1, v) :: [(0, .none)], [], st'⟩, h1.trans (.one ?_), ?_⟩
  · show (if s1 = yyfinal then _ else _) = _
    rw [if_neg ht.1]
    show (match nextDo s1 0 with | .shift s' => Next.cont (shift ⟨_, [], st'⟩ s') | .reduce r => reduce stod _ r | .error => .reject) = _
    rw [ht.2]; rfl
  · unfold step
    exact if_pos rfl

end FastBer.Parser
