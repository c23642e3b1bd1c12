import Verif.Props.SampleFile
import Verif.Props.Prims
import Verif.Model.Sample
import Verif.Model.Enum
/-!
# C101: the sample programs
-/
namespace FastBer.Props
open FastBer FastBer.Ast FastBer.Ast.Spec FastBer.Spec Lexer Lexer.Spec Notation Parser

/-! ## Objects of these types -/

/-- Strings, with the length the values of a team need at most. -/
def Room (t : Sample.Team) : Nat := t.name.length + (t.members.map fun p => p.name.length + p.category.length + p.ability.length + p.weakness.length + 1000).sum + 1000

/-- The value of the ASN.1 type a team stands for: `type` and `weight` may have any octets that denote the numbers; an enumerator is an `int`. -/
def PokemonVal (p : Sample.Pokemon) (x : Val) : Prop := ∃ t w, x = .struct [.content p.name, .content p.category, .content t, .content p.ability, .content p.weakness, .content w] ∧
  (twosComplement t).bmod (2 ^ 32) = p.type ∧ twosComplement w = p.weight
def MembersVal : List Sample.Pokemon → List Val → Prop
  | [], [] => True
  | p :: ps, x :: xs => PokemonVal p x ∧ MembersVal ps xs
  | _, _ => False
def TeamVal (t : Sample.Team) (x : Val) : Prop := ∃ xs, x = .struct [.content t.name, .list xs] ∧ MembersVal t.members xs

theorem short_tagged {id : Ident} (hid : identOk id) (k : Construction) {c : Bytes} (h : c.length + 38 < 2 ^ 64) : (tagged id k c).length ≤ c.length + 38 := by
  have := Ident.encodedLength_lt id c.length
  rw [length_tagged hid k c (by omega)]
  omega

theorem octets_rep {s : Bytes} (h : s.length + 38 < 2 ^ 64) : leafRep .str (univ 4) (Sample.octets s) (.content s) (tagged (univ 4) .primitive s) := by
  have hid : identOk (univ 4) := by simp [identOk, idOk, univ]
  have := Ident.encodedLength_lt (univ 4) s.length
  have hs := short_tagged hid .primitive h
  exact canon_rep hid (assignContent_canon hid _ s (by omega)) (by omega)

theorem octets_read {o : Obj} {s e : Bytes} (h : leafRep .str (univ 4) o (.content s) e) : ∃ c, o = .cont c ∧ c.content = .ok s := by
  obtain ⟨c, rfl, hw, rfl, hx⟩ := contRep_iff.1 h
  refine ⟨c, rfl, ?_⟩
  rw [hw.content]
  cases hx
  rfl

theorem number_rep (v : Int) : ∃ d, Integer.ofInt Sample.intId v = .ok d ∧ leafRep .int (univ 2) (.raw d) (.content (intContent v)) (tagged (univ 2) .primitive (intContent v)) := by
  have hid : identOk (univ 2) := by simp [identOk, idOk, univ]
  obtain ⟨d, h1, h2⟩ := assign_wf hid (SmallWf.init hid 8) v
  exact ⟨d, h1, smallRep_iff.2 ⟨_, d, rfl, rfl, h2, rfl⟩⟩

theorem number_read {o : Obj} {c : Bytes} {e : Bytes} {id : Ident} (hid : identOk id) (h : smallRep 8 id o (.content c) e) :
    ∃ d, o = .raw d ∧ Integer.value id d = .ok (twosComplement c) := by
  obtain ⟨c', d, hx, rfl, hw, -⟩ := smallRep_iff.1 h
  cases hx
  refine ⟨d, rfl, ?_⟩
  rw [Integer.value, hw.content hid (by omega), Exec.ok_bind, decodeInteger_eq]
  split
  · rfl
  · have := hw.1
    obtain rfl : c = [] := List.length_eq_zero_iff.1 (by omega)
    rfl

theorem enumerated_rep (v : Int) : ∃ d, Sample.enumerated v = .ok d ∧ leafRep .enum (univ 10) (.raw d) (.content (intContent v)) (tagged (univ 10) .primitive (intContent v)) := by
  have hid : identOk (univ 10) := by simp [identOk, idOk, univ]
  obtain ⟨d0, h0, hw0⟩ := (SmallWf.init hid 8).assignContent hid (by omega) [0] (by simp)
  obtain ⟨d, h1, h2⟩ := assign_wf hid hw0 v
  refine ⟨d, ?_, smallRep_iff.2 ⟨_, d, rfl, rfl, h2, rfl⟩⟩
  show (Integer.default (univ 10) >>= fun d => Integer.assign (univ 10) d v) = _
  rw [show Integer.default (univ 10) = .ok d0 from h0]
  exact h1

/-- The values the C++ types of the fields have: `type` is an `int`, `weight` an `int64_t`. -/
def Representable (p : Sample.Pokemon) : Prop := (-2 ^ 31 ≤ p.type ∧ p.type < 2 ^ 31) ∧ isInt64 p.weight

theorem pokemon_object {p : Sample.Pokemon} (hp : Representable p) (h : p.name.length + p.category.length + p.ability.length + p.weakness.length + 1000 < 2 ^ 64) :
    ∃ o x e, p.object = .ok o ∧ pokemonTy.Rep o x e ∧ PokemonVal p x ∧ e.length ≤ p.name.length + p.category.length + p.ability.length + p.weakness.length + 1000 := by
  obtain ⟨t, h1, h2⟩ := enumerated_rep p.type
  obtain ⟨w, h3, h4⟩ := number_rep p.weight
  refine ⟨_, _, _, by rw [Sample.Pokemon.object, h1, Exec.ok_bind, h3, Exec.ok_bind], ⟨_, [.content p.name, .content p.category, .content (intContent p.type), .content p.ability,
      .content p.weakness, .content (intContent p.weight)], [tagged (univ 4) .primitive p.name, tagged (univ 4) .primitive p.category, tagged (univ 10) .primitive (intContent p.type), tagged (univ 4) .primitive p.ability,
      tagged (univ 4) .primitive p.weakness, tagged (univ 2) .primitive (intContent p.weight)], rfl, rfl, rfl, ?_⟩, ⟨_, _, rfl, ?_, intContent_value _ hp.2⟩, ?_⟩
  · refine ⟨_, _, _, _, _, _, rfl, rfl, rfl, octets_rep (by omega), ?_⟩
    refine ⟨_, _, _, _, _, _, rfl, rfl, rfl, octets_rep (by omega), ?_⟩
    refine ⟨_, _, _, _, _, _, rfl, rfl, rfl, h2, ?_⟩
    refine ⟨_, _, _, _, _, _, rfl, rfl, rfl, octets_rep (by omega), ?_⟩
    refine ⟨_, _, _, _, _, _, rfl, rfl, rfl, octets_rep (by omega), ?_⟩
    refine ⟨_, _, _, _, _, _, rfl, rfl, rfl, h4, rfl, rfl, rfl⟩
  · have a1 := hp.1.1
    have a2 := hp.1.2
    rw [intContent_value _ ⟨by omega, by omega⟩, Int.bmod_eq_of_le] <;> omega
  · have hid : ∀ n : Int, 0 ≤ n → n < 100 → identOk (univ n) := by intro n h h'; simp [identOk, idOk, univ]; omega
    have e1 := short_tagged (hid 4 (by omega) (by omega)) .primitive (c := p.name) (by omega)
    have e2 := short_tagged (hid 4 (by omega) (by omega)) .primitive (c := p.category) (by omega)
    have e3 := short_tagged (hid 4 (by omega) (by omega)) .primitive (c := p.ability) (by omega)
    have e4 := short_tagged (hid 4 (by omega) (by omega)) .primitive (c := p.weakness) (by omega)
    have l1 := intContent_length p.type
    have l2 := intContent_length p.weight
    have e5 := short_tagged (hid 10 (by omega) (by omega)) .primitive (c := intContent p.type) (by omega)
    have e6 := short_tagged (hid 2 (by omega) (by omega)) .primitive (c := intContent p.weight) (by omega)
    refine Nat.le_trans (short_tagged (hid 16 (by omega) (by omega)) _ ?_) ?_ <;>
    · simp only [List.flatten_cons, List.flatten_nil, List.length_append, List.length_nil]
      omega

theorem pokemon_rep {o : Obj} {x : Val} {e : Bytes} (h : pokemonTy.Rep o x e) : ∃ p, PokemonVal p x ∧ Sample.readPokemon o = .ok p := by
  obtain ⟨os, xs, es, rfl, rfl, -, h⟩ := h
  obtain ⟨o1, os, x1, xs, e1, es, rfl, rfl, rfl, h1, h⟩ := h
  obtain ⟨o2, os, x2, xs, e2, es, rfl, rfl, rfl, h2, h⟩ := h
  obtain ⟨o3, os, x3, xs, e3, es, rfl, rfl, rfl, h3, h⟩ := h
  obtain ⟨o4, os, x4, xs, e4, es, rfl, rfl, rfl, h4, h⟩ := h
  obtain ⟨o5, os, x5, xs, e5, es, rfl, rfl, rfl, h5, h⟩ := h
  obtain ⟨o6, os, x6, xs, e6, es, rfl, rfl, rfl, h6, h⟩ := h
  obtain ⟨rfl, rfl, rfl⟩ := h
  have hs : ∀ {o x e}, contRep (univ 4) o x e → ∃ c, x = .content c := fun h => by
    obtain ⟨c, -, -, -, hx⟩ := contRep_iff.1 h
    exact ⟨_, hx⟩
  obtain ⟨n1, rfl⟩ := hs h1
  obtain ⟨n2, rfl⟩ := hs h2
  obtain ⟨n3, -, rfl, -⟩ := smallRep_iff.1 h3
  obtain ⟨n4, rfl⟩ := hs h4
  obtain ⟨n5, rfl⟩ := hs h5
  obtain ⟨n6, -, rfl, -⟩ := smallRep_iff.1 h6
  obtain ⟨c1, rfl, r1⟩ := octets_read h1
  obtain ⟨c2, rfl, r2⟩ := octets_read h2
  obtain ⟨c3, rfl, r3⟩ := number_read (id := univ 10) (by simp [identOk, idOk, univ]) h3
  obtain ⟨c4, rfl, r4⟩ := octets_read h4
  obtain ⟨c5, rfl, r5⟩ := octets_read h5
  obtain ⟨c6, rfl, r6⟩ := number_read (id := univ 2) (by simp [identOk, idOk, univ]) h6
  refine ⟨⟨n1, n2, (twosComplement n3).bmod (2 ^ 32), n4, n5, twosComplement n6⟩, ⟨n3, n6, rfl, rfl, rfl⟩, ?_⟩
  have r3' : Enumerated.value Sample.enumId 32 c3 = .ok ((twosComplement n3).bmod (2 ^ 32)) := by
    rw [Enumerated.value, show Integer.value Sample.enumId c3 = _ from r3, Exec.ok_bind]
  rw [Sample.readPokemon, r1, Exec.ok_bind, r2, Exec.ok_bind, r3', Exec.ok_bind, r4, Exec.ok_bind, r5, Exec.ok_bind, show Integer.value Sample.intId c6 = _ from r6, Exec.ok_bind]

theorem pokemon_unique {p q : Sample.Pokemon} {x : Val} (hp : PokemonVal p x) (hq : PokemonVal q x) : p = q := by
  obtain ⟨t, w, rfl, h1, h2⟩ := hp
  obtain ⟨t', w', hx, h3, h4⟩ := hq
  cases p
  cases q
  simp only [Val.struct.injEq, List.cons.injEq, Val.content.injEq, and_true] at hx
  obtain ⟨rfl, rfl, rfl, rfl, rfl, rfl⟩ := hx
  simp only at h1 h2 h3 h4
  rw [← h1, ← h2, ← h3, ← h4]

theorem members_unique : ∀ {ps qs : List Sample.Pokemon} {xs : List Val}, MembersVal ps xs → MembersVal qs xs → ps = qs
  | [], [], [], _, _ => rfl
  | _ :: _, _ :: _, _ :: _, h, h' => by rw [pokemon_unique h.1 h'.1, members_unique h.2 h'.2]
  | [], _ :: _, [], _, h => h.elim
  | _ :: _, _, [], h, _ => h.elim
  | [], _, _ :: _, h, _ => h.elim
  | _ :: _, [], _ :: _, _, h => h.elim

theorem team_unique {t u : Sample.Team} {x : Val} (ht : TeamVal t x) (hu : TeamVal u x) : t = u := by
  obtain ⟨xs, rfl, h1⟩ := ht
  obtain ⟨ys, hx, h2⟩ := hu
  cases t
  cases u
  simp only [Val.struct.injEq, List.cons.injEq, Val.content.injEq, Val.list.injEq, and_true] at hx
  obtain ⟨rfl, rfl⟩ := hx
  exact congrArg _ (members_unique h1 h2)

theorem members_object : ∀ {ps : List Sample.Pokemon}, (∀ p ∈ ps, Representable p) →
    (ps.map fun p => p.name.length + p.category.length + p.ability.length + p.weakness.length + 1000).sum < 2 ^ 64 →
    ∃ os xs es, Sample.objects ps = .ok os ∧ all3 pokemonTy.Rep os xs es ∧ MembersVal ps xs ∧
      es.flatten.length ≤ (ps.map fun p => p.name.length + p.category.length + p.ability.length + p.weakness.length + 1000).sum
  | [], _, _ => ⟨[], [], [], rfl, trivial, trivial, Nat.le_refl _⟩
  | p :: ps, hp, h => by
    simp only [List.map_cons, List.sum_cons] at h
    obtain ⟨o, x, e, h1, h2, hx, h3⟩ := pokemon_object (hp p List.mem_cons_self) (by omega)
    obtain ⟨os, xs, es, g1, g2, hy, g3⟩ := members_object (ps := ps) (fun q hq => hp q (List.mem_cons_of_mem _ hq)) (by omega)
    refine ⟨o :: os, x :: xs, e :: es, by rw [Sample.objects, h1, Exec.ok_bind, g1, Exec.ok_bind], ⟨h2, g2⟩, ⟨hx, hy⟩, ?_⟩
    simp only [List.flatten_cons, List.length_append, List.map_cons, List.sum_cons]
    omega

theorem members_rep : ∀ {os : List Obj} {xs : List Val} {es : List Bytes}, all3 pokemonTy.Rep os xs es → ∃ ps, MembersVal ps xs ∧ Sample.readMembers os = .ok ps
  | [], [], [], _ => ⟨[], trivial, rfl⟩
  | o :: os, x :: xs, e :: es, h => by
    obtain ⟨p, h1, h2⟩ := pokemon_rep h.1
    obtain ⟨ps, h3, h4⟩ := members_rep h.2
    exact ⟨p :: ps, ⟨h1, h3⟩, by rw [Sample.readMembers, h2, Exec.ok_bind, h4, Exec.ok_bind]⟩
  | [], _ :: _, _, h => h.elim
  | [], [], _ :: _, h => h.elim
  | _ :: _, [], _, h => h.elim
  | _ :: _, _ :: _, [], h => h.elim

theorem team_object {t : Sample.Team} (hp : ∀ p ∈ t.members, Representable p) (h : Room t < 2 ^ 64) :
    ∃ o x e, t.object = .ok o ∧ teamTy.Rep o x e ∧ TeamVal t x ∧ e.length < 2 ^ 64 := by
  unfold Room at h
  obtain ⟨os, xs, es, h1, h2, hx, h3⟩ := members_object hp (by omega)
  have hid : ∀ n : Int, 0 ≤ n → n < 100 → identOk (univ n) := by intro n h h'; simp [identOk, idOk, univ]; omega
  have e1 := short_tagged (hid 4 (by omega) (by omega)) .primitive (c := t.name) (by omega)
  have e2 := short_tagged (hid 16 (by omega) (by omega)) .constructed (c := es.flatten) (by omega)
  refine ⟨_, _, _, by rw [Sample.Team.object, h1, Exec.ok_bind], ⟨_, [.content t.name, .list xs], [tagged (univ 4) .primitive t.name, tagged (univ 16) .constructed es.flatten], rfl, rfl, rfl, ?_⟩, ⟨xs, rfl, hx⟩, ?_⟩
  · refine ⟨_, _, _, _, _, _, rfl, rfl, rfl, octets_rep (by omega), ?_⟩
    exact ⟨_, _, _, _, _, _, rfl, rfl, rfl, ⟨_, _, _, rfl, rfl, rfl, h2⟩, rfl, rfl, rfl⟩
  · refine Nat.lt_of_le_of_lt (short_tagged (hid 16 (by omega) (by omega)) _ ?_) ?_ <;>
    · simp only [List.flatten_cons, List.flatten_nil, List.length_append, List.length_nil]
      omega

theorem team_rep {o : Obj} {x : Val} {e : Bytes} (h : teamTy.Rep o x e) : ∃ t, TeamVal t x ∧ Sample.readTeam o = .ok t := by
  obtain ⟨os, xs, es, rfl, rfl, -, h⟩ := h
  obtain ⟨o1, os, x1, xs, e1, es, rfl, rfl, rfl, h1, h⟩ := h
  obtain ⟨o2, os, x2, xs, e2, es, rfl, rfl, rfl, ⟨os', xs', es', rfl, rfl, -, h2⟩, h⟩ := h
  obtain ⟨rfl, rfl, rfl⟩ := h
  obtain ⟨c, -, -, -, rfl⟩ := contRep_iff.1 h1
  obtain ⟨c1, rfl, r1⟩ := octets_read h1
  obtain ⟨ps, h3, h4⟩ := members_rep h2
  exact ⟨⟨_, ps⟩, ⟨xs', rfl, h3⟩, by rw [Sample.readTeam, r1, Exec.ok_bind, h4, Exec.ok_bind]⟩

theorem teamTy_wf : teamTy.WF := by
  simp [teamTy, pokemonTy, Ty.WF, Fields.WF, identOk, idOk, univ]

theorem members_valid : ∀ {ps : List Sample.Pokemon} {xs : List Val}, MembersVal ps xs → ∀ x ∈ xs, pokemonTy.Valid x
  | [], [], _, x, hx => by cases hx
  | p :: ps, y :: xs, h, x, hx => by
    rcases List.mem_cons.1 hx with rfl | hx
    · obtain ⟨t, w, rfl, -⟩ := h.1
      simp [pokemonTy, Ty.Valid, Fields.Valid, compValid]
    · exact members_valid h.2 x hx
  | [], _ :: _, h, _, _ => h.elim
  | _ :: _, [], h, _, _ => h.elim

theorem teamTy_valid {t : Sample.Team} {x : Val} (h : TeamVal t x) : teamTy.Valid x := by
  obtain ⟨xs, rfl, h⟩ := h
  have := members_valid h
  simpa [teamTy, Ty.Valid, Fields.Valid, compValid] using this

/-- **C101.** From testfiles/pokemon.asn the compiler makes a C++ type for `Team` such that, for every team (any names, any number of members, any enumerator and any weight), the encoding
sample program ends successfully, and the decoding sample program, given the file it wrote, ends successfully and prints that team. -/
theorem C101_sample (stod : Bytes → UInt64) (lib : Lib) (hv : ∀ T v d, lib.default T v = some d → T.Holds d) :
    ∃ env T, TextCompiled stod lib [bytes pokemonFile] pokemonModules env ∧ env.typeOf "Pokemon" "Team" = some T ∧
      ∀ team : Sample.Team, (∀ p ∈ team.members, Representable p) → Room team < 2 ^ 64 →
        ∃ file, Sample.encodeMain T team = .ok (some file) ∧ Sample.decodeMain T file = .ok (some team) := by
  obtain ⟨env, h1, h2⟩ := pokemon_compiles stod lib hv
  refine ⟨env, teamTy, h1, h2, fun team hp hr => ?_⟩
  obtain ⟨o, x, e, k1, k2, kx, k3⟩ := team_object hp hr
  have hsz : teamTy.encodedLength o = e.length := (teamTy.encLaws teamTy_wf).size k2 k3
  obtain ⟨r, buf', g1, g2, g3, -⟩ := C32_encode_exact teamTy teamTy_wf ⟨_, _, k2, k3⟩ (List.replicate (teamTy.encodedLength o) 0)
  have hs : r.success = true := g2.2 (by simp)
  have hl := C31_encode_length teamTy teamTy_wf ⟨_, _, k2, k3⟩ _ g1 hs
  obtain ⟨o0, n1, n2⟩ : ∃ o0, teamTy.new = .ok o0 ∧ teamTy.Holds o0 := by
    obtain ⟨o0, x, e, h, h', -⟩ := (teamTy.encLaws teamTy_wf).init
    exact ⟨o0, h, x, e, h'⟩
  obtain ⟨o', d1, d2, -⟩ := C33_round_trip_partial teamTy teamTy_wf (by trivial) k2 (teamTy_valid kx) k3 _ g1 hs n2 []
  refine ⟨buf'.take r.length, ?_, ?_⟩
  · rw [Sample.encodeMain, k1, Exec.ok_bind]
    simp only [g1, Exec.ok_bind, hs, Bool.not_true, Bool.false_eq_true, if_false]
    rw [if_pos (by rw [g3, hl]; simp)]
  · rw [List.append_nil] at d1
    rw [Sample.decodeMain, n1, Exec.ok_bind, d1, Exec.ok_bind]
    simp only [Bool.not_true, Bool.false_eq_true, if_false]
    obtain ⟨t, hx, ht⟩ := team_rep d2
    rw [ht, Exec.ok_bind, team_unique hx kx]

theorem teamTy_guarded : teamTy.Guarded := by
  simp [teamTy, pokemonTy, Ty.Guarded, Fields.SeqGuarded, Ty.isUntaggedChoice]

/-- **C101 (any file).** For every file (whose tag numbers and lengths are not near 2^64, `Sane`) the decoding program ends.  It prints a team if and only if the file starts with a BER
element that reads as a value of the ASN.1 type, and then it is the team this value stands for. -/
theorem C101_any_file_partial (stod : Bytes → UInt64) (lib : Lib) (hv : ∀ T v d, lib.default T v = some d → T.Holds d) :
    ∃ env T, TextCompiled stod lib [bytes pokemonFile] pokemonModules env ∧ env.typeOf "Pokemon" "Team" = some T ∧
      ∀ file, Sane file → ∃ v r, BerView.parse file = .ok v ∧ Sample.decodeMain T file = .ok r ∧ (r = none ↔ ¬ ∃ x, T.Reads v x) ∧
        ∀ team, r = some team → ∃ x, T.Reads v x ∧ TeamVal team x := by
  obtain ⟨env, h1, h2⟩ := pokemon_compiles stod lib hv
  refine ⟨env, teamTy, h1, h2, fun file hs => ?_⟩
  obtain ⟨o0, n1, n2⟩ : ∃ o0, teamTy.new = .ok o0 ∧ teamTy.Holds o0 := by
    obtain ⟨o0, x, e, h, h', -⟩ := (teamTy.encLaws teamTy_wf).init
    exact ⟨o0, h, x, e, h'⟩
  obtain ⟨v, r, o', g1, g2, g3, g4⟩ := C65_decode_iff_reads teamTy teamTy_wf (by trivial) teamTy_guarded hs (by rintro ⟨⟩) n2
  cases r with
  | false =>
    refine ⟨v, none, g1, by rw [Sample.decodeMain, n1, Exec.ok_bind, g2, Exec.ok_bind]; rfl, ⟨fun _ h => ?_, fun _ => rfl⟩, fun t h => by cases h⟩
    cases g3.2 h
  | true =>
    obtain ⟨x, e, k1, k2⟩ := g4 rfl
    obtain ⟨t, t1, t2⟩ := team_rep k1
    refine ⟨v, some t, g1, ?_, ⟨fun h => (by cases h), fun h => absurd ⟨x, k2⟩ h⟩, fun u h => ?_⟩
    · rw [Sample.decodeMain, n1, Exec.ok_bind, g2, Exec.ok_bind]
      show (do let t ← Sample.readTeam o'; Exec.ok (some t)) = _
      rw [t2, Exec.ok_bind]
    · cases h
      exact ⟨x, k2, t1⟩

/-- The team built in sample/encode/main.cpp. -/
def samsTeam : Sample.Team := ⟨bytes "Sam's Team", [⟨bytes "Munchlax", bytes "Big Eater", 0, bytes "Thick Fat, Pickup", bytes "Fighting", 105⟩,
  ⟨bytes "Piplup", bytes "Penguin", 3, bytes "Torrent", bytes "Electric, Grass", 12⟩]⟩

/-- It meets the conditions of C101. -/
example : (∀ p ∈ samsTeam.members, Representable p) ∧ Room samsTeam < 2 ^ 64 := by
  refine ⟨fun p hp => ?_, by decide +kernel⟩
  rcases List.mem_cons.1 hp with rfl | hp
  · exact ⟨by decide, by unfold isInt64; decide⟩
  · rw [List.mem_singleton.1 hp]
    exact ⟨by decide, by unfold isInt64; decide⟩

/-- The numbers in it are those of the enumerators `normal` and `water`. -/
example : Enum.constants [("normal", none), ("fire", none), ("fighting", none), ("water", none), ("flying", none), ("grass", none)] =
    some [("normal", 0), ("fire", 1), ("fighting", 2), ("water", 3), ("flying", 4), ("grass", 5)] := by decide

/-- Any text in ASCII characters of reasonable size is a file as in `C101_any_file_partial`. -/
example : Sane (bytes "no encoding") := (plain_of_small (by decide +kernel) (by decide +kernel)).tame.sane

end FastBer.Props
