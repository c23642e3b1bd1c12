import Verif.Proofs.ViewerSafe
import Verif.Props.View
/-!
# Property C89: the printed form of a BER element, and the tool `fast_ber_view`

`view host file` is the tool on a file: what it writes to standard output and its exit code.
-/
namespace FastBer.Props
open FastBer FastBer.Spec FastBer.Viewer FastBer.Viewer.Spec FastBer.Json.Spec

/-- glibc in the "C" locale, with a parser of times that accepts nothing. -/
def viewHost : Host := ⟨fun _ => .ok false, fun _ => none⟩

/-- glibc in the "C" locale, and a time that is accepted. -/
def timeHost : Host := ⟨fun _ => .ok false, fun _ => some (lit "2021-08-15T13:05:00+00:00")⟩

/-- C89, what is printed.  The file begins with an element (X.690 8.1, definite lengths, nested to any depth, of any size) all
whose primitive parts are `Showable`; whatever follows it.  Then the tool succeeds, and what it prints is a JSON text whose value
describes exactly that element: class, tag, number of octets and content of every part, in order. -/
theorem C89_json_partial (host : Host) (hh : ∀ b, 128 ≤ b.toNat → host.high b = .ok false) (s rest : Bytes) (x : Tlv)
    (he : Element s x) (hx : AllShowable x) (hs : s.length < 2 ^ 64 - 64) :
    ∃ out, view host (s ++ rest) = .ok (out, 0) ∧ Document (describe x) out := by
  obtain ⟨v, out, ha, hv, _, _, hsv, hval⟩ := showView_element hh he hx hs rest
  refine ⟨out, ?_, [], out, [], by simp [Ws], hval, by simp [Ws], by simp⟩
  rw [view, BerView.parse, ha 0, Exec.ok_bind, hsv, Exec.ok_bind, if_pos hv]

/-- A JSON text has one value: what a reader of the output learns is determined. -/
theorem C89_unique (j j' : Json) (s : Bytes) (h : Document j s) (h' : Document j' s) : j = j' := by
  have e := Json.pDocument_ok h
  rw [Json.pDocument_ok h'] at e
  exact (Option.some.inj e).symm

/-- C89, exit code.  Whenever the tool ends, the exit code is 0 if the file begins with an element that fits into it, and -1
otherwise; in the second case it prints `null`. -/
theorem C89_exit (host : Host) (file out : Bytes) (code : Int) (h : view host file = .ok (out, code)) :
    ∃ v, BerView.parse file = .ok v ∧ (v.valid = true → code = 0) ∧ (v.valid = false → code = -1 ∧ out = lit "null") := by
  rw [view] at h
  cases hp : BerView.parse file with
  | ub => rw [hp] at h; simp at h
  | loop => rw [hp] at h; simp at h
  | ok v =>
    rw [hp, Exec.ok_bind] at h
    refine ⟨v, rfl, fun hv => ?_, fun hv => ?_⟩
    · cases hs : showView host v with
      | ub => rw [hs] at h; simp at h
      | loop => rw [hs] at h; simp at h
      | ok s =>
        rw [hs, Exec.ok_bind, if_pos hv] at h
        simp only [Exec.ok.injEq, Prod.mk.injEq] at h
        exact h.2.symm
    · rw [showView, if_pos hv, Exec.ok_bind, if_neg (by rw [hv]; decide)] at h
      simp only [Exec.ok.injEq, Prod.mk.injEq] at h
      exact ⟨h.2.symm, h.1.symm⟩

/-- C89, any octets.  On every file without overflowing tags and lengths in which no UTCTime or GeneralizedTime of fewer than five
octets occurs the tool ends without undefined behaviour, if `isprint` is defined for every octet. -/
theorem C89_safe_partial (host : Host) (hh : ∀ b, 128 ≤ b.toNat → (host.high b).Safe) (file : Bytes) (hs : Sane file)
    (ht : NoShortTime file) (hl : file.length < 2 ^ 64 - 64) : ∃ out code, view host file = .ok (out, code) := by
  obtain ⟨v, ha, hv, _⟩ := hs.assign 0
  obtain ⟨s, e⟩ := (show_safe hh file.length hl).1 file v 0 rfl ha hv ht
  exact ⟨s, _, by rw [view, BerView.parse, ha, Exec.ok_bind, e, Exec.ok_bind]⟩

/-- The same with a condition that can be seen: no nine octets with the top bit set after one another, no 0x88 0xFF, no UTCTime or
GeneralizedTime header with a length below five. -/
theorem C89_safe_octets_partial (host : Host) (hh : ∀ b, 128 ≤ b.toNat → (host.high b).Safe) (file : Bytes) (hs : Plain file)
    (ht : NoShortTime file) : ∃ out code, view host file = .ok (out, code) := by
  have := hs.size
  exact C89_safe_partial host hh file hs.tame.sane ht (by omega)

/-! ## Where it fails -/

theorem not_json {s : Bytes} (h : (Json.pDocument s).isNone = true) (j : Json) : ¬ Document j s := by
  intro hd
  rw [Json.pDocument_ok hd] at h
  cases h

/-- A REAL leaves nothing between `"content": ` and the brace: not JSON. -/
theorem C89_violated_real : ∃ out, view viewHost [0x09, 0x00] = .ok (out, 0) ∧ ∀ j, ¬ Document j out := by
  exact ⟨lit "{ \"length\": 2, \"identifier\": { \"class\": \"Universal\", \"tag\": \"Real\" }, \"content\":  }", by decide +kernel,
    not_json (by decide +kernel)⟩

/-- Quotation marks and backslashes in text are not escaped: not JSON (here the PrintableString `"`). -/
theorem C89_violated_quotes : ∃ out, view viewHost [0x13, 0x01, 0x22] = .ok (out, 0) ∧ ∀ j, ¬ Document j out := by
  exact ⟨lit "{ \"length\": 3, \"identifier\": { \"class\": \"Universal\", \"tag\": \"Printable String\" }, \"content\": \"\"\" }",
    by decide +kernel, not_json (by decide +kernel)⟩

/-- A time that is understood is printed without quotation marks: not JSON (here 20210815130500Z). -/
theorem C89_violated_time : ∃ file out, view timeHost file = .ok (out, 0) ∧ ∀ j, ¬ Document j out := by
  exact ⟨[0x18, 15, 0x32, 0x30, 0x32, 0x31, 0x30, 0x38, 0x31, 0x35, 0x31, 0x33, 0x30, 0x35, 0x30, 0x30, 0x5A],
    lit ("{ \"length\": 17, \"identifier\": { \"class\": \"Universal\", \"tag\": \"Generalized Time\" }, \"content\": " ++
      "2021-08-15T13:05:00+00:00 }"), by decide +kernel, not_json (by decide +kernel)⟩

/-- Quotation marks can do worse: the output is JSON, but what it says is not in the file.  A PrintableString whose text is
`", "content": "x` gives an object with a second `content`. -/
theorem C89_violated_injection : ∃ text out j, view viewHost (0x13 :: 16 :: text) = .ok (out, 0) ∧ Document j out ∧
    Element (0x13 :: 16 :: text) (.primitive .universal 19 18 text) ∧ j ≠ describe (.primitive .universal 19 18 text) := by
  refine ⟨lit "\", \"content\": \"x",
    lit ("{ \"length\": 18, \"identifier\": { \"class\": \"Universal\", \"tag\": \"Printable String\" }, \"content\": \"\", " ++
      "\"content\": \"x\" }"),
    .object [member "length" (.int 18), member "identifier" (describeTag .universal 19), member "content" (word ""),
      member "content" (word "x")], by decide +kernel, ?_, ?_, ?_⟩
  · have h1 := value_nat 18
    have h2 := value_id .universal 19
    have h3 := value_word "" (by decide +kernel)
    have h4 := value_word "x" (by decide +kernel)
    have := Value.object (.more ws_space (chars_lit "length" (by decide +kernel)) ws_nil ws_space h1 ws_nil
      (.more ws_space (chars_lit "identifier" (by decide +kernel)) ws_nil ws_space h2 ws_nil
        (.more ws_space (chars_lit "content" (by decide +kernel)) ws_nil ws_space h3 ws_nil
          (.one ws_space (chars_lit "content" (by decide +kernel)) ws_nil ws_space h4 ws_space))))
    refine ⟨[], _, [], by simp [Ws], this, by simp [Ws], ?_⟩
    decide +kernel
  · exact Element.primitive (t := [0x13]) (l := [16]) (content := lit "\", \"content\": \"x") (.low (b := 0x13) (by decide +kernel)) rfl
  · intro h
    have := congrArg (fun j => match j with | .object ms => ms.length | _ => 0) h
    simp [describe] at this

/-- The output for an element of one value. -/
def shown (size : String) (tag : String) (content : String) : Bytes :=
  lit ("{ \"length\": " ++ size ++ ", \"identifier\": { \"class\": \"Universal\", \"tag\": \"" ++ tag ++ "\" }, \"content\": " ++
    content ++ " }")

/-- Every ENUMERATED is printed as 0: it is read with the identifier of INTEGER. -/
theorem C89_violated_enumerated (host : Host) (content rest : Bytes) (l : Bytes) (hl : LengthField l content.length)
    (hs : l.length + content.length < 2 ^ 64 - 64) :
    view host (0x0A :: (l ++ (content ++ rest))) = .ok (lit "{ \"length\": " ++ showNat (1 + l.length + content.length) ++
      lit ", \"identifier\": { \"class\": \"Universal\", \"tag\": \"Enumerated\" }, \"content\": 0 }", 0) := by
  obtain ⟨v, hv, hm, hw⟩ := assign_fields (t := [0x0A]) (.low (b := 0x0A) (by decide +kernel)) hl (by decide +kernel)
    (by simp only [List.length_append, List.length_singleton]; omega) rest
  have hw : Shows v .universal .primitive 10 (1 + l.length + content.length) content := hw
  have e : (0x0A :: (l ++ (content ++ rest)) : Bytes) = [0x0A] ++ (l ++ content) ++ rest := by simp
  rw [view, BerView.parse, e, hv 0, Exec.ok_bind, showView, if_neg (by rw [hw.valid]; decide)]
  simp only [BerView.identifier, hw.cls, hw.con, hw.tag, hw.total, Exec.ok_bind, hw.valid, if_true]
  rw [showPrimitive, hw.cls, Exec.ok_bind]
  simp only [if_true, hw.tag]
  rw [showInteger_enumerated hw (by decide)]
  simp only [show ((10 : Nat) : Int) = 10 from rfl, Int.reduceEq, if_false, if_true, Exec.ok_bind]
  congr 2
  rw [show showId ⟨.universal, 10⟩ = lit "{ \"class\": \"Universal\", \"tag\": \"Enumerated\" }" by decide +kernel,
    show showInt 0 = lit "0" by decide +kernel]
  simp only [List.append_assoc]
  congr 2

/-- An INTEGER of nine octets (here 2^64 + 5) and an empty INTEGER are printed as 0. -/
theorem C89_violated_integer :
    view viewHost [0x02, 9, 1, 0, 0, 0, 0, 0, 0, 0, 5] = .ok (shown "11" "Integer" "0", 0) ∧
    view viewHost [0x02, 0] = .ok (shown "2" "Integer" "0", 0) := ⟨by decide +kernel, by decide +kernel⟩

/-- A BOOLEAN of two octets is printed as false. -/
theorem C89_violated_boolean : view viewHost [0x01, 2, 0xFF, 0xFF] = .ok (shown "4" "Boolean" "false", 0) := by decide +kernel

/-- Octets in a constructed element that are no element are not mentioned, and neither are the elements behind them; the exit code
is 0. -/
theorem C89_violated_dropped : view viewHost [0x30, 6, 0x02, 0x7F, 0x01, 0x02, 1, 5] =
    .ok (shown "8" "Sequence / Sequence Of" "[]", 0) := by decide +kernel

/-- OBJECT IDENTIFIER {2 999}: the first subidentifier is printed as 3, 16, 55. -/
theorem C89_violated_oid : view viewHost [0x06, 2, 0x88, 0x37] = .ok (shown "4" "Object Identifier" "[3, 16, 55]", 0) := by
  decide +kernel

/-- An empty UTCTime or GeneralizedTime, or one of up to four octets not ending in Z: the octet before the content is read. -/
theorem C89_violated_short_time : view viewHost [0x18, 0] = .ub ∧ view viewHost [0x17, 1, 0x31] = .ub ∧
    view viewHost [0x30, 4, 0x18, 2, 0x31, 0x31] = .ub := ⟨by decide +kernel, by decide +kernel, by decide +kernel⟩

/-- `isprint` gets a negative number for an octet of 128 or more: undefined in ISO C. -/
theorem C89_violated_isprint : ∀ b : UInt8, 128 ≤ b.toNat → view ⟨fun _ => .ub, fun _ => none⟩ [0x04, 1, b] = .ub := by
  have key : ∀ b : UInt8, 128 ≤ b.toNat → view ⟨fun _ => .ub, fun _ => none⟩ [0x04, 1, b] = .ub :=
    forall_byte (by decide +kernel)
  exact key

/-- A length that wraps around (see C07, C09): reading outside the file, or printing without end. -/
theorem C89_violated_wrap :
    view viewHost [0x04, 0x88, 0xFF, 0xFF, 0xFF, 0xFF, 0xFF, 0xFF, 0xFF, 0xF6] = .ub ∧
    view viewHost [0x30, 10, 0x02, 0x88, 0xFF, 0xFF, 0xFF, 0xFF, 0xFF, 0xFF, 0xFF, 0xF6] = .loop := ⟨by decide +kernel, by decide +kernel⟩

/-! ## The hypotheses are met -/

/-- SEQUENCE { BOOLEAN TRUE, INTEGER -128, [5] { "hi" }, OBJECT IDENTIFIER {1 2 840} }. -/
def viewedFile : Bytes :=
  [0x30, 17, 0x01, 1, 0xFF, 0x02, 1, 0x80, 0xA5, 4, 0x0C, 2, 0x68, 0x69, 0x06, 3, 0x2A, 0x86, 0x48]

/-- Its tree. -/
def viewedTree : Tlv :=
  .constructed .universal 16 19 [.primitive .universal 1 3 [0xFF], .primitive .universal 2 3 [0x80],
    .constructed .contextSpecific 5 6 [.primitive .universal 12 4 [0x68, 0x69]], .primitive .universal 6 5 [0x2A, 0x86, 0x48]]

theorem viewed_element : Element viewedFile viewedTree := by
  have e1 : Element [0x01, 1, 0xFF] _ :=
    .primitive (t := [0x01]) (l := [1]) (content := [0xFF]) (.low (b := 0x01) (by decide)) rfl
  have e2 : Element [0x02, 1, 0x80] _ :=
    .primitive (t := [0x02]) (l := [1]) (content := [0x80]) (.low (b := 0x02) (by decide)) rfl
  have e3 : Element [0x0C, 2, 0x68, 0x69] _ :=
    .primitive (t := [0x0C]) (l := [2]) (content := [0x68, 0x69]) (.low (b := 0x0C) (by decide)) rfl
  have e4 : Element [0xA5, 4, 0x0C, 2, 0x68, 0x69] _ :=
    .constructed (t := [0xA5]) (l := [4]) (.low (b := 0xA5) (by decide)) rfl (.cons e3 .nil)
  have e5 : Element [0x06, 3, 0x2A, 0x86, 0x48] _ :=
    .primitive (t := [0x06]) (l := [3]) (content := [0x2A, 0x86, 0x48]) (.low (b := 0x06) (by decide)) rfl
  exact .constructed (t := [0x30]) (l := [17]) (.low (b := 0x30) (by decide)) rfl (.cons e1 (.cons e2 (.cons e4 (.cons e5 .nil))))

theorem viewed_showable : AllShowable viewedTree := by
  refine ⟨by decide, ⟨by decide, rfl⟩, ⟨by decide, by decide, by decide⟩, ⟨by decide, ⟨by decide, ?_⟩, trivial⟩, ⟨by decide, ?_⟩, trivial⟩
  · exact fun _ => by decide
  · exact ⟨⟨_, _, rfl, by decide⟩, by decide +kernel⟩

/-- C89_json_partial met: what is printed for this file is a JSON text for its tree, also with octets behind it. -/
example (rest : Bytes) : ∃ out, view viewHost (viewedFile ++ rest) = .ok (out, 0) ∧ Document (describe viewedTree) out :=
  C89_json_partial viewHost (fun _ _ => rfl) _ rest _ viewed_element viewed_showable (by decide)

/-- And this is the text. -/
example : view viewHost viewedFile = .ok (shown "19" "Sequence / Sequence Of"
    ("[{ \"length\": 3, \"identifier\": { \"class\": \"Universal\", \"tag\": \"Boolean\" }, \"content\": true }, " ++
    "{ \"length\": 3, \"identifier\": { \"class\": \"Universal\", \"tag\": \"Integer\" }, \"content\": -128 }, " ++
    "{ \"length\": 6, \"identifier\": { \"class\": \"Context Specific\", \"tag\": 5 }, \"content\": " ++
    "[{ \"length\": 4, \"identifier\": { \"class\": \"Universal\", \"tag\": \"UTF8 String\" }, \"content\": \"hi\" }] }, " ++
    "{ \"length\": 5, \"identifier\": { \"class\": \"Universal\", \"tag\": \"Object Identifier\" }, \"content\": [1, 2, 840] }]"), 0) := by
  decide +kernel

/-- C89_exit met by a truncated file. -/
example : view viewHost [0x30, 5, 0x01] = .ok (lit "null", -1) := by decide +kernel

/-- C89_safe_octets_partial met: no octet of the file is the tag of a time. -/
theorem no_time {bs : Bytes} (h : ∀ b ∈ bs, b ≠ 0x17 ∧ b ≠ 0x18 ∧ b ≠ 0x1F) : NoShortTime bs := by
  intro s hs tag0 v ha hv hc hk ht
  exfalso
  obtain ⟨hm, h2, hh, _⟩ := assign_valid ha hv
  cases s with
  | nil => simp at hh; omega
  | cons b r =>
    have hb := h b (hs.subset (by simp))
    have key : ∀ b : UInt8, (b ≠ 0x17 ∧ b ≠ 0x18 ∧ b ≠ 0x1F) → getClass b = .universal → getConstruction b = .primitive →
        (b &&& 0x1F) ≠ 0x1F ∧ (b &&& 0x1F).toNat ≠ 23 ∧ (b &&& 0x1F).toNat ≠ 24 := forall_byte (by decide +kernel)
    rw [BerView.cls, hm] at hc
    rw [BerView.construction, hm] at hk
    obtain ⟨k1, k2, k3⟩ := key b hb (by simpa using hc) (by simpa using hk)
    obtain ⟨_, _, _, _, _, tl, ll, e, _⟩ := assign_valid ha hv
    simp only [extractTag] at e
    rw [if_pos k1] at e
    simp only [Exec.ok.injEq, Prod.mk.injEq] at e
    omega

example : NoShortTime viewedFile ∧ Plain [0x30, 6, 0x02, 0x7F, 0x01, 0x02, 1, 5] :=
  ⟨no_time (by decide +kernel), plain_of_all_small _ (by decide +kernel) (by decide +kernel)⟩

/-- A time of ten octets is no short time. -/
example : ∃ out, view viewHost [0x17, 10, 0x32, 0x31, 0x30, 0x38, 0x31, 0x35, 0x31, 0x33, 0x30, 0x35] = .ok (out, 0) :=
  ⟨shown "12" "UTC Time" "\"2108151305\"", by decide +kernel⟩

end FastBer.Props
