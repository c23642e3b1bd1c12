import Verif.Proofs.Names
import Verif.Proofs.CodeBlock
/-!
# C52, C59, C60, C74: names, literals and layout of the generated code
-/
namespace FastBer.Props
open FastBer.Names FastBer.Names.Spec

/-- **C52.** Whatever the lexer accepts as a name becomes a C++ identifier, without hyphens. -/
theorem C52_identifier (n : List Char) (h : isLexedName n = true) :
    CppIdentifier (santizeName n) ∧ '-' ∉ santizeName n := santize_identifier h

/-- **C52 (partial).** The result is never a C++ keyword, with the single exception of names that read
`xor_eq` once hyphens are replaced.  Missing: `xor-eq` itself (`C52_reserved_violated`). -/
theorem C52_reserved_partial (n : List Char) :
    santizeName n ∈ cppKeywords ↔ hyphens n = "xor_eq".toList := santize_keyword n

/-- **C52 (partial).** Different ASN.1 names get different C++ names.  Missing: the lexer also accepts
underscores in names, and then two names can collide (`C52_distinct_violated`). -/
theorem C52_distinct_partial (a b : List Char) (ha : AsnName a) (hb : AsnName b) (hne : a ≠ b) :
    santizeName a ≠ santizeName b := fun h => hne (santize_inj ha hb h)

/-- **C52 is violated**: `xor-eq` is an ASN.1 name, the lexer takes it, and it becomes the keyword
`xor_eq` (the table entry is lost to a missing comma). -/
theorem C52_reserved_violated :
    AsnName "xor-eq".toList ∧ isLexedName "xor-eq".toList = true ∧
    santizeName "xor-eq".toList ∈ cppKeywords := by
  refine ⟨⟨⟨'x', "or-eq".toList, rfl, by unfold letter; decide⟩, ?_, by decide, ?_⟩, by decide +kernel,
    by decide +kernel⟩
  · have : ∀ c ∈ ['x', 'o', 'r', '-', 'e', 'q'], letter c ∨ digit c ∨ c = '-' := by
      intro c hc
      simp only [List.mem_cons, List.not_mem_nil, or_false] at hc
      rcases hc with rfl | rfl | rfl | rfl | rfl | rfl <;> unfold letter digit <;> decide
    exact this
  · intro p q h
    have h2 : ∀ i, (['x', 'o', 'r', '-', 'e', 'q'] : List Char)[i]? = some '-' →
        (['x', 'o', 'r', '-', 'e', 'q'] : List Char)[i + 1]? ≠ some '-' := by
      intro i hi
      rcases i with _ | _ | _ | _ | _ | _ | i <;> simp at hi ⊢
    have h' : (['x', 'o', 'r', '-', 'e', 'q'] : List Char) = p ++ '-' :: '-' :: q := h
    refine h2 p.length ?_ ?_
    · rw [h']; simp
    · rw [h']; simp

/-- **C52 is violated** for names with underscores, which the lexer accepts: two different names of one
module become the same C++ name. -/
theorem C52_distinct_violated :
    isLexedName "a-b".toList = true ∧ isLexedName "a_b".toList = true ∧
    santizeName "a-b".toList = santizeName "a_b".toList := by decide +kernel

/-- a name that is a keyword is renamed, and stays apart from its neighbours -/
example : santizeName "char8-t".toList = "char8_t_".toList := by decide +kernel
example : isLexedName "char8-t".toList = true := by decide +kernel

/-- **C59 (partial).** The exact set of hexadecimal strings whose C++ literal, read through
`absl::string_view(const char*)` as the generated code does, denotes the octets of the ASN.1 value: an
even number of digits, every octet between 1 and 7.  Missing: all other values
(`C59_hex_violated`, `C59_odd_violated`, `C59_bits_violated`). -/
theorem C59_hex_partial (h : List Char) (hh : ∀ c ∈ h, isHex c = true) :
    (literal (cppHex h)).map upToNul = some (hexOctets h) ↔
      h.length % 2 = 0 ∧ ∀ b ∈ hexOctets h, 1 ≤ b ∧ b ≤ 7 := cppHex_iff h hh

/-- **C59 is violated**: `'0A0B'H` becomes `"\10\11"`, octets 8 and 9 instead of 10 and 11. -/
theorem C59_hex_violated :
    hexOctets "0A0B".toList = [10, 11] ∧ cppHex "0A0B".toList = "\"\\10\\11\"".toList ∧
    literal (cppHex "0A0B".toList) = some [8, 9] := by decide +kernel

/-- **C59 is violated** for every hexadecimal string with an odd number of digits. -/
theorem C59_odd_violated (h : List Char) (hh : ∀ c ∈ h, isHex c = true) (ho : h.length % 2 = 1) :
    (literal (cppHex h)).map upToNul ≠ some (hexOctets h) := by
  intro e
  have := ((cppHex_iff h hh).mp e).1
  omega

/-- **C59 is violated** for every bit string value: the literal is always empty. -/
theorem C59_bits_violated (bits : List Char) : literal (cppBits bits) = some [] := by
  show literal ['"', '"'] = some []
  decide

example : (literal (cppHex "0107".toList)).map upToNul = some [1, 7] := by decide +kernel

/-- **C74 (partial).** A character string value keeps its characters exactly when it contains neither a
quote nor a backslash.  `s` is the text between the outer quotes, on one line.  Missing: values with
quotes or backslashes (`C74_quote_violated`, `C74_backslash_violated`). -/
theorem C74_chars_partial (s : List Char) (v : List Nat) (hv : cstring s = some v) (h0 : '\x00' ∉ s) :
    (literal (cppChars ('"' :: (s ++ ['"'])))).map upToNul = some v ↔ '"' ∉ s ∧ '\\' ∉ s :=
  cppChars_iff s v hv h0

/-- **C74 is violated**: the ASN.1 value `"a""b"`, three characters, becomes two adjacent C++ literals,
two characters. -/
theorem C74_quote_violated :
    cstring "a\"\"b".toList = some [97, 34, 98] ∧
    literal (cppChars "\"a\"\"b\"".toList) = some [97, 98] := by decide +kernel

/-- **C74 is violated**: the ASN.1 value `"C:\new"` gets a line feed. -/
theorem C74_backslash_violated :
    cstring "C:\\new".toList = some [67, 58, 92, 110, 101, 119] ∧
    literal (cppChars "\"C:\\new\"".toList) = some [67, 58, 10, 101, 119] := by decide +kernel

open FastBer.Code FastBer.Code.Spec

/-- **C60.** Text built with `CodeBlock` and `CodeScope` has balanced braces, if every line added has:
for every nesting of blocks and scopes. -/
theorem C60_balanced (cmds : List Cmd) (h : LinesOfAll Balanced cmds) :
    Balanced (execAll .empty cmds).toText := text_balanced cmds h

/-- **C60.** Each line of that text is indented by four spaces per brace open at its start (one fewer for
a line that starts by closing a brace). -/
theorem C60_indented (cmds : List Cmd) (h : LinesOfAll CleanLine cmds) :
    Indented (execAll .empty cmds).toText := by
  intro p q hp e hq hqn
  obtain ⟨d, h1, k, r, h2, _, h4, h5⟩ := (text_chunk cmds h).ind p q hp e hq hqn
  exact ⟨d, h1, k, r, h2, h4, h5⟩

/-- A function with a nested block. -/
def someCode : List Cmd :=
  [.line "struct A".toList,
   .scope true [.line "void f(B b = {})".toList, .scope false [.block [.line "g();".toList], .line []]]]

example : LinesOfAll CleanLine someCode := by
  simp only [someCode, LinesOfAll, LinesOf, and_true]
  refine ⟨⟨by decide, by decide, by decide, by unfold Balanced; decide +kernel⟩,
    ⟨by decide, by decide, by decide, by unfold Balanced; decide +kernel⟩,
    ⟨by decide, by decide, by decide, by unfold Balanced; decide +kernel⟩,
    ⟨by decide, by decide, by decide, by unfold Balanced; decide +kernel⟩⟩
example : (execAll .empty someCode).toText =
    "struct A\n{\n    void f(B b = {})\n    {\n        g();\n\n    }\n};\n".toList := by decide +kernel

end FastBer.Props
