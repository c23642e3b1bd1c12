import Verif.Model.ParserTables
import Verif.Model.ParserActions
/-!
# The parser

Models `asn1_parser::parse` as bison writes it (`src/compiler/autogen_copy/asn_compiler.hpp:7516-9700`), the lexer that feeds it
(Model/Lexer) and the loop over the files in `src/compiler_main/CompilerMain.cpp:217-239`.

The parser calls the lexer when it needs the next token; here the file is lexed first.  No action looks at the lexer's state, so this
matters only for files whose syntax error comes before a number that is too large or an unterminated string.
-/
namespace FastBer.Parser
open FastBer Ast Lexer

/-- `std::string` of the characters of a literal.  (the actions of asn_compiler.yacc:340-1815 have such literals) -/
def text (s : Bytes) : Name := String.ofList (chars s)

/-- The number of a token: `type_get()` of what `yylex` returns (asn_compiler.yacc:1819-1974, `yytname_` for the numbers).  2 is
bison's `$undefined`; `yylex` never returns it. -/
def terminal : Tok → Nat
  | .sym s => (symNumbers.lookup s).getD 2
  | .number _ => 4
  | .negative _ => 5
  | .real _ => 6
  | .bstring _ => 7
  | .hstring _ => 9
  | .cstring _ => 11
  | .typeField _ => 24
  | .valueField _ => 25
  | .upper _ => 149
  | .lower _ => 150

/-- The value of a token (asn_compiler.yacc:1933-1945). -/
def tokenValue : Tok → Val
  | .sym _ => .none
  | .number n => .int n
  | .negative n => .int n
  | .real s => .real s
  | .bstring s => .str (text s)
  | .hstring s => .str (text s)
  | .cstring s => .str (text s)
  | .typeField n => .str (String.ofList n)
  | .valueField n => .str (String.ofList n)
  | .upper n => .str (String.ofList n)
  | .lower n => .str (String.ofList n)

/-- `yy_lr_goto_state_` (asn_compiler.hpp:7516-7524). -/
def gotoState (state sym : Nat) : Nat :=
  let r := entry yypgoto (sym - yyntokens) + state
  if 0 ≤ r ∧ r ≤ yylast ∧ entry yycheck r.toNat = state then (entry yytable r.toNat).toNat
  else entryNat yydefgoto (sym - yyntokens)

/-- What to do next.  (`asn1_parser::parse`, autogen_copy/asn_compiler.hpp:7545-9700) -/
inductive Do where
  | shift (state : Nat)
  | reduce (rule : Nat)
  | error
  deriving DecidableEq, Repr

/-- `yydefault` (asn_compiler.hpp:7651-7655). -/
def defaultDo (state : Nat) : Do :=
  let n := entryNat yydefact state
  if n = 0 then .error else .reduce n

/-- `yybackup` (asn_compiler.hpp:7595-7643); `t` is the number of the next token, which is not read if the state does not need it. -/
def nextDo (state t : Nat) : Do :=
  let n := entry yypact state
  if n = yypactNinf then defaultDo state
  else
    let n := n + t
    if n < 0 ∨ yylast < n ∨ entry yycheck n.toNat ≠ t then defaultDo state
    else
      let n := entry yytable n.toNat
      if n ≤ 0 then if n = yytableNinf then .error else .reduce (-n).toNat
      else .shift n.toNat

/-- The parser: the stack (`yystack_`, its top first), the tokens not yet shifted, and what the actions changed.  (`asn1_parser::parse`, autogen_copy/asn_compiler.hpp:7545-9700) -/
structure Config where
  stack : List (Nat × Val)
  input : List Tok
  st : St

/-- The token ahead; behind the last one, `yylex` returns END_OF_FILE, 0.  (asn_compiler.hpp:7600-7615) -/
def ahead (input : List Tok) : Nat :=
  match input with
  | [] => 0
  | t :: _ => terminal t

/-- What a step of the loop gives: it goes on, `yyacceptlab` or `yyerrlab` (autogen_copy/asn_compiler.hpp:7582-7660, 9652-9745). -/
inductive Next where
  | cont (c : Config)
  | accept (st : St)
  | reject
  /-- the stack has too few entries -/
  | ub

/-- `yyreduce` (asn_compiler.hpp:7661-9647). -/
def reduce (stod : Bytes → UInt64) (c : Config) (r : Nat) : Next :=
  let len := entryNat yyr2 r
  match c.stack.drop len with
  | [] => .ub
  | (s, v) :: rest =>
    let res := action stod r ((c.stack.take len).reverse.map (·.2)) c.st
    .cont ⟨(gotoState s (entryNat yyr1 r), res.1) :: (s, v) :: rest, c.input, res.2⟩

/-- Shifting a token (asn_compiler.hpp:7640-7646). -/
def shift (c : Config) (s : Nat) : Config :=
  match c.input with
  | [] => ⟨(s, .none) :: c.stack, [], c.st⟩
  | t :: input => ⟨(s, tokenValue t) :: c.stack, input, c.st⟩

/-- `yynewstate` (asn_compiler.hpp:7582-7590) and what it leads to.  There are no rules with `error`, so `yyerrlab` and `yyerrlab1`
pop the whole stack and `parse` returns 1. -/
def step (stod : Bytes → UInt64) (c : Config) : Next :=
  match c.stack with
  | [] => .ub
  | (s, _) :: _ =>
    if s = yyfinal then .accept c.st
    else
      match nextDo s (ahead c.input) with
      | .shift s' => .cont (shift c s')
      | .reduce r => reduce stod c r
      | .error => .reject

/-- `parse` for at most `fuel` steps.  (`asn1_parser::parse`, autogen_copy/asn_compiler.hpp:7545-9700) -/
def run (stod : Bytes → UInt64) : Nat → Config → Exec (Option St)
  | 0, _ => .loop
  | fuel + 1, c =>
    match step stod c with
    | .cont c => run stod fuel c
    | .accept st => .ok (some st)
    | .reject => .ok none
    | .ub => .ub

/-- The parser starts with state 0 on its stack (asn_compiler.hpp:7576-7577). -/
def start (ts : List Tok) (st : St) : Config := ⟨[(0, .none)], ts, st⟩

/-- Steps that always suffice (`C93_steps`): bison's loop has no bound.  (`asn1_parser::parse`, autogen_copy/asn_compiler.hpp:7545-9700) -/
def enough (ts : List Tok) : Nat := 100 * (ts.length + 2)

/-- `parser.parse()`: the modules read so far and those of the file, or none after a syntax error.  (CompilerMain.cpp:229-239 calls it) -/
def parse (stod : Bytes → UInt64) (ts : List Tok) (st : St) : Exec (Option St) := run stod (enough ts) (start ts st)

/-- One file (CompilerMain.cpp:219-238). -/
def parseFile (stod : Bytes → UInt64) (file : Bytes) (st : St) : Exec (Option St) := do
  match ← lex file with
  | none => .ok none
  | some ts => parse stod ts st

/-- All files: `context.asn1_tree` is kept from file to file (CompilerMain.cpp:216-239). -/
def parseFiles (stod : Bytes → UInt64) : List Bytes → St → Exec (Option St)
  | [], st => .ok (some st)
  | f :: fs, st => do
    match ← parseFile stod f st with
    | none => .ok none
    | some st => parseFiles stod fs st

end FastBer.Parser
