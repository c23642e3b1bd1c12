import Verif.Model.CompileText
import Verif.Model.Forward
/-!
# The compiler, with forward declarations in its output

As Model/Pipeline and Model/CompileText, for schemas with circular references: what a C++ compiler makes of the output when the forward declarations are read first (Model/Forward).
-/
namespace FastBer.Ast.Fwd
open FastBer Ast

/-- The compiler, from the parsed modules to what a C++ compiler makes of its output (CompilerMain.cpp:264-283). -/
def compile (lib : Lib) (fuel : Nat) (tree : Tree) : Res Env := do
  let tree ← frontEnd fuel tree
  generate lib fuel tree

/-- `main` from the files to what a C++ compiler makes of its output (CompilerMain.cpp:209-283).  A file that does not parse, like an
exception, ends the compiler with a message. -/
def compileFiles (stod : Bytes → UInt64) (lib : Lib) (fuel : Nat) (files : List Bytes) : Res Env :=
  match Parser.parseFiles stod files ⟨[], 0⟩ with
  | .ok (some st) => compile lib fuel ⟨st.modules⟩
  | .ok none => .throw .other
  | .ub => .ub
  | .loop => .loop

end FastBer.Ast.Fwd
