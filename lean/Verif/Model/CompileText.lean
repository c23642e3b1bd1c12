import Verif.Model.Parser
import Verif.Model.Pipeline
/-!
# The compiler, from the text of the modules

Models `src/compiler_main/CompilerMain.cpp:209-283`.
-/
namespace FastBer.Parser
open FastBer Ast

/-- `main` from the files to what a C++ compiler makes of its output (CompilerMain.cpp:209-283).  A file that does not parse, like an
exception, ends the compiler with a message. -/
def compileFiles (stod : Bytes → UInt64) (lib : Lib) (fuel : Nat) (files : List Bytes) : Res Env :=
  match parseFiles stod files ⟨[], 0⟩ with
  | .ok (some st) => compile lib fuel ⟨st.modules⟩
  | .ok none => .throw .other
  | .ub => .ub
  | .loop => .loop

end FastBer.Parser
