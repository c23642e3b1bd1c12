import Verif.Model.Lexer
open FastBer Lexer
def nm (a : Action) : String := match a with
  | .skip => "skip" | .eof => "END_OF_FILE" | .sym s => s | .real => "realnumber" | .number => "number" | .negative => "negativenumber" | .cstring => "cstring"
  | .bstring => "bstring" | .hstring => "hstring" | .upper => "GENERIC_IDENTIFIER_UPPERCASE" | .lower => "GENERIC_IDENTIFIER_LOWERCASE" | .typeField => "typefieldreference" | .valueField => "valuefieldreference"
def main : IO Unit := do
  let ls ← IO.FS.lines "/tmp/lexv/in.txt"
  for l in ls do
    let b : Bytes := (l.splitOn " ").map (fun s => UInt8.ofNat s.toNat!)
    match lexOne b with
    | .ok (a, x, _) => IO.println s!"{nm a} {x.length}"
    | .ub => IO.println "ub 0"
    | .loop => IO.println "loop 0"
