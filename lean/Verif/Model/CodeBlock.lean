import Verif.Base
/-!
# Building C++ text: `CodeBlock`, `CodeScope`

Models `src/compiler/include/fast_ber/compiler/CppGeneration.hpp:23-81` and
`src/compiler/CppGeneration.cpp:77-108`.
-/
namespace FastBer.Code

mutual
/-- `CodeBlock`: `m_indentation` and `m_content` (CppGeneration.hpp:23-38). -/
inductive CodeBlock where
  | mk (indentation : Nat) (content : List Content)
/-- `CodeBlockContents` (CppGeneration.hpp:40-44). -/
inductive Content where
  | line (indentation : Nat) (text : List Char)
  | block (indentation : Nat) (b : CodeBlock)
end

namespace CodeBlock

/-- `indentation()` (CppGeneration.hpp:26-27). -/
def indentation : CodeBlock → Nat | mk i _ => i
/-- `m_content` (CppGeneration.hpp:37). -/
def content : CodeBlock → List Content | mk _ c => c

/-- `CodeBlock()`.  (CppGeneration.hpp:23-38) -/
def empty : CodeBlock := mk 0 []

/-- `add_line` (CppGeneration.hpp:46-49) -/
def addLine (b : CodeBlock) (l : List Char) : CodeBlock :=
  mk b.indentation (b.content ++ [.line b.indentation l])

/-- `add_block` (CppGeneration.hpp:50-53) -/
def addBlock (b : CodeBlock) (x : CodeBlock) : CodeBlock :=
  mk b.indentation (b.content ++ [.block b.indentation x])

/-- `CodeScope::CodeScope` (CppGeneration.hpp:58-62) -/
def openScope (b : CodeBlock) : CodeBlock :=
  let b := b.addLine ['{']
  mk (b.indentation + 1) b.content

/-- `CodeScope::~CodeScope` of an active scope (CppGeneration.hpp:68-75).  `m_indentation` is a `size_t`;
it cannot be 0 here because the constructor raised it. -/
def closeScope (semicolon : Bool) (b : CodeBlock) : CodeBlock :=
  let b := mk (b.indentation - 1) b.content
  b.addLine (if semicolon then ['}', ';'] else ['}'])

mutual
/-- `CodeBlock::stream` (CppGeneration.cpp:77-101): the characters written. -/
def stream (depth : Nat) : CodeBlock → List Char
  | mk _ c => streamContents depth c
/-- The loop of `CodeBlock::stream` (CppGeneration.cpp:79-100). -/
def streamContents (depth : Nat) : List Content → List Char
  | [] => []
  | c :: cs => streamContent depth c ++ streamContents depth cs
/-- Its body: a block is streamed with the indentation added, a line with four blanks per level unless it is empty (CppGeneration.cpp:81-99). -/
def streamContent (depth : Nat) : Content → List Char
  | .line i l => (if l.isEmpty then [] else List.replicate ((depth + i) * 4) ' ' ++ l) ++ ['\n']
  | .block i b => stream (depth + i) b
end

/-- `CodeBlock::to_string` (CppGeneration.cpp:103-108) -/
def toText (b : CodeBlock) : List Char := stream 0 b

end CodeBlock

/-- How the generator uses the two classes: a sequence of `add_line`, `add_block` of a block built the
same way, and `CodeScope` objects, which C++ scoping makes properly nested (no use moves a `CodeScope`). -/
inductive Cmd where
  | line (text : List Char)
  | block (body : List Cmd)
  | scope (semicolon : Bool) (body : List Cmd)

mutual
/-- Every line passed to `add_line` satisfies `P`. -/
def LinesOf (P : List Char → Prop) : Cmd → Prop
  | .line l => P l
  | .block body => LinesOfAll P body
  | .scope _ body => LinesOfAll P body
/-- The same for commands in order.  Not code: how the generator uses the class. -/
def LinesOfAll (P : List Char → Prop) : List Cmd → Prop
  | [] => True
  | c :: cs => LinesOf P c ∧ LinesOfAll P cs
end

mutual
/-- Execute one command on a block.  (what the functions of src/compiler/*.cpp do with `CodeBlock`, CppGeneration.hpp:23-80) -/
def exec (b : CodeBlock) : Cmd → CodeBlock
  | .line l => b.addLine l
  | .block body => b.addBlock (execAll .empty body)
  | .scope semi body => (execAll b.openScope body).closeScope semi
/-- Execute commands in order.  (what the functions of src/compiler/*.cpp do with `CodeBlock`, CppGeneration.hpp:23-80) -/
def execAll (b : CodeBlock) : List Cmd → CodeBlock
  | [] => b
  | c :: cs => execAll (exec b c) cs
end

end FastBer.Code
