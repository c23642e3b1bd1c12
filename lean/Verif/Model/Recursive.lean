import Verif.Model.Api
/-!
# Recursive types

`Ty` (Model/Schema) is a finite tree.  A schema with circular references gives C++ types whose functions call each other
recursively; the compiler breaks the cycle of the *declarations* by dynamic storage (ReorderAssignments.cpp:158-215, 245-256,
285-296: `DynamicOptional`, `DynamicVariant`, `std::vector`), the functions are the same as for other types.

`RTy` is `Ty` with references to named types.  A recursive C++ function is modelled in the usual way by its finite approximations:
`REnv.program k n` is the code of type number `n` when calls through references nest at most `k` deep; a call that would nest deeper
gives `loop`.  A call that returns does so for every large enough `k`.  Reference number `n` stands for a named type with one
instantiation of its identifier parameter (`self [1] SelfReference` and `SelfReference` have different numbers).

The depth of the call stack is not limited and allocation never fails.
-/
namespace FastBer

mutual
/-- Syntax of generated C++ types, with references.  (what TypeAsString.cpp and GenerateChoice.cpp write, as `Ty` in Model/Schema) -/
inductive RTy (ι : Type) where
  | leaf (k : Leaf) (id : Ident)
  | seqOf (id : Ident) (t : RTy ι)
  | seq (id : Ident) (fs : RFields ι)
  | set (id : Ident) (ext : Bool) (fs : RFields ι)
  | choice (id : ChoiceIdent) (as : RAlts ι)
  | ref (n : ι)
/-- Components of a SEQUENCE/SET.  (what TypeAsString.cpp and GenerateChoice.cpp write, as `Ty` in Model/Schema) -/
inductive RFields (ι : Type) where
  | nil
  | cons (kind : Kind) (labels : List Id) (t : RTy ι) (rest : RFields ι)
/-- Alternatives of a CHOICE.  (what TypeAsString.cpp and GenerateChoice.cpp write, as `Ty` in Model/Schema) -/
inductive RAlts (ι : Type) where
  | nil
  | cons (labels : List Id) (t : RTy ι) (rest : RAlts ι)
end

variable {ι : Type}

mutual
/-- The code generated for a type, given the code of the named types; see `Ty.codec`.  (EncodeDecode.cpp:27-520) -/
def RTy.codec (γ : ι → Codec) : RTy ι → Codec
  | .leaf k id => k.codec id
  | .seqOf id t => seqOfCodec id (t.codec γ)
  | .seq id fs => seqCodec id (fs.fields γ)
  | .set id ext fs => setCodec id ext (fs.fields γ)
  | .choice id as => choiceCodec id (as.alts γ)
  | .ref n => γ n
/-- The components of a struct with their code (EncodeDecode.cpp:27-84, 182-425). -/
def RFields.fields (γ : ι → Codec) : RFields ι → List Field
  | .nil => []
  | .cons kind labels t rest => ⟨kind, labels, t.codec γ⟩ :: rest.fields γ
/-- The alternatives of a CHOICE with their code (EncodeDecode.cpp:86-180, 427-520). -/
def RAlts.alts (γ : ι → Codec) : RAlts ι → List Alt
  | .nil => []
  | .cons labels t rest => ⟨labels, t.codec γ⟩ :: rest.alts γ
end

/-- The identifiers of a type as its declaration states them (`Identifier<T>`, Identifier.hpp:40, 55; Choice.hpp:21-32). -/
def RTy.ids : RTy ι → List Id
  | .leaf _ id => [id.outer]
  | .seqOf id _ => [id.outer]
  | .seq id _ => [id.outer]
  | .set id _ _ => [id.outer]
  | .choice (.tagged id) _ => [id.outer]
  | .choice (.untagged ids) _ => ids
  | .ref _ => []

/-- The named types.  (the structs of a generated header, CompilerMain.cpp:183-205) -/
abbrev REnv (ι : Type) := ι → RTy ι

/-- Code that makes no call; its identifiers are known to the C++ compiler.  (Not code: semantics of recursive calls among the functions EncodeDecode.cpp:27-520 writes.) -/
def stuck (ids : List Id) : Codec where
  ids := ids
  init := .loop
  size := fun _ => 0
  encode := fun _ _ => .loop
  decode := fun _ _ => .loop
  eq := fun _ _ => .loop

/-- The code of the named types when calls nest at most `k` deep, `base` being called beyond.  (Not code: semantics of recursive calls among the functions EncodeDecode.cpp:27-520 writes.) -/
def REnv.approx (E : REnv ι) (base : ι → Codec) : Nat → ι → Codec
  | 0 => base
  | k + 1 => fun n => (E n).codec (E.approx base k)

/-- The generated program, with calls nested at most `k` deep.  (Not code: semantics of recursive calls among the functions EncodeDecode.cpp:27-520 writes.) -/
def REnv.program (E : REnv ι) (k : Nat) (n : ι) : Codec := E.approx (fun m => stuck (E m).ids) k n

/-- `T()`.  (constructors as written by TypeAsString.cpp:21-109, GenerateChoice.cpp:8-164) -/
def REnv.new (E : REnv ι) (n : ι) (k : Nat) : Exec Obj := (E.program k n).init

/-- `encoded_length(object)` (util/EncodeHelpers.hpp:85-89). -/
def REnv.encodedLength (E : REnv ι) (n : ι) (o : Obj) (k : Nat) : Nat := (E.program k n).size o

/-- `encode(span, object)` (util/EncodeHelpers.hpp:91-95). -/
def REnv.encode (E : REnv ι) (n : ι) (o : Obj) (buf : Bytes) (k : Nat) : Exec (EncodeResult × Bytes) := (E.program k n).encode o buf

/-- `decode(span, object)` (util/DecodeHelpers.hpp:15-19). -/
def REnv.decode (E : REnv ι) (n : ι) (o : Obj) (input : Bytes) (k : Nat) : Exec (Bool × Obj) := do
  let v ← BerView.parse input
  (E.program k n).decode o v

/-- `lhs == rhs`.  (GenerateHelpers.cpp:37-96) -/
def REnv.equal (E : REnv ι) (n : ι) (a b : Obj) (k : Nat) : Exec Bool := (E.program k n).eq a b

/-- The call returns `a`.  (Not code: semantics of recursive calls among the functions EncodeDecode.cpp:27-520 writes.) -/
def Returns {α : Type} (f : Nat → α) (a : α) : Prop := ∃ K, ∀ k, K ≤ k → f k = a

end FastBer
