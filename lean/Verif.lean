import Verif.Base
import Verif.Model.View
import Verif.Proofs.Header
import Verif.Proofs.View
import Verif.Proofs.Wrap
import Verif.Proofs.Reader
import Verif.Proofs.Integer
import Verif.Proofs.Decode
import Verif.Proofs.Small
import Verif.Proofs.Container
import Verif.Proofs.Oid
import Verif.Props.Header
import Verif.Props.View
import Verif.Props.Prims
import Verif.Props.Strings
import Verif.Props.Oid
import Verif.Proofs.SchemaSafeSet
import Verif.Proofs.SchemaEq
import Verif.Proofs.SchemaInj
import Verif.Model.Api
import Verif.Proofs.SchemaApi
import Verif.Props.Schema
import Verif.Props.Reach
import Verif.Props.Real
import Verif.Props.Time
import Verif.Props.Variant
import Verif.Props.Members
import Verif.Props.Modules
import Verif.Props.Names
import Verif.Props.Resolve
import Verif.Props.Tags
import Verif.Props.Depend
import Verif.Props.Params
import Verif.Props.ComponentsOf
import Verif.Props.Split
import Verif.Props.Emit
import Verif.Props.Pipeline
import Verif.Props.EndToEnd
import Verif.Props.ObjectClass
import Verif.Props.Compile
import Verif.Props.RealEq
import Verif.Props.Packet
import Verif.Props.LibChoice
import Verif.Props.RealDecimal
import Verif.Props.Lexer
import Verif.Props.Viewer
import Verif.Props.Recursive
import Verif.Props.Parser
import Verif.Props.ParserExamples
import Verif.Props.EndToEndText
import Verif.Props.Enum
import Verif.Props.Constants
import Verif.Props.Accepts
import Verif.Props.AcceptsText
import Verif.Props.Templates
import Verif.Props.RecursiveEmit
import Verif.Props.RecursiveSource
import Verif.Props.CircularText
import Verif.Props.Show
import Verif.Props.Evolve
import Verif.Props.EvolveText
import Verif.Props.CompileRecursive
import Verif.Props.AcceptsRecursive
import Verif.Props.Sample
import Verif.Props.CircularFile
import Verif.Props.TagsFile
import Verif.Props.SetFile
import Verif.Props.ChoiceFile
import Verif.Props.PrefixedFile
