import Verif.ExceptLemmas
import Verif.Bson
import Verif.BsonLemmas
import Verif.Opcode
import Verif.Value
import Verif.FloatModel
import Verif.Builtins
import Verif.Vm
import Verif.Loader
import Verif.VmLemmas
import Verif.VmState
import Verif.VmFrames
import Verif.VmContained
import Verif.VmCalls
import Verif.Lexer
import Verif.LexLemmas
import Verif.PyModel
import Verif.Syntax
import Verif.Parser
import Verif.ParserLemmas
import Verif.ParserTotal
import Verif.Types
import Verif.Annot
import Verif.Codegen
import Verif.Compile
import Verif.CodegenLemmas
import Verif.Source
import Verif.SourceWf
import Verif.GenFrame
import Verif.GenFits
import Verif.GenTame
import Verif.SourceProg
import Verif.SourceMono
import Verif.SourceFuel
import Verif.SourceKeeps
import Verif.LinkGen
import Verif.Exec
import Verif.ExecIns
import Verif.ExecOps
import Verif.ExecGen
import Verif.SimExpr
import Verif.SimCall
import Verif.SimStmt
import Verif.Sim
import Verif.LinkModule
import Verif.LinkImage
import Verif.LinkProg
import Verif.LinkRun
import Verif.Iguala
import Verif.IgualaSpec
import Verif.IgualaFrame
import Verif.IgualaFail
import Verif.IgualaGroups
import Verif.IgualaLits
import Verif.IgualaTame
import Verif.IgualaVars
import Verif.IgualaTop
import Verif.IgualaUnion
import Verif.IgualaMain
import Verif.IgualaTarget
import Verif.IgualaMissing
import Verif.Transform
import Verif.Returns
import Verif.Scope
import Verif.ScopeSpec
import Verif.ScopeMain
import Verif.Imports
import Verif.ImportsSpec
import Verif.ImportsLemmas
import Verif.ImportsOrder
import Verif.ScopeOut
import Verif.GenDense
import Verif.SrcMap
import Verif.GenLines
import Verif.Props.Image
import Verif.Props.Instructions
import Verif.Props.Arith
import Verif.Props.Stack
import Verif.Props.Heap
import Verif.Props.Texts
import Verif.Props.Written
import Verif.Props.Builds
import Verif.Props.Declared
import Verif.Check
import Verif.Analyzer
import Verif.Elaborate
import Verif.Conform
import Verif.Props.Io
import Verif.Props.Lexing
import Verif.Props.Parsing
import Verif.Props.Precedence
import Verif.Props.Codegen
import Verif.Props.Typing
import Verif.Props.Loops
import Verif.Props.Correctness
import Verif.Props.Limits
import Verif.Props.FormatStrings
import Verif.Props.Matching
import Verif.Props.Returns
import Verif.Props.Choice
import Verif.Props.Names
import Verif.Props.Slots
import Verif.Props.Imports
import Verif.Props.ErrorLines
import Verif.Props.Pipeline
import Verif.Props.Lines
import Verif.Audit
import Verif.Typed
import Verif.TypedSound
import Verif.TypedProg
import Verif.Frag
import Verif.FragState
import Verif.FragE
import Verif.FragExpr
import Verif.FragStep
import Verif.FragS
import Verif.FragTop
import Verif.FragProg
import Verif.FragOk
import Verif.FragNest
import Verif.Library
import Verif.Props.Soundness
import Verif.Props.Accepted
import Verif.FragSafe
import Verif.FragCalm
import Verif.FragCalmTop
import Verif.Props.Calm
import Verif.Props.Whole
import Verif.Grammar
import Verif.Props.Grammar
import Verif.GenCalm
import Verif.FragGen
import Verif.Props.Compiles
import Verif.LineTrees
import Verif.ParseLines
import Verif.CheckLines
import Verif.ErrorFiles
import Verif.Props.CheckLines
import Verif.CheckContext
import Verif.PlaceSpec
import Verif.Placed
import Verif.PlacedTree
import Verif.ScopeTree
import Verif.Props.Scoping
import Verif.Props.Placement
