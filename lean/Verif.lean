import Verif.Model.Exec
import Verif.Model.Regex
import Verif.Model.Build
import Verif.Model.Visitor
import Verif.Spec.Tree
import Verif.Tests.Conformance
import Verif.Model.Script
import Verif.Tests.Script
import Verif.Props.Frame
import Verif.Props.Depth
import Verif.Props.Cost
import Verif.Props.Debug
import Verif.Props.Wrappers
import Verif.Props.Scopes
import Verif.Props.Balance
import Verif.Props.Leaf
import Verif.Props.Sequence
import Verif.Props.Visitor
import Verif.Props.Discard
import Verif.Props.Vars
import Verif.Props.Program
import Verif.Props.Control
import Verif.Props.Proxy
import Verif.Props.Text
import Verif.Props.Accessors
import Verif.Props.Pin
import Verif.Props.Lines
import Verif.Props.Gather
import Verif.Props.Shape
import Verif.Props.Assert
import Verif.Props.Tree
import Verif.Props.Halt
import Verif.Proofs.ScriptNodes
import Verif.Props.Script
import Verif.Props.Peg
import Verif.Props.Rank
import Verif.Props.Repeat
import Verif.Proofs.Confine
import Verif.Proofs.Mild
import Verif.Proofs.Compile
import Verif.Props.Compile
import Verif.Spec.Import
import Verif.Spec.Graft
import Verif.Proofs.Transport
import Verif.Proofs.Import
import Verif.Props.Import
import Verif.Props.Reports
import Verif.Props.RegexText
import Verif.Props.DebugPrint
import Verif.Props.Memory
import Verif.Model.Edit
import Verif.Spec.Edit
import Verif.Props.Edit
import Verif.Spec.Relocate
import Verif.Proofs.Relocate
import Verif.Proofs.Reads
import Verif.Proofs.Passes
import Verif.Proofs.Rules
import Verif.Proofs.Builders
import Verif.Spec.Syntax
import Verif.Proofs.ScriptWords
import Verif.Proofs.ScriptParts
import Verif.Proofs.ScriptLeaves
import Verif.Proofs.ScriptRegex
import Verif.Proofs.ScriptDefs
import Verif.Proofs.ScriptPatterns
import Verif.Proofs.ScriptImports
import Verif.Proofs.ScriptStatements
import Verif.Proofs.ScriptText
import Verif.Props.Relocate
import Verif.Proofs.Unique
import Verif.Proofs.Complete
import Verif.Proofs.CompileDepth
import Verif.Spec.Meaning
import Verif.Props.Syntax
import Verif.Spec.Interp
import Verif.Spec.Execute
import Verif.Proofs.Interp
import Verif.Proofs.InterpSim
import Verif.Proofs.InterpNames
import Verif.Proofs.InterpRun
import Verif.Proofs.InterpExec
import Verif.Proofs.InterpLike
import Verif.Proofs.InterpTable
import Verif.Proofs.InterpScript
import Verif.Proofs.InterpFixed
import Verif.Proofs.InterpSane
import Verif.Props.Interp
import Verif.Props.InterpExample
import Verif.Spec.Levels
import Verif.Proofs.InterpRank
import Verif.Proofs.ScriptRank
import Verif.Proofs.FixedRank
import Verif.Props.Levels
import Verif.Spec.Kin
import Verif.Proofs.Kin
import Verif.Proofs.Shown
import Verif.Model.Print
import Verif.Spec.Print
import Verif.Props.Print
import Verif.Proofs.TotalText
import Verif.Proofs.TotalTop
import Verif.Spec.Total
import Verif.Proofs.TotalParse
import Verif.Proofs.Calm
import Verif.Proofs.CalmHooks
import Verif.Props.Total
import Verif.Spec.Lax
import Verif.Proofs.Lax
import Verif.Proofs.LaxLeaves
import Verif.Proofs.LaxRegex
import Verif.Proofs.LaxAttrs
import Verif.Proofs.LaxDefs
import Verif.Proofs.LaxImports
import Verif.Proofs.LaxStatements
import Verif.Proofs.LaxHeader
import Verif.Proofs.LaxText
import Verif.Proofs.LaxTop
import Verif.Props.Lax
import Verif.Spec.Render
import Verif.Proofs.Render
import Verif.Proofs.Canonical
import Verif.Props.Render
import Verif.Props.Borrow
import Verif.Props.BorrowVisit
import Verif.Props.BorrowBuild
import Verif.Props.BorrowCallback
import Verif.Spec.Elsewhere
import Verif.Proofs.Elsewhere
import Verif.Proofs.ElsewhereBuild
import Verif.Props.Elsewhere
import Verif.Model.Log
import Verif.Spec.Log
import Verif.Proofs.Log
import Verif.Props.Log
import Verif.Spec.Endless
import Verif.Proofs.Endless
import Verif.Proofs.EndlessScript
import Verif.Props.Endless
import Verif.Spec.Linked
import Verif.Proofs.Linked
import Verif.Props.Linked
import Verif.Props.LinkedExample
import Verif.Spec.EndlessLinked
import Verif.Proofs.EndlessLinked
import Verif.Props.EndlessLinked
import Verif.Model.MatcherPrint
import Verif.Spec.Acyclic
import Verif.Proofs.Layers
import Verif.Proofs.LayersCompile
import Verif.Props.Acyclic
import Verif.Spec.Work
import Verif.Props.Work
import Verif.Spec.Toil
import Verif.Spec.Thrift
import Verif.Proofs.Toil
import Verif.Props.Toil
import Verif.Proofs.ToilImports
import Verif.Props.ToilImports
import Verif.Spec.Atlas
import Verif.Proofs.Atlas
import Verif.Props.Atlas
import Verif.Spec.Sound
import Verif.Proofs.Sound
import Verif.Props.Sound
import Verif.Spec.Doomed
import Verif.Proofs.Doomed
import Verif.Props.Doomed
