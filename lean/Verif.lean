import Verif.Model.Str
import Verif.Model.Regex
import Verif.Model.Value
import Verif.Model.Node
import Verif.Model.Traverse
import Verif.Model.Utils
import Verif.Model.Reader
import Verif.Model.Parser
import Verif.Examples.ToyYaml
import Verif.Props.Paths
import Verif.Props.Lookup
import Verif.Props.Utils
import Verif.Props.SelectorEval
import Verif.Props.Variables
import Verif.Props.PatchCalls
import Verif.Props.PatchEdit
import Verif.Props.PatchFrame
import Verif.Props.PatchMove
import Verif.Props.History
import Verif.Props.SelectorTable
import Verif.Props.SelectorEdit
import Verif.Props.Queries
import Verif.Props.Deps
import Verif.Props.DepsEdit
import Verif.Props.Cbc
import Verif.Props.Sort
import Verif.Props.Graph
import Verif.Props.Fetch
import Verif.Props.Bump
import Verif.Props.BumpFields
import Verif.Props.BumpOrder
import Verif.Props.References
import Verif.Props.Commands
import Verif.Props.Bulk
import Verif.Props.RoundTrip
import Verif.Props.Jinja
import Verif.Props.Comments
import Verif.Props.PatchValue
import Verif.Props.Open
import Verif.Props.Spdx
import Verif.Props.Scanner
import Verif.Props.CiLog
import Verif.Props.Convert
import Verif.Props.ConvSection
import Verif.Props.ConvPackage
import Verif.Props.PyVersion
import Verif.Props.ConvJinja
import Verif.Props.ConvSelectors
import Verif.Props.ConvEnd
import Verif.Props.ConvWhole
import Verif.Spec.PreProcess
import Verif.Lemmas.RegexPick
import Verif.Lemmas.PreProcess
import Verif.Lemmas.PreProcessEnv
import Verif.Props.PreProcess
import Verif.Props.DepPaths
import Verif.Model.Object
import Verif.Spec.Object
import Verif.Lemmas.Object
import Verif.Props.Object
import Verif.Model.GraphShell
import Verif.Props.GraphShell
import Verif.Model.ConvertMain
import Verif.Props.ConvertMain
import Verif.Props.Names
import Verif.Spec.ConvFrame
import Verif.Lemmas.ConvFrame
import Verif.Props.ConvFrame
import Verif.Model.RandomSelect
import Verif.Props.RandomSelect
import Verif.Spec.DocEdit
import Verif.Spec.DocComment
import Verif.Spec.DocDeps
import Verif.Spec.FileDeps
import Verif.Spec.FileValue
import Verif.Lemmas.ShowsRender
import Verif.Lemmas.DocEdit
import Verif.Lemmas.DocItem
import Verif.Lemmas.DocComment
import Verif.Lemmas.DocDeps
import Verif.Lemmas.SameAnswers
import Verif.Lemmas.DocValue
import Verif.Props.DocEdit
import Verif.Props.DocLines
import Verif.Props.DocComment
import Verif.Props.DocDeps
import Verif.Props.FileDeps
import Verif.Props.FileValue
import Verif.Spec.BumpFile
import Verif.Spec.BumpNew
import Verif.Lemmas.BumpFile
import Verif.Props.BumpFile
import Verif.Spec.Session
import Verif.Lemmas.CleanEdit
import Verif.Props.PlainValue
import Verif.Props.Session
import Verif.Props.FileSession
import Verif.Spec.Layout
import Verif.Lemmas.LayoutLine
import Verif.Lemmas.LayoutParse
import Verif.Lemmas.LayoutVars
import Verif.Props.Layout
import Verif.Props.LayoutBump
import Verif.Props.BumpNew
import Verif.Spec.FileComments
import Verif.Lemmas.FileComments
import Verif.Lemmas.FileNotes
import Verif.Props.FileComments
import Verif.Spec.FileValues
import Verif.Props.FileValues
import Verif.Spec.FileRefs
import Verif.Props.FileRefs
import Verif.Props.ConvLayout
import Verif.Spec.GraphFiles
import Verif.Props.GraphFiles
import Verif.Spec.BumpArchive
import Verif.Props.BumpArchive
import Verif.Spec.TemplateLine
import Verif.Props.TemplateLine
import Verif.Props.TemplateSection
import Verif.Props.BumpSource
import Verif.Spec.Literal
import Verif.Props.Literal
import Verif.Props.Shapes
import Verif.Props.JinjaSums
import Verif.Spec.SectionLines
import Verif.Props.SectionLines
import Verif.Props.FreeSession
import Verif.Lemmas.Marker
import Verif.Props.Expressions
import Verif.Props.Reading
import Verif.Props.ConvOddities
import Verif.Model.Debug
import Verif.Props.Debug
import Verif.Props.PatchFile
import Verif.Props.GraphDir
import Verif.Props.Transfer
import Verif.Spec.Undo
import Verif.Props.Undo
import Verif.Spec.Commute
import Verif.Lemmas.Local
import Verif.Props.Commute
import Verif.Spec.Repeat
import Verif.Props.Repeat
import Verif.Spec.Covered
import Verif.Props.Covered
import Verif.Spec.Interrupt
import Verif.Props.Interrupt
import Verif.Spec.BumpRuns
import Verif.Props.BumpRuns
import Verif.Props.BumpRunsNew
import Verif.Spec.PatchPieces
import Verif.Props.PatchPieces
import Verif.Spec.CommandRuns
import Verif.Props.CommandRuns
import Verif.Props.DryRun
import Verif.Props.ConvertTwice
