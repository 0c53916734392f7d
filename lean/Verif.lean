import Verif.Model.Cli
import Verif.Model.DataPack
import Verif.Model.Ddl
import Verif.Model.DiffLists
import Verif.Model.Dot
import Verif.Model.Effect
import Verif.Model.Err
import Verif.Model.Escape
import Verif.Model.Fetch
import Verif.Model.Filters
import Verif.Model.Future
import Verif.Model.Gen.Check
import Verif.Model.Gen.Column
import Verif.Model.Gen.ForeignKey
import Verif.Model.Gen.Framework
import Verif.Model.Gen.Index
import Verif.Model.Gen.Policy
import Verif.Model.Gen.Routine
import Verif.Model.Gen.Schema
import Verif.Model.Gen.Sequence
import Verif.Model.Gen.Simple
import Verif.Model.Gen.Table
import Verif.Model.Gen.View
import Verif.Model.Generate
import Verif.Model.GoMap
import Verif.Model.GoSet
import Verif.Model.GoSort
import Verif.Model.Graph
import Verif.Model.Identifier
import Verif.Model.Json
import Verif.Model.Normalize
import Verif.Model.Output
import Verif.Model.Plan
import Verif.Model.Process
import Verif.Model.RandomId
import Verif.Model.Schema
import Verif.Model.SchemaFiles
import Verif.Model.SqlGraph
import Verif.Model.Statement
import Verif.Model.TempDb
import Verif.Model.Text
import Verif.Samples.Basic
import Verif.Spec.Acyclic
import Verif.Spec.Attach
import Verif.Spec.Check
import Verif.Spec.Column
import Verif.Spec.ColumnOrder
import Verif.Spec.ColumnQuiet
import Verif.Spec.Columns
import Verif.Spec.Data
import Verif.Spec.Database
import Verif.Spec.Detect
import Verif.Spec.Diff
import Verif.Spec.Digraph
import Verif.Spec.Dot
import Verif.Spec.Enum
import Verif.Spec.Expr
import Verif.Spec.Files
import Verif.Spec.Filter
import Verif.Spec.FilterPlan
import Verif.Spec.FkRebuild
import Verif.Spec.ForeignKey
import Verif.Spec.Forest
import Verif.Spec.FunctionUse
import Verif.Spec.GeneratedColumn
import Verif.Spec.Hazards
import Verif.Spec.Index
import Verif.Spec.IndexColumns
import Verif.Spec.IndexLink
import Verif.Spec.IndexRebuild
import Verif.Spec.IndexTree
import Verif.Spec.Json
import Verif.Spec.Kind
import Verif.Spec.Lexer
import Verif.Spec.Namespace
import Verif.Spec.Order
import Verif.Spec.Ordering
import Verif.Spec.OuterTouched
import Verif.Spec.PartCheck
import Verif.Spec.PartColumns
import Verif.Spec.PieceQuiet
import Verif.Spec.Plannable
import Verif.Spec.Policy
import Verif.Spec.PolicyColumn
import Verif.Spec.PolicyTouched
import Verif.Spec.Privilege
import Verif.Spec.Replica
import Verif.Spec.Routine
import Verif.Spec.Run
import Verif.Spec.Schema
import Verif.Spec.Script
import Verif.Spec.Sequence
import Verif.Spec.Stall
import Verif.Spec.TableQuiet
import Verif.Spec.TableSwitch
import Verif.Spec.TableTouched
import Verif.Spec.TableUse
import Verif.Spec.Touched
import Verif.Spec.Trace
import Verif.Spec.Trigger
import Verif.Spec.TriggerColumn
import Verif.Spec.TypeUse
import Verif.Spec.View
import Verif.Spec.ViewColumn
import Verif.Spec.ViewRebuild
import Verif.Spec.Written
import Verif.Lemmas.Acyclic
import Verif.Lemmas.AcyclicInner
import Verif.Lemmas.Before
import Verif.Lemmas.ByName
import Verif.Lemmas.Chain
import Verif.Lemmas.Check
import Verif.Lemmas.CheckFate
import Verif.Lemmas.ColumnRun
import Verif.Lemmas.Detect
import Verif.Lemmas.DiffLists
import Verif.Lemmas.DiffRun
import Verif.Lemmas.DropTable
import Verif.Lemmas.Edges
import Verif.Lemmas.Effect
import Verif.Lemmas.Family
import Verif.Lemmas.Fate
import Verif.Lemmas.FkRun
import Verif.Lemmas.Focus
import Verif.Lemmas.ForeignKey
import Verif.Lemmas.Forest
import Verif.Lemmas.Gen
import Verif.Lemmas.GenOk
import Verif.Lemmas.GoMap
import Verif.Lemmas.GoSort
import Verif.Lemmas.Graph
import Verif.Lemmas.GraphOps
import Verif.Lemmas.Guard
import Verif.Lemmas.IndexCases
import Verif.Lemmas.IndexConverge
import Verif.Lemmas.IndexDet
import Verif.Lemmas.IndexDiff
import Verif.Lemmas.IndexFate
import Verif.Lemmas.IndexGone
import Verif.Lemmas.IndexOrder
import Verif.Lemmas.IndexRun
import Verif.Lemmas.IndexShape
import Verif.Lemmas.IndexStep
import Verif.Lemmas.IndexTree
import Verif.Lemmas.Inner
import Verif.Lemmas.Json
import Verif.Lemmas.Origin
import Verif.Lemmas.Plain
import Verif.Lemmas.PlanFate
import Verif.Lemmas.Priority
import Verif.Lemmas.Process
import Verif.Lemmas.Run
import Verif.Lemmas.SelfDiff
import Verif.Lemmas.SelfOk
import Verif.Lemmas.Sequence
import Verif.Lemmas.Shape
import Verif.Lemmas.SqlGraph
import Verif.Lemmas.State
import Verif.Lemmas.TableFate
import Verif.Lemmas.TableOps
import Verif.Lemmas.TableRun
import Verif.Props.Acyclic
import Verif.Props.Apply
import Verif.Props.Attach
import Verif.Props.AttachTouched
import Verif.Props.Check
import Verif.Props.Column
import Verif.Props.ColumnOrder
import Verif.Props.ColumnQuiet
import Verif.Props.ColumnSequence
import Verif.Props.Columns
import Verif.Props.Data
import Verif.Props.DataPack
import Verif.Props.Database
import Verif.Props.Detect
import Verif.Props.DiffLists
import Verif.Props.Dot
import Verif.Props.Enum
import Verif.Props.Escape
import Verif.Props.Fetch
import Verif.Props.Filter
import Verif.Props.FilterPlan
import Verif.Props.FkRebuild
import Verif.Props.ForeignKey
import Verif.Props.ForeignKeyRun
import Verif.Props.Forest
import Verif.Props.FunctionUse
import Verif.Props.Future
import Verif.Props.Gate
import Verif.Props.GeneratedColumn
import Verif.Props.GoSet
import Verif.Props.Graph
import Verif.Props.Hash
import Verif.Props.Hazards
import Verif.Props.Index
import Verif.Props.IndexColumns
import Verif.Props.IndexLink
import Verif.Props.IndexRebuild
import Verif.Props.IndexReplace
import Verif.Props.IndexUse
import Verif.Props.Kind
import Verif.Props.Names
import Verif.Props.Namespace
import Verif.Props.NotNullCheck
import Verif.Props.Options
import Verif.Props.OuterTouched
import Verif.Props.Output
import Verif.Props.PartCheck
import Verif.Props.PartColumns
import Verif.Props.Partition
import Verif.Props.PartitionPieces
import Verif.Props.Phases
import Verif.Props.PieceQuiet
import Verif.Props.Plan
import Verif.Props.PlanGreedy
import Verif.Props.Policy
import Verif.Props.PolicyColumn
import Verif.Props.PolicyTouched
import Verif.Props.Privilege
import Verif.Props.PrivilegeTouched
import Verif.Props.RandomId
import Verif.Props.RelOptions
import Verif.Props.Replica
import Verif.Props.Routine
import Verif.Props.SchemaFiles
import Verif.Props.Script
import Verif.Props.SelfDiff
import Verif.Props.Sequence
import Verif.Props.SqlGraph
import Verif.Props.Stall
import Verif.Props.TableQuiet
import Verif.Props.TableSwitch
import Verif.Props.TableTouched
import Verif.Props.TableUse
import Verif.Props.TempDb
import Verif.Props.Touched
import Verif.Props.Trigger
import Verif.Props.TriggerColumn
import Verif.Props.TypeUse
import Verif.Props.Validate
import Verif.Props.ViewColumn
import Verif.Props.ViewRebuild
import Verif.Props.ViewRun
import Verif.Props.Views
import Verif.Props.Written
