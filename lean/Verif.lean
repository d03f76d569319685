import Verif.Conform.Basic
import Verif.Conform.Bidirectional
import Verif.Conform.Docs
import Verif.Conform.Group
import Verif.Conform.LinkType
import Verif.Conform.Script
import Verif.Demo.Decls
import Verif.Demo.Run
import Verif.Demo.Traced
import Verif.Lemmas.Arena
import Verif.Lemmas.Arenas
import Verif.Lemmas.Asked
import Verif.Lemmas.Back
import Verif.Lemmas.Backlinks
import Verif.Lemmas.Bidir
import Verif.Lemmas.BidirLinks
import Verif.Lemmas.BidirVec
import Verif.Lemmas.Build
import Verif.Lemmas.Calm
import Verif.Lemmas.CamelCase
import Verif.Lemmas.Check
import Verif.Lemmas.Closures
import Verif.Lemmas.Commit
import Verif.Lemmas.CommitSpec
import Verif.Lemmas.Commute
import Verif.Lemmas.Compile
import Verif.Lemmas.Contexts
import Verif.Lemmas.Declare
import Verif.Lemmas.Detour
import Verif.Lemmas.Effects
import Verif.Lemmas.Errors
import Verif.Lemmas.Exact
import Verif.Lemmas.Fa
import Verif.Lemmas.Feature
import Verif.Lemmas.Format
import Verif.Lemmas.Frame
import Verif.Lemmas.Gone
import Verif.Lemmas.Groups
import Verif.Lemmas.History
import Verif.Lemmas.Ids
import Verif.Lemmas.Independent
import Verif.Lemmas.Insert
import Verif.Lemmas.Intact
import Verif.Lemmas.Integrity
import Verif.Lemmas.Interleaved
import Verif.Lemmas.Iter
import Verif.Lemmas.Lcr
import Verif.Lemmas.Left
import Verif.Lemmas.Load
import Verif.Lemmas.Loaded
import Verif.Lemmas.Machine
import Verif.Lemmas.MachineInv
import Verif.Lemmas.Many
import Verif.Lemmas.Meets
import Verif.Lemmas.Move
import Verif.Lemmas.Moved
import Verif.Lemmas.Nested
import Verif.Lemmas.Node
import Verif.Lemmas.Order
import Verif.Lemmas.OrderMap
import Verif.Lemmas.Parse
import Verif.Lemmas.PartThreads
import Verif.Lemmas.Parts
import Verif.Lemmas.Pending
import Verif.Lemmas.Performable
import Verif.Lemmas.Phase
import Verif.Lemmas.Protocol
import Verif.Lemmas.Reasons
import Verif.Lemmas.ReasonsIff
import Verif.Lemmas.Redeclare
import Verif.Lemmas.Redirect
import Verif.Lemmas.RedirectVec
import Verif.Lemmas.Reflect
import Verif.Lemmas.Registry
import Verif.Lemmas.Regroup
import Verif.Lemmas.Rename
import Verif.Lemmas.Renamed
import Verif.Lemmas.Reorder
import Verif.Lemmas.Replace
import Verif.Lemmas.Replay
import Verif.Lemmas.Report
import Verif.Lemmas.Rerun
import Verif.Lemmas.RerunReturns
import Verif.Lemmas.Schedule
import Verif.Lemmas.Schema
import Verif.Lemmas.Shadow
import Verif.Lemmas.Sorted
import Verif.Lemmas.Spared
import Verif.Lemmas.Spelling
import Verif.Lemmas.Split
import Verif.Lemmas.Steady
import Verif.Lemmas.Switch
import Verif.Lemmas.SwitchDraws
import Verif.Lemmas.Switched
import Verif.Lemmas.Symmetric
import Verif.Lemmas.TransLeft
import Verif.Lemmas.TransOps
import Verif.Lemmas.TwinOrder
import Verif.Lemmas.Twins
import Verif.Lemmas.Types
import Verif.Lemmas.Unique
import Verif.Lemmas.Unwind
import Verif.Lemmas.Withdraw
import Verif.Lemmas.World
import Verif.Lemmas.Wrap
import Verif.Lemmas.WrapThreads
import Verif.Lemmas.Wreck
import Verif.Model.Arena
import Verif.Model.ArenaApi
import Verif.Model.Bidir
import Verif.Model.Check
import Verif.Model.CheckEffects
import Verif.Model.Compile
import Verif.Model.Effects
import Verif.Model.Feature
import Verif.Model.Format
import Verif.Model.Graph
import Verif.Model.Ids
import Verif.Model.Macros
import Verif.Model.Node
import Verif.Model.OrderMap
import Verif.Model.Parse
import Verif.Model.Reflect
import Verif.Model.Schema
import Verif.Model.Serialize
import Verif.Model.Sorted
import Verif.Model.Spelling
import Verif.Model.Switch
import Verif.Model.SwitchDraws
import Verif.Model.Trans
import Verif.Model.TransLeft
import Verif.Model.Unwind
import Verif.Model.World
import Verif.Model.Wrap
import Verif.Props.Alloc
import Verif.Props.Arenas
import Verif.Props.Asked
import Verif.Props.Backlinks
import Verif.Props.Bidir
import Verif.Props.BidirLinks
import Verif.Props.Catching
import Verif.Props.Caught
import Verif.Props.Checks
import Verif.Props.Commit
import Verif.Props.Commute
import Verif.Props.Compile
import Verif.Props.Counts
import Verif.Props.Declare
import Verif.Props.Effects
import Verif.Props.Empty
import Verif.Props.Exact
import Verif.Props.Feature
import Verif.Props.Files
import Verif.Props.Form
import Verif.Props.Format
import Verif.Props.Gone
import Verif.Props.Ids
import Verif.Props.Integrity
import Verif.Props.Interleaved
import Verif.Props.Iter
import Verif.Props.Local
import Verif.Props.Macros
import Verif.Props.Many
import Verif.Props.Moved
import Verif.Props.Nested
import Verif.Props.Net
import Verif.Props.NetChecked
import Verif.Props.Order
import Verif.Props.Panics
import Verif.Props.Parse
import Verif.Props.PartThreads
import Verif.Props.Parts
import Verif.Props.Query
import Verif.Props.Reasons
import Verif.Props.Refine
import Verif.Props.Reflect
import Verif.Props.Registry
import Verif.Props.Regroup
import Verif.Props.Rename
import Verif.Props.RenameOrder
import Verif.Props.Replace
import Verif.Props.Replay
import Verif.Props.Report
import Verif.Props.Rerun
import Verif.Props.Restore
import Verif.Props.Resume
import Verif.Props.Schedules
import Verif.Props.Spelling
import Verif.Props.Split
import Verif.Props.Switch
import Verif.Props.SwitchDraws
import Verif.Props.Threads
import Verif.Props.Transactions
import Verif.Props.Types
import Verif.Props.Undo
import Verif.Props.Valid
import Verif.Props.Vec
import Verif.Props.Worlds
import Verif.Props.Wrap
import Verif.Props.WrapThreads
import Verif.Spec.Arenas
import Verif.Spec.Asked
import Verif.Spec.Catching
import Verif.Spec.Checks
import Verif.Spec.Commit
import Verif.Spec.Compile
import Verif.Spec.Declare
import Verif.Spec.Effects
import Verif.Spec.Exact
import Verif.Spec.Files
import Verif.Spec.Form
import Verif.Spec.Grammar
import Verif.Spec.Groups
import Verif.Spec.History
import Verif.Spec.Independent
import Verif.Spec.Intact
import Verif.Spec.Integrity
import Verif.Spec.Interleaved
import Verif.Spec.Iter
import Verif.Spec.Links
import Verif.Spec.Machine
import Verif.Spec.Moved
import Verif.Spec.Nested
import Verif.Spec.Net
import Verif.Spec.Order
import Verif.Spec.PartThreads
import Verif.Spec.Parts
import Verif.Spec.Pending
import Verif.Spec.Protocol
import Verif.Spec.Query
import Verif.Spec.Reasons
import Verif.Spec.Regroup
import Verif.Spec.Rename
import Verif.Spec.RenameOrder
import Verif.Spec.Replace
import Verif.Spec.Replay
import Verif.Spec.Report
import Verif.Spec.Rerun
import Verif.Spec.Restore
import Verif.Spec.Schedule
import Verif.Spec.Spelling
import Verif.Spec.Split
import Verif.Spec.Switch
import Verif.Spec.Threads
import Verif.Spec.Types
import Verif.Spec.Undo
import Verif.Spec.Valid
import Verif.Spec.Vec
import Verif.Spec.View
import Verif.Spec.Worlds
import Verif.Spec.Wrap
import Verif.Spec.WrapThreads
import Verif.Spec.Wreck
