import Verif.Model.Bag
import Verif.Model.Basic
import Verif.Model.Caught
import Verif.Model.Column
import Verif.Model.Columns
import Verif.Model.Context
import Verif.Model.Crash
import Verif.Model.CtxFlush
import Verif.Model.CtxHistory
import Verif.Model.CtxPanic
import Verif.Model.CtxThreads
import Verif.Model.CtxUniverses
import Verif.Model.Custom
import Verif.Model.Declared
import Verif.Model.Deletable
import Verif.Model.FlushFail
import Verif.Model.FlushPanic
import Verif.Model.Handlers
import Verif.Model.Inits
import Verif.Model.Iter
import Verif.Model.Libs
import Verif.Model.MacroConfig
import Verif.Model.Ops
import Verif.Model.Poison
import Verif.Model.PropLocks
import Verif.Model.Race
import Verif.Model.RegThreads
import Verif.Model.Registry
import Verif.Model.RowId
import Verif.Model.Rug
import Verif.Model.Save
import Verif.Model.Selection
import Verif.Model.Serial
import Verif.Model.Sorted
import Verif.Model.Stream
import Verif.Model.SyncThreads
import Verif.Model.Table
import Verif.Model.Threads
import Verif.Model.TrackThreads
import Verif.Model.TwoUniverses
import Verif.Model.Universe
import Verif.Model.Unlocked
import Verif.Model.Unwind
import Verif.Model.View
import Verif.Model.ViewFail
import Verif.Spec.Cascade
import Verif.Spec.Caught
import Verif.Spec.Chains
import Verif.Spec.Crash
import Verif.Spec.CtxFlush
import Verif.Spec.CtxThreads
import Verif.Spec.CtxUniverses
import Verif.Spec.Custom
import Verif.Spec.Declared
import Verif.Spec.Deletable
import Verif.Spec.FlushFail
import Verif.Spec.FlushPanic
import Verif.Spec.History
import Verif.Spec.Holds
import Verif.Spec.Inits
import Verif.Spec.Libs
import Verif.Spec.Lists
import Verif.Spec.Macro
import Verif.Spec.Merge
import Verif.Spec.Mutex
import Verif.Spec.Poison
import Verif.Spec.PropLocks
import Verif.Spec.RegThreads
import Verif.Spec.Registry
import Verif.Spec.Save
import Verif.Spec.Serial
import Verif.Spec.Session
import Verif.Spec.Storage
import Verif.Spec.Stream
import Verif.Spec.SyncThreads
import Verif.Spec.Threads
import Verif.Spec.TrackThreads
import Verif.Spec.TrackTie
import Verif.Spec.Unlocked
import Verif.Spec.Unwind
import Verif.Spec.Usage
import Verif.Lemmas.Access
import Verif.Lemmas.Bag
import Verif.Lemmas.Cascade
import Verif.Lemmas.CascadeAll
import Verif.Lemmas.CascadeNull
import Verif.Lemmas.Caught
import Verif.Lemmas.CaughtStuck
import Verif.Lemmas.Column
import Verif.Lemmas.Columns
import Verif.Lemmas.CtxThreads
import Verif.Lemmas.Cycle
import Verif.Lemmas.Damaged
import Verif.Lemmas.Exec
import Verif.Lemmas.Flush
import Verif.Lemmas.FlushFail
import Verif.Lemmas.FlushLeft
import Verif.Lemmas.FlushPanic
import Verif.Lemmas.FlushPartly
import Verif.Lemmas.FlushRange
import Verif.Lemmas.FlushReach
import Verif.Lemmas.Grow
import Verif.Lemmas.Guarded
import Verif.Lemmas.GuardsHeld
import Verif.Lemmas.Holds
import Verif.Lemmas.Inits
import Verif.Lemmas.InitsLike
import Verif.Lemmas.InitsMake
import Verif.Lemmas.InitsRun
import Verif.Lemmas.InitsShadow
import Verif.Lemmas.InitsStep
import Verif.Lemmas.InitsWorld
import Verif.Lemmas.Iter
import Verif.Lemmas.Keep
import Verif.Lemmas.LeftBag
import Verif.Lemmas.LeftMerge
import Verif.Lemmas.Leftovers
import Verif.Lemmas.Libs
import Verif.Lemmas.Live
import Verif.Lemmas.LiveLeft
import Verif.Lemmas.Merge
import Verif.Lemmas.Mutex
import Verif.Lemmas.Names
import Verif.Lemmas.Observers
import Verif.Lemmas.Overfull
import Verif.Lemmas.PropLocks
import Verif.Lemmas.PropLocksEnd
import Verif.Lemmas.PropLocksInv
import Verif.Lemmas.PropLocksMore
import Verif.Lemmas.PropLocksWorld
import Verif.Lemmas.Reach
import Verif.Lemmas.RegThreads
import Verif.Lemmas.RegThreadsEnd
import Verif.Lemmas.RegThreadsInv
import Verif.Lemmas.RegThreadsMore
import Verif.Lemmas.RegThreadsShape
import Verif.Lemmas.RegThreadsStep
import Verif.Lemmas.RegThreadsSys
import Verif.Lemmas.Registry
import Verif.Lemmas.RegistryAdd
import Verif.Lemmas.RegistryLedger
import Verif.Lemmas.RegistryMore
import Verif.Lemmas.RegistryStep
import Verif.Lemmas.RegistryUni
import Verif.Lemmas.Remove
import Verif.Lemmas.Rug
import Verif.Lemmas.RunAlone
import Verif.Lemmas.Salvage
import Verif.Lemmas.Save
import Verif.Lemmas.Select
import Verif.Lemmas.Serial
import Verif.Lemmas.Serialise
import Verif.Lemmas.Session
import Verif.Lemmas.Sorted
import Verif.Lemmas.Stable
import Verif.Lemmas.SyncThreads
import Verif.Lemmas.System
import Verif.Lemmas.Table
import Verif.Lemmas.Tear
import Verif.Lemmas.Tell
import Verif.Lemmas.Threads
import Verif.Lemmas.Torn
import Verif.Lemmas.TornOps
import Verif.Lemmas.TrackOrder
import Verif.Lemmas.TrackThreads
import Verif.Lemmas.Unlocked
import Verif.Lemmas.Unwind
import Verif.Lemmas.Write
import Verif.Props.Access
import Verif.Props.AccessUse
import Verif.Props.Bag
import Verif.Props.Cascade
import Verif.Props.Caught
import Verif.Props.Consistent
import Verif.Props.Context
import Verif.Props.Crash
import Verif.Props.CrashPoints
import Verif.Props.CtxFlush
import Verif.Props.CtxHeld
import Verif.Props.CtxHistory
import Verif.Props.CtxPanic
import Verif.Props.CtxThreads
import Verif.Props.CtxUniverses
import Verif.Props.Custom
import Verif.Props.Cycle
import Verif.Props.Damaged
import Verif.Props.Declared
import Verif.Props.Deletable
import Verif.Props.Demo
import Verif.Props.DemoUni
import Verif.Props.Events
import Verif.Props.Flush
import Verif.Props.FlushFail
import Verif.Props.FlushPanic
import Verif.Props.Guarded
import Verif.Props.GuardsHeld
import Verif.Props.Handlers
import Verif.Props.Index
import Verif.Props.Inits
import Verif.Props.Integrity
import Verif.Props.Libs
import Verif.Props.Live
import Verif.Props.MacroConfig
import Verif.Props.Mutex
import Verif.Props.Overflow
import Verif.Props.Poison
import Verif.Props.PropLocks
import Verif.Props.Race
import Verif.Props.Ranges
import Verif.Props.Refusals
import Verif.Props.RegThreads
import Verif.Props.Registry
import Verif.Props.RegistryDemo
import Verif.Props.RegistryUse
import Verif.Props.RowId
import Verif.Props.Save
import Verif.Props.Selection
import Verif.Props.Serial
import Verif.Props.Sorted
import Verif.Props.Storage
import Verif.Props.Stream
import Verif.Props.SyncThreads
import Verif.Props.Tellings
import Verif.Props.Threads
import Verif.Props.TrackThreads
import Verif.Props.TrackTie
import Verif.Props.TwoUniverses
import Verif.Props.Unhandled
import Verif.Props.Unlocked
import Verif.Props.Unwind
import Verif.Props.Usage
import Verif.Props.View
import Verif.Props.ViewFail
import Verif.Axioms
