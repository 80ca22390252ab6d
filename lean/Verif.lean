import Verif.Base
import Verif.Align.Model
import Verif.Align.Lemmas
import Verif.Align.Props
import Verif.Literals.Model
import Verif.Literals.Props
import Verif.Arena.Model
import Verif.Arena.Spec
import Verif.Arena.Lemmas
import Verif.Arena.Inv
import Verif.Arena.Steps
import Verif.Arena.Trace
import Verif.Arena.Example
import Verif.Arena.Check
import Verif.Arena.Props
import Verif.Arena.Violations
import Verif.Arena.Sim
import Verif.Arena.Replay
import Verif.Arena.World
import Verif.Arena.WorldInv
import Verif.Arena.WorldProps
import Verif.Arena.MovedResource
import Verif.Arena.EveryState
import Verif.Arena.AlignEvery
import Verif.Arena.Nested
import Verif.Arena.Reentrant
import Verif.Arena.Traits
import Verif.Arena.TraitsProps
import Verif.Arena.Like
import Verif.Arena.Hooks
import Verif.Arena.HooksProps
import Verif.Arena.HookCalls
import Verif.Arena.HookCallsProps
import Verif.Metrics.Model
import Verif.Metrics.Spec
import Verif.Metrics.Lemmas
import Verif.Metrics.Threads
import Verif.Metrics.Props
import Verif.Metrics.Every
import Verif.Metrics.Race
import Verif.Metrics.Link
import Verif.Vector.Model
import Verif.Vector.Spec
import Verif.Vector.Lemmas
import Verif.Vector.Inv
import Verif.Vector.Ops
import Verif.Vector.Ops2
import Verif.Vector.Ops3
import Verif.Vector.Ops4
import Verif.Vector.Step
import Verif.Vector.World
import Verif.Vector.Prog
import Verif.Vector.Props
import Verif.Vector.Props2
import Verif.Vector.Refs
import Verif.Vector.IterProps
import Verif.Vector.StdErase
import Verif.Vector.Compare
import Verif.Vector.CompareBy
import Verif.Vector.Alias
import Verif.Vector.Failure
import Verif.Vector.Violations
import Verif.Vector.Reloc
import Verif.Vector.Zero
import Verif.Vector.Ranges
import Verif.Vector.Throw
import Verif.Vector.ThrowLemmas
import Verif.Vector.ThrowProps
import Verif.Str.Search
import Verif.Str.SearchLemmas
import Verif.Str.SearchProps
import Verif.Str.ContainsView
import Verif.Str.Wraps
import Verif.Str.WrapInsert
import Verif.Str.IterEvery
import Verif.Str.CloneEvery
import Verif.Str.EmptyEvery
import Verif.Str.ArenaEvery
import Verif.Str.EveryString
import Verif.Str.WordEvery
import Verif.Str.MoveEvery
import Verif.Str.Layout
import Verif.Str.LayoutProps
import Verif.Str.Model
import Verif.Str.Strings
import Verif.Str.Prog
import Verif.Str.Heap
import Verif.Str.Core
import Verif.Str.Reserve
import Verif.Str.Ctor
import Verif.Str.Expand
import Verif.Str.Ops
import Verif.Str.Edit
import Verif.Str.Replace
import Verif.Str.News
import Verif.Str.Refine
import Verif.Str.Flags
import Verif.Str.Reach
import Verif.Str.StringProps
import Verif.Str.Growth
import Verif.Str.Views
import Verif.Str.StringMore
import Verif.Str.StringPlus
import Verif.Str.StringViolations
import Verif.Str.Streams
import Verif.Str.StreamSpec
import Verif.Str.StreamOps
import Verif.Str.StreamProps
import Verif.Str.Granted
import Verif.Str.StreamViolations
import Verif.Str.LineEvery
import Verif.Str.Local
import Verif.Str.Threads
import Verif.Str.ThreadLemmas
import Verif.Str.ThreadProps
import Verif.Str.ThreadViolations
import Verif.Str.RaceEvery
import Verif.Str.CpuCheck
import Verif.Str.Mixed
import Verif.Str.MixedProps
import Verif.Str.Room
import Verif.Str.RoomProps
import Verif.Str.OwnProps
import Verif.Str.GrowProps
import Verif.Str.StayProps
import Verif.Str.Catch
import Verif.Str.Sole
import Verif.Str.CatchProps
import Verif.Opt.Model
import Verif.Opt.Texts
import Verif.Opt.Spec
import Verif.Opt.Loop
import Verif.Opt.Effects
import Verif.Opt.Reg
import Verif.Opt.Prep
import Verif.Opt.Parse
import Verif.Opt.Grammar
import Verif.Opt.Causes
import Verif.Opt.OptProps
import Verif.Opt.OptMore
import Verif.Opt.OptViolations
import Verif.Opt.EveryParser
import Verif.Opt.NumberEvery
import Verif.Opt.Defaults
import Verif.Opt.Again
import Verif.Opt.AgainProps
import Verif.Opt.Order
import Verif.Opt.Spelling
import Verif.Opt.Handles
import Verif.Opt.HandlesLemmas
import Verif.Opt.HandlesProps
import Verif.Arena.Callbacks
import Verif.Arena.CallbacksProps
import Verif.Vector.Room
import Verif.Vector.RoomProps
import Verif.Vector.GrowProps
import Verif.Vector.CapProps
import Verif.Str.ShrinkProps
import Verif.Vector.EraseThrow
import Verif.Vector.FillThrow
import Verif.Vector.ThrowMore
import Verif.Arena.Waste
import Verif.Arena.WasteProps
import Verif.Arena.Refused
import Verif.Str.Lodge
import Verif.Str.HomeSpec
import Verif.Str.HomeLemmas
import Verif.Str.HomeProps
import Verif.Str.OnArenaProps
import Verif.Str.CapsSpec
import Verif.Str.Caps
import Verif.Str.CapsFns
import Verif.Str.CapsOps
import Verif.Str.CapsLine
import Verif.Str.CapsStep
import Verif.Str.CapsProps
import Verif.Str.Relocate
import Verif.Str.MemFns
import Verif.Str.MemProps
import Verif.Str.Firm
import Verif.Str.FirmProps
import Verif.Str.MemCaught
import Verif.Str.FirmNew
import Verif.Str.FirmNewProps
import Verif.Str.CapsCaught
import Verif.Str.Convert
import Verif.Str.NoArena
import Verif.Str.WordCopy
import Verif.Vector.Owners
import Verif.Vector.OwnersProps
import Verif.Str.Ranges
import Verif.Str.RangeLow
import Verif.Str.RangeTri
import Verif.Str.RangeProps
import Verif.Str.RangeForward
import Verif.Vector.Everywhere
import Verif.Vector.EverywhereAlloc
import Verif.Vector.EverywhereMore
import Verif.Vector.BigElements
