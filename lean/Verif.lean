import Verif.PVec.Theorems.Damaged
import Verif.PVec.Theorems.Whole
import Verif.PVec.Theorems.NaturalPanic
import Verif.PVec.Theorems.Cost
import Verif.PVec.Theorems.Capacity
import Verif.PVec.Theorems.Growth
import Verif.PVec.Theorems.Levels
import Verif.PVec.Theorems.Intact
import Verif.PVec.Theorems.Gap
import Verif.PVec.Theorems.Elements
import Verif.PVec.Theorems.Heights
import Verif.PVec.Theorems.Regular
import Verif.PVec.Theorems.PanicExact
import Verif.PVec.Theorems.Program
import Verif.PVec.Theorems.Rejoin
import Verif.PVec.Theorems.Overflow
import Verif.PVec.Theorems.Ord
import Verif.PVec.Theorems.Sharing
import Verif.PVec.Theorems.Compare
import Verif.Theorems.Foldable
import Verif.Theorems.Validated
import Verif.Theorems.Misc
import Verif.Theorems.Choice
import Verif.Theorems.Error
import Verif.Theorems.Convert
import Verif.Theorems.Utils
import Verif.Theorems.State
import Verif.Theorems.Reader
import Verif.Theorems.IO
import Verif.Theorems.NewAsync
import Verif.Theorems.Memoizer
import Verif.Theorems.MemoUse
import Verif.Theorems.Async
import Verif.Theorems.AsyncCancel
import Verif.Theorems.AsyncShared
import Verif.Theorems.Depth
import Verif.Theorems.Optics
import Verif.Theorems.Category
import Verif.Theorems.Access2
import Verif.Theorems.Calls
import Verif.Theorems.CallsMore
import Verif.Theorems.Compare
import Verif.Theorems.Text
import Verif.Theorems.Abstract
import Verif.Conformance.PVec
import Verif.Conformance.Choice
import Verif.Conformance.Data
import Verif.Conformance.Utils
import Verif.Conformance.Examples
import Verif.Conformance.Effects
import Verif.Conformance.Errors
import Verif.Conformance.Optics
import Verif.Conformance.DocIO
import Verif.Conformance.DocPVec
import Verif.Conformance.DocState
import Verif.Conformance.DocMaybeEither
import Verif.Conformance.DocValidated
import Verif.Conformance.DocChoice
import Verif.Examples.Parser
import Verif.Theorems.Parser
import Verif.Theorems.ParserMany
import Verif.Theorems.ParserSql
import Verif.Examples.Migration
import Verif.Theorems.Migration
import Verif.Examples.ErrorPipeline
import Verif.Theorems.ErrorExample
import Verif.Tests.QuickCheck
import Verif.Theorems.QuickCheck
import Verif.Tests.Generators
import Verif.Theorems.Generators
import Verif.Data.Serde
import Verif.Theorems.Serde
import Verif.Theorems.Ord
import Verif.Theorems.Hints
import Verif.Theorems.Numbers
import Verif.Calls.Clones
import Verif.Spec.Clones
import Verif.Theorems.Clones
import Verif.Theorems.CloneCounts
import Verif.Theorems.CloneRest
import Verif.Calls.FoldClones
import Verif.Spec.FoldClones
import Verif.Theorems.FoldClones
import Verif.PVec.Cloned
import Verif.PVec.Frames
import Verif.PVec.Theorems.Frames
import Verif.PVec.Theorems.WholeUpdate
import Verif.PVec.Theorems.WholePush
import Verif.PVec.Theorems.Drain
import Verif.PVec.Theorems.Ends
import Verif.PVec.Theorems.Queue
import Verif.PVec.Theorems.ReadAll
import Verif.PVec.Theorems.Entries
import Verif.PVec.Theorems.Space
import Verif.PVec.Theorems.SpaceJoin
import Verif.PVec.Theorems.Work
import Verif.PVec.Theorems.WorkExact
import Verif.PVec.Theorems.Cloned
import Verif.PVec.Theorems.ClonedHeld
import Verif.Spec.LogClones
import Verif.Theorems.LogClones
import Verif.Trans.Clones
import Verif.Spec.EnvClones
import Verif.Theorems.EnvClones
import Verif.Effect.IOClones
import Verif.Effect.AsyncClones
import Verif.Trans.ContClones
import Verif.Trans.StateTClones
import Verif.Spec.IOClones
import Verif.Spec.AsyncClones
import Verif.Spec.ContClones
import Verif.Spec.StateTClones
import Verif.Theorems.IOClones
import Verif.Theorems.AsyncClones
import Verif.Theorems.ContClones
import Verif.Theorems.StateTClones
import Verif.Spec.Asking
import Verif.Theorems.Asking
