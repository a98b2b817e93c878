import Verif.Model.Sgf
import Verif.Model.DeadStones
import Verif.Spec.Game
import Verif.Proofs.Refine
import Verif.Props.Board
import Verif.Props.Game
import Verif.Props.Ko
import Verif.Props.Flow
import Verif.Props.Abstract
import Verif.Props.Limits
import Verif.Props.Score
import Verif.Props.Symmetry
import Verif.Props.Rules
import Verif.Props.Tables
import Verif.Props.Builder
import Verif.Props.DeadStones
import Verif.Props.Finite
import Verif.Props.SuperKo
import Verif.Props.Counting
import Verif.Props.Same
import Verif.Proofs.Profile
import Verif.Props.Profile
import Verif.Props.Rect
import Verif.Model.Iter
import Verif.Proofs.Region
import Verif.Proofs.Total
import Verif.Props.Queries
import Verif.Props.Iter
import Verif.Props.Simulate
import Verif.Spec.Life
import Verif.Proofs.Life
import Verif.Props.Life
import Verif.Props.Reachable
import Verif.Props.Alias
import Verif.Props.GroupApi
import Verif.Model.Convert
import Verif.Props.Convert
import Verif.Props.LongGame
import Verif.Tests.Records
import Verif.Tests.Conformance
import Verif.Model.Bench
import Verif.Props.Bench
import Verif.Props.Perft
import Verif.Proofs.Occupied
import Verif.Props.Occupied
import Verif.Proofs.Hidden
import Verif.Proofs.Lone
import Verif.Props.Hidden
import Verif.Props.Exact
import Verif.Props.Komi
import Verif.Spec.Room
import Verif.Proofs.Room
import Verif.Props.Room
import Verif.Props.Slices
import Verif.Props.EyeSym
import Verif.Props.Machine
import Verif.Props.KomiAll
import Verif.Props.RectMoves
import Verif.Props.RectTerritory
import Verif.Props.RectScore
import Verif.Props.Record
import Verif.Spec.Strategy
import Verif.Props.Strategy
import Verif.Model.Words
import Verif.Props.Words
import Verif.Model.Single
import Verif.Proofs.Single
import Verif.Props.Single
import Verif.Props.PlayGame
import Verif.Spec.Anywhere
import Verif.Proofs.Anywhere
import Verif.Props.Anywhere
import Verif.Proofs.Weak
import Verif.Proofs.WeakGame
import Verif.Spec.AnySize
import Verif.Proofs.AnySize
import Verif.Props.AnySize
import Verif.Props.Search
import Verif.Props.AnyTerritory
import Verif.Props.AnyLife
import Verif.Spec.Groups
import Verif.Props.Chains
import Verif.Props.AnywhereKo
import Verif.Spec.Local
import Verif.Spec.Acts
import Verif.Proofs.Local
import Verif.Props.SetUp
import Verif.Proofs.Lazy
import Verif.Model.Listing
import Verif.Props.Listing
import Verif.Props.Docs
import Verif.Props.AnyCounting
import Verif.Props.Scoring
import Verif.Props.Sizes
import Verif.Props.Whole
import Verif.Props.Damage
import Verif.Props.SizesAll
import Verif.Props.HashSizes
import Verif.Props.Area
import Verif.Props.Chance
import Verif.Props.KoBan
import Verif.Props.Race
import Verif.Props.Transpose
import Verif.Props.KomiOrder
import Verif.Props.FairKomi
import Verif.Props.Majority
import Verif.Props.Update
import Verif.Props.Return
import Verif.Props.Bounds
import Verif.Props.Attack
import Verif.Props.AttackFree
import Verif.Props.Atari
import Verif.Props.Connect
import Verif.Props.FourPlies
import Verif.Props.Seki
import Verif.Props.Overflow
import Verif.Props.NoPanic
import Verif.Props.PlayoutEnd
import Verif.Props.Lockstep
import Verif.Props.Combs
import Verif.Props.PolicyAny
import Verif.Props.SearchAny
import Verif.Props.TwoKos
import Verif.Props.Cycle
import Verif.Props.SmallBoards
import Verif.Props.SuicideLoop
import Verif.Model.Unwind
import Verif.Proofs.Unwind
import Verif.Props.Unwind
import Verif.Props.Retry
import Verif.Props.RetryCases
import Verif.Props.OffTable
import Verif.Model.UnwindHandicap
import Verif.Props.UnwindHandicap
import Verif.Props.OverStone
import Verif.Props.OverStoneAfter
import Verif.Props.RemoveLeft
import Verif.Props.IndexLoop
