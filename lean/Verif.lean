import Verif.Model.Basic
import Verif.Model.DataT
import Verif.Model.Flt
import Verif.Model.Deque
import Verif.Model.Lemire
import Verif.Model.Series
import Verif.Model.Distance
import Verif.Model.Dataset
import Verif.Model.Group
import Verif.Model.GroupSpace
import Verif.Model.GroupIO
import Verif.Model.Groupable
import Verif.Model.Api
import Verif.Model.Cli
import Verif.Model.Candidate
import Verif.Model.Trillion
import Verif.Model.SeriesObj
import Verif.Proofs.Basic
import Verif.Proofs.Flt
import Verif.Proofs.Pairwise
import Verif.Proofs.Warped
import Verif.Proofs.WarpPath
import Verif.Proofs.Band
import Verif.Proofs.WarpedDist
import Verif.Props.Pairwise
import Verif.Props.Warped
import Verif.Props.Band
import Verif.Proofs.Deque
import Verif.Spec.DequeSpec
import Verif.Props.Deque
import Verif.Proofs.Lemire
import Verif.Spec.Envelope
import Verif.Proofs.Envelope
import Verif.Props.Envelope
import Verif.Proofs.Keogh
import Verif.Props.Keogh
import Verif.Model.SeriesHist
import Verif.Proofs.SeriesObj
import Verif.Props.SeriesObj
import Verif.Props.SeriesView
import Verif.Spec.Table
import Verif.Spec.Paa
import Verif.Proofs.Table
import Verif.Proofs.Load
import Verif.Proofs.Save
import Verif.Proofs.Normalize
import Verif.Proofs.Paa
import Verif.Proofs.DatasetInv
import Verif.Props.Load
import Verif.Props.Normalize
import Verif.Props.Paa
import Verif.Props.DatasetHist
import Verif.Spec.Members
import Verif.Spec.Nearest
import Verif.Spec.Grouping
import Verif.Proofs.Chain
import Verif.Proofs.Dists
import Verif.Proofs.Loops
import Verif.Proofs.Nearest
import Verif.Proofs.BestMatch
import Verif.Proofs.Grouping
import Verif.Proofs.GroupReal
import Verif.Props.Members
import Verif.Props.Search
import Verif.Spec.GroupSet
import Verif.Proofs.GroupGlobal
import Verif.Props.Grouping
import Verif.Proofs.Traverse
import Verif.Props.Traverse
import Verif.Proofs.SearchAll
import Verif.Proofs.MatchState
import Verif.Props.Match
import Verif.Spec.GroupFile
import Verif.Proofs.GroupFile
import Verif.Proofs.GroupStore
import Verif.Proofs.GroupKeep
import Verif.Props.GroupFiles
import Verif.Spec.Api
import Verif.Proofs.Api
import Verif.Props.Api
import Verif.Props.ApiIds
import Verif.Props.Candidate
import Verif.Proofs.Throws
import Verif.Spec.Cli
import Verif.Proofs.Cli
import Verif.Proofs.CliArgs
import Verif.Props.Cli
import Verif.Spec.Command
import Verif.Proofs.Command
import Verif.Props.Command
import Verif.Spec.Library
import Verif.Proofs.Library
import Verif.Props.Library
import Verif.Proofs.Kim
import Verif.Props.Kim
import Verif.Proofs.Trillion
import Verif.Props.Trillion
import Verif.Spec.Current
import Verif.Proofs.Fresh
import Verif.Props.Current
import Verif.Proofs.Stale
import Verif.Props.ApiMatch
import Verif.Model.Ucr
import Verif.Spec.Ucr
import Verif.Proofs.UcrBounds
import Verif.Proofs.UcrScan
import Verif.Proofs.LemireExt
import Verif.Proofs.UcrPoint
import Verif.Proofs.UcrLoop
import Verif.Proofs.UcrEdge
import Verif.Proofs.UcrDet
import Verif.Proofs.Transfer
import Verif.Proofs.RunRat
import Verif.Props.Ucr
import Verif.Proofs.AnyDist
import Verif.Proofs.AnyGroup
import Verif.Proofs.AnySearch
import Verif.Proofs.NanQuery
import Verif.Proofs.NanGroup
import Verif.Props.NonFinite
import Verif.Spec.Made
import Verif.Proofs.Asked
import Verif.Proofs.AskedAll
import Verif.Props.Unaffected
import Verif.Proofs.WarpTriangle
import Verif.Proofs.Three
import Verif.Props.NearBest
import Verif.Spec.Moved
import Verif.Proofs.Moved
import Verif.Props.Moved
import Verif.Spec.RelErr
import Verif.Spec.Binary
import Verif.Proofs.RelErr
import Verif.Proofs.Binary
import Verif.Props.Accurate
import Verif.Proofs.NearHonest
import Verif.Props.NearRounded
import Verif.Spec.Leader
import Verif.Proofs.Leader
import Verif.Props.Leader
import Verif.Spec.Answer
import Verif.Proofs.TraverseOrder
import Verif.Props.Answer
import Verif.Proofs.Affine
import Verif.Props.Affine
import Verif.Props.AffineOdd
import Verif.Props.DistanceBetween
import Verif.Props.SeriesPaa
import Verif.Model.Int32
import Verif.Spec.Size
import Verif.Proofs.Int32Dist
import Verif.Proofs.Int32Group
import Verif.Proofs.Int32Data
import Verif.Props.Int32
import Verif.Spec.GroupDoc
import Verif.Proofs.GroupDoc
import Verif.Proofs.GroupDocBad
import Verif.Props.GroupDoc
import Verif.Model.CentroidHist
import Verif.Spec.Leak
import Verif.Proofs.Leak
import Verif.Proofs.LeakGroups
import Verif.Props.Leak
import Verif.Model.Ucr32
import Verif.Proofs.UcrSafe
import Verif.Proofs.Ucr32
import Verif.Proofs.UcrLimits
import Verif.Proofs.UcrShort
import Verif.Props.UcrLimits
import Verif.Spec.GroupCount
import Verif.Proofs.LeaderCount
import Verif.Proofs.GroupCount
import Verif.Props.GroupCount
import Verif.Proofs.NormalizeOdd
import Verif.Props.NormalizeOdd
import Verif.Proofs.GroupLog
import Verif.Props.GroupLog
import Verif.Proofs.WarpedOne
import Verif.Props.WarpedOne
import Verif.Proofs.AddOverlap
import Verif.Props.AddOverlap
import Verif.Proofs.KimShort
import Verif.Props.KimShort
import Verif.Props.CandidateExact
import Verif.Props.NormalizeOrder
