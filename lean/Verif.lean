import Verif.Props.Selector
import Verif.Props.Pattern
import Verif.Props.Subgroup
import Verif.Props.QualityCompute
import Verif.Props.Quality
import Verif.Props.QualityReal
import Verif.Props.SubgroupList
import Verif.Props.VerticalList
import Verif.Props.FPTreeNode
import Verif.Props.SDMap
import Verif.Props.FPTree
import Verif.Props.SDMapStar
import Verif.Props.SDMapStarLimit
import Verif.Props.VLSD
import Verif.Props.BSD
import Verif.Props.Refit
import Verif.Props.Configs
import Verif.Props.Credibility
import Verif.Props.Contribution
import Verif.Props.IDSD
import Verif.Props.Categories
import Verif.Props.QFinder
import Verif.Props.MDL
import Verif.Props.ListMiner
import Verif.Props.Files
import Verif.Props.SDIGA
import Verif.Props.GLM
import Verif.Props.ListFile
import Verif.Props.Registry
import Verif.Props.Exact
import Verif.Props.Agree
import Verif.Props.Reading
import Verif.Props.Alias
import Verif.Props.OutFile
import Verif.Props.Float64
import Verif.Props.FloatOrder
import Verif.Props.FloatRuns
import Verif.Props.Binomial
import Verif.Props.ResultFiles
import Verif.Props.ResultFiles2
import Verif.Props.FPHeap
import Verif.Props.Printing
import Verif.Props.RowLabels
import Verif.Props.Pools
import Verif.Props.Ctors
import Verif.Props.World
import Verif.Props.SpecialFloats
import Verif.Props.FitArgs
import Verif.Props.LabelMask
import Verif.Props.Nesting
import Verif.Props.VListAny
import Verif.Props.Shuffle
import Verif.Props.ShuffleLists
import Verif.Props.SDIGARandom
import Verif.Props.Monotone
import Verif.Props.Relabel
import Verif.Props.RelabelLists
import Verif.Props.RelabelSDIGA
import Verif.Props.RelabelQFinder
import Verif.Props.RelabelIDSD
import Verif.Props.BitsetDict
import Verif.Props.Compare
import Verif.Props.Reuse
import Verif.Props.Blanks
import Verif.Props.SortAny
import Verif.Props.Binary64
import Verif.Props.Binary64Sqrt
import Verif.Props.WorkBound
import Verif.Props.BinaryVal
import Verif.Props.FloatBinomial
import Verif.Props.FloatBinomialError
import Verif.Props.MDLKraft
import Verif.Props.FloatSDIGA
import Verif.Props.FloatLists
import Verif.Props.FloatListsError
import Verif.Props.FloatIDSD
import Verif.Props.FloatOdds
import Verif.Props.FloatQFinder
import Verif.Props.FloatMDL
import Verif.Props.Cache
import Verif.Props.DigitLimit
import Verif.Props.FloatRead
import Verif.Props.FloatReadPattern
import Verif.Props.FloatMDLMax
