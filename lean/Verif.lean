import Verif.Props.Containers
import Verif.Props.Products
import Verif.Props.Elementwise
import Verif.Props.Select
import Verif.Props.General
import Verif.Props.Shapes
import Verif.Props.Backends
import Verif.Props.BackendsActual
import Verif.Props.Algebra
import Verif.Props.Utils
import Verif.Props.Bfs
import Verif.Props.Sssp
import Verif.Props.FilteredActual
import Verif.Props.AgreePaths
import Verif.Props.Apsp
import Verif.Props.Triangle
import Verif.Props.KTruss
import Verif.Props.Mis
import Verif.Props.Metrics
import Verif.Props.BfsBatch
import Verif.Props.Mst
import Verif.Props.MaxFlow
import Verif.Props.FordFulk
import Verif.Props.KTrussInc
import Verif.Props.DeltaStep
import Verif.Props.AppendixBfs
import Verif.Model.AlgebraBits
import Verif.Props.AlgebraBits
import Verif.Spec.Betweenness
import Verif.Lemmas.Betweenness
import Verif.Lemmas.BetweennessSteps
import Verif.Lemmas.BetweennessWeighted
import Verif.Lemmas.BetweennessInt
import Verif.Model.Betweenness
import Verif.Lemmas.BetweennessCalls
import Verif.Lemmas.BetweennessBatch
import Verif.Props.Betweenness
import Verif.Model.BetweennessV
import Verif.Lemmas.BetweennessV
import Verif.Props.BetweennessV
import Verif.Props.BetweennessApp
import Verif.Props.BetweennessInt
import Verif.Spec.EdgeBetweenness
import Verif.Lemmas.EdgeBetweenness
import Verif.Model.EdgeBetweenness
import Verif.Lemmas.EdgeBcCalls
import Verif.Props.EdgeBetweenness
import Verif.Props.EdgeBetweennessLoops
import Verif.Spec.Normalize
import Verif.Model.Normalize
import Verif.Props.Normalize
import Verif.Spec.PageRank
import Verif.Model.PageRank
import Verif.Lemmas.PageRank
import Verif.Lemmas.PageRankMath
import Verif.Props.PageRank
import Verif.Spec.Cluster
import Verif.Model.Cluster
import Verif.Lemmas.Cluster
import Verif.Props.Cluster
import Verif.Props.ClusterAssign
import Verif.Props.ClusterExact
import Verif.Spec.Markov
import Verif.Model.Markov
import Verif.Lemmas.Markov
import Verif.Props.Markov
import Verif.Props.MarkovAll
import Verif.Spec.Louvain
import Verif.Model.Louvain
import Verif.Lemmas.Louvain
import Verif.Lemmas.LouvainStep
import Verif.Props.Louvain
import Verif.Props.LouvainAssign
import Verif.Spec.Program
import Verif.Model.Program
import Verif.Lemmas.Program
import Verif.Lemmas.ProgramStmt
import Verif.Props.Program
import Verif.Model.Indices
import Verif.Props.Indices
import Verif.Props.IndicesColumns
import Verif.Spec.Safety
import Verif.Lemmas.Safety
import Verif.Lemmas.SafetyOps
import Verif.Lemmas.SafetyStmt
import Verif.Props.Safety
import Verif.Props.SafetyOpt
import Verif.Spec.Laws
import Verif.Lemmas.Laws
import Verif.Props.Laws
import Verif.Props.LawsEwise
import Verif.Props.LawsMask
import Verif.Props.LawsKron
import Verif.Props.LawsSelect
import Verif.Props.Tuples
import Verif.Props.Print
import Verif.Props.Threads
import Verif.Props.TriangleDemo
import Verif.Props.Agree
import Verif.Props.ProgramOpt
import Verif.Props.ProgramOver
import Verif.Props.ProgramLiteral
import Verif.Spec.ProgramLiteral
import Verif.Lemmas.ProgramOver
import Verif.Spec.ProgramOver
import Verif.Props.AlgoOpt
import Verif.Props.Metamorph
import Verif.Props.TrussDemo
import Verif.Props.BetweennessLaws
import Verif.Props.LouvainDemo
import Verif.Props.PageRankLaws
import Verif.Props.PageRankAll
import Verif.Props.MstLaws
import Verif.Props.MetricLaws
import Verif.Spec.Component
import Verif.Props.ClusterLaws
import Verif.Props.AssignSort
import Verif.Props.MisLaws
import Verif.Props.AssignConst
import Verif.Props.AssignWide
import Verif.Props.Miscount
import Verif.Spec.Effects
import Verif.Spec.EffectsFrontend
import Verif.Model.Effects
import Verif.Lemmas.Effects
import Verif.Lemmas.EffectsPure
import Verif.Lemmas.EffectsCalls
import Verif.Lemmas.EffectsMat
import Verif.Lemmas.EffectsFrontend
import Verif.Lemmas.EffectsSum
import Verif.Lemmas.EffectsState
import Verif.Lemmas.EffectsUpdate
import Verif.Props.Effects
import Verif.Props.EffectsCalls
import Verif.Props.EffectsUpdate
import Verif.Lemmas.EffectsKron
import Verif.Props.EffectsAccum
import Verif.Props.EffectsBuild
import Verif.Props.EffectsLines
import Verif.Props.BfsWaveActual
import Verif.Props.EffectsActual
import Verif.Spec.Refuse
import Verif.Lemmas.Refuse
import Verif.Lemmas.RefuseMore
import Verif.Props.Refuse
import Verif.Props.RefuseMore
import Verif.Props.RefuseWrong
import Verif.Model.Alloc
import Verif.Spec.Alloc
import Verif.Lemmas.Alloc
import Verif.Lemmas.AllocMat
import Verif.Lemmas.AllocWrite
import Verif.Lemmas.AllocVec
import Verif.Props.Alloc
import Verif.Props.AllocWrong
import Verif.Spec.Overcount
import Verif.Lemmas.Overcount
import Verif.Lemmas.OvercountWrite
import Verif.Lemmas.OvercountMethods
import Verif.Props.Overcount
import Verif.Spec.OvercountOpt
import Verif.Lemmas.OvercountOpt
import Verif.Props.OvercountOpt
import Verif.Model.AllocOpt
import Verif.Spec.AllocOpt
import Verif.Lemmas.AllocOpt
import Verif.Props.AllocOpt
import Verif.Spec.Retry
import Verif.Props.Retry
import Verif.Props.RetryWrong
import Verif.Props.RetryOpt
import Verif.Model.AllocProgram
import Verif.Spec.AllocProgram
import Verif.Lemmas.AllocProgram
import Verif.Lemmas.AllocProgramStmt
import Verif.Props.AllocProgram
import Verif.Spec.Numbering
import Verif.Props.NumberingLaws
import Verif.Props.NumberingLouvain
import Verif.Props.EdgeFlow
import Verif.Spec.Blocks
import Verif.Props.Blocks
import Verif.Props.BuildOrder
import Verif.Spec.Views
import Verif.Props.ViewCopy
import Verif.Spec.Related
import Verif.Props.Related
import Verif.Spec.Powers
import Verif.Props.Powers
import Verif.Model.VecArrays
import Verif.Props.VecArrays
import Verif.Spec.Closure
import Verif.Props.Closure
import Verif.Model.Homework
import Verif.Props.Homework
import Verif.Model.SsspDemo
import Verif.Props.SsspDemo
import Verif.Model.BfsDemo
import Verif.Props.BfsDemo
import Verif.Model.LevelDemo
import Verif.Props.LevelDemo
import Verif.Model.MxmHomework
import Verif.Props.MxmHomework
import Verif.Model.AppendixDemo
import Verif.Props.AppendixDemo
import Verif.Model.PeerDemo
import Verif.Props.PeerDemo
import Verif.Model.PeerKarate
import Verif.Props.PeerKarate
import Verif.Model.LouvainKarate
import Verif.Props.LouvainKarate
