import Verif.Model.AD
import Verif.Model.ANA
import Verif.Model.ARA
import Verif.Model.ARA16
import Verif.Model.ARAMach
import Verif.Model.ARASub
import Verif.Model.AdjList
import Verif.Model.BFS
import Verif.Model.Basic
import Verif.Model.Bucket
import Verif.Model.CList
import Verif.Model.CfgFile
import Verif.Model.DistTransform
import Verif.Model.EvalPolicy
import Verif.Model.Fifo
import Verif.Model.Footprint
import Verif.Model.GridBucket
import Verif.Model.GridSearch
import Verif.Model.Heap
import Verif.Model.HeapApi
import Verif.Model.Key
import Verif.Model.LazyARA
import Verif.Model.MDP
import Verif.Model.MHA
import Verif.Model.MLev
import Verif.Model.MLevPlan
import Verif.Model.Nav2D
import Verif.Model.Nav2DAgain
import Verif.Model.Nav2DPlan
import Verif.Model.Nav2DRand
import Verif.Model.Nav2DRobot
import Verif.Model.Nav2DRobotANA
import Verif.Model.Nav2DUU
import Verif.Model.PlannerTable
import Verif.Model.RStar
import Verif.Model.RobArm
import Verif.Model.RobArmPlan
import Verif.Model.RobArmRand
import Verif.Model.Scan
import Verif.Model.SetActions
import Verif.Model.SlidingBucket
import Verif.Model.StateTable
import Verif.Model.Utils
import Verif.Model.VI
import Verif.Model.XYT
import Verif.Model.XYTAgain
import Verif.Model.XYTAngles
import Verif.Model.XYTDefault
import Verif.Model.XYTFile
import Verif.Model.XYTHeur
import Verif.Model.XYTInit
import Verif.Model.XYTLazy
import Verif.Model.XYTPath
import Verif.Model.XYTPlan
import Verif.Model.XYTPrim
import Verif.Proofs.AD
import Verif.Proofs.ADApi
import Verif.Proofs.ADChange
import Verif.Proofs.ADCore
import Verif.Proofs.ADLoop
import Verif.Proofs.ADPath
import Verif.Proofs.ADReinit
import Verif.Proofs.ADRun
import Verif.Proofs.ADSearch
import Verif.Proofs.ANA
import Verif.Proofs.ANAApi
import Verif.Proofs.ANALoop
import Verif.Proofs.ANAPass
import Verif.Proofs.ANAPath
import Verif.Proofs.ANASearch
import Verif.Proofs.ARA
import Verif.Proofs.ARA16
import Verif.Proofs.ARAApi
import Verif.Proofs.ARALoop
import Verif.Proofs.ARAMach
import Verif.Proofs.ARAMono
import Verif.Proofs.ARAPath
import Verif.Proofs.ARASearch
import Verif.Proofs.ARASub
import Verif.Proofs.AdjList
import Verif.Proofs.BFS
import Verif.Proofs.Bresenham
import Verif.Proofs.Bucket
import Verif.Proofs.CList
import Verif.Proofs.DistTransform
import Verif.Proofs.EvalPolicy
import Verif.Proofs.EvalPolicyPc
import Verif.Proofs.Fifo
import Verif.Proofs.Footprint
import Verif.Proofs.GridBucket
import Verif.Proofs.GridBucketLoop
import Verif.Proofs.GridSearch
import Verif.Proofs.GridSearchLoop
import Verif.Proofs.GridSearchResult
import Verif.Proofs.GridSearchSpec
import Verif.Proofs.Heap
import Verif.Proofs.HeapMem
import Verif.Proofs.HeapOps
import Verif.Proofs.HeapRefine
import Verif.Proofs.LazyARA
import Verif.Proofs.LazyARAEval
import Verif.Proofs.LazyARAFin
import Verif.Proofs.LazyARAHist
import Verif.Proofs.LazyARALoop
import Verif.Proofs.LazyARAOps
import Verif.Proofs.LazyARAPass
import Verif.Proofs.LazyARARun
import Verif.Proofs.LazyARASearch
import Verif.Proofs.LazyARATerm
import Verif.Proofs.LazyQueue
import Verif.Proofs.LazyQueuePerm
import Verif.Proofs.ListAux
import Verif.Proofs.MHA
import Verif.Proofs.MHAApi
import Verif.Proofs.MHAReplan
import Verif.Proofs.MLevAct
import Verif.Proofs.MLevEdge
import Verif.Proofs.MLevInv
import Verif.Proofs.Nav2D
import Verif.Proofs.Nav2DGeom
import Verif.Proofs.Nav2DHeur
import Verif.Proofs.Nav2DRobot
import Verif.Proofs.Nav2DRobotLoop
import Verif.Proofs.PlannerTable
import Verif.Proofs.Polygon
import Verif.Proofs.RStarExc
import Verif.Proofs.RStarHigh
import Verif.Proofs.RStarLocal
import Verif.Proofs.RStarPath
import Verif.Proofs.RobArmGeom
import Verif.Proofs.RobArmHeur
import Verif.Proofs.RobArmSucc
import Verif.Proofs.Scan
import Verif.Proofs.SlidingBucket
import Verif.Proofs.StateTable
import Verif.Proofs.VI
import Verif.Proofs.VIAny
import Verif.Proofs.VIConv
import Verif.Proofs.VIPass
import Verif.Proofs.VIRun
import Verif.Proofs.XYT
import Verif.Proofs.XYTEdge
import Verif.Proofs.XYTHeur
import Verif.Proofs.XYTHeurGeom
import Verif.Proofs.XYTInv
import Verif.Proofs.XYTTrack
import Verif.Props.AD
import Verif.Props.ADEx
import Verif.Props.ADNav2D
import Verif.Props.ANA
import Verif.Props.ANAEx
import Verif.Props.ARA
import Verif.Props.ARA16
import Verif.Props.ARABlocked
import Verif.Props.ARAMach
import Verif.Props.ARASub
import Verif.Props.AdjList
import Verif.Props.Agree
import Verif.Props.AgreeEx
import Verif.Props.Angles
import Verif.Props.BFS
import Verif.Props.Bucket
import Verif.Props.CfgFile
import Verif.Props.CfgFilePlan
import Verif.Props.CfgFileX
import Verif.Props.Containers
import Verif.Props.DistTransform
import Verif.Props.EvalPolicy
import Verif.Props.EvalPolicyEx
import Verif.Props.EvalPolicyPc
import Verif.Props.Footprint
import Verif.Props.FootprintEx
import Verif.Props.GridBucket
import Verif.Props.GridBucketEx
import Verif.Props.GridSearch
import Verif.Props.GridSearchEx
import Verif.Props.Heap
import Verif.Props.LazyARA
import Verif.Props.LazyARAEx
import Verif.Props.LazyARATerm
import Verif.Props.MDP
import Verif.Props.MHA
import Verif.Props.MLev
import Verif.Props.MLevARA
import Verif.Props.MLevEx
import Verif.Props.Nav2D
import Verif.Props.Nav2DARA
import Verif.Props.Nav2DAgain
import Verif.Props.Nav2DAgainEx
import Verif.Props.Nav2DMore
import Verif.Props.Nav2DPlanners
import Verif.Props.Nav2DPlannersEx
import Verif.Props.Nav2DRand
import Verif.Props.Nav2DRobot
import Verif.Props.Nav2DRobotANA
import Verif.Props.Nav2DRobotEx
import Verif.Props.Nav2DShrink
import Verif.Props.Nav2DShrinkPreds
import Verif.Props.Nav2DUU
import Verif.Props.Nav2DUUFile
import Verif.Props.PlannerTable
import Verif.Props.Polygon
import Verif.Props.PrimFile
import Verif.Props.PrimFileEx
import Verif.Props.RStar
import Verif.Props.RStarEx
import Verif.Props.RobArm
import Verif.Props.RobArmARA
import Verif.Props.RobArmEx
import Verif.Props.RobArmMore
import Verif.Props.RobArmRand
import Verif.Props.RobArmRandEx
import Verif.Props.RobArmTrig
import Verif.Props.SlidingBucket
import Verif.Props.Utils
import Verif.Props.VI
import Verif.Props.VIAny
import Verif.Props.VIConv
import Verif.Props.VIConvEx
import Verif.Props.VIEx
import Verif.Props.VIGraphs
import Verif.Props.VIGraphsEx
import Verif.Props.XYT
import Verif.Props.XYTARA
import Verif.Props.XYTARAEx
import Verif.Props.XYTAgain
import Verif.Props.XYTAgainEx
import Verif.Props.XYTAngles
import Verif.Props.XYTAnglesCost
import Verif.Props.XYTAnglesEx
import Verif.Props.XYTAnglesFile
import Verif.Props.XYTAnglesInit
import Verif.Props.XYTAnglesPose
import Verif.Props.XYTDefault
import Verif.Props.XYTDefaultBlocked
import Verif.Props.XYTDefaultEx
import Verif.Props.XYTDefaultHist
import Verif.Props.XYTDefaultMore
import Verif.Props.XYTDefaultPlan
import Verif.Props.XYTEx
import Verif.Props.XYTFile
import Verif.Props.XYTFileEx
import Verif.Props.XYTHeur
import Verif.Props.XYTHeurEx
import Verif.Props.XYTInit
import Verif.Props.XYTInitEx
import Verif.Props.XYTLazy
import Verif.Props.XYTLazyEx
import Verif.Props.XYTMHA
import Verif.Props.XYTMHAEx
import Verif.Props.XYTMore
import Verif.Props.XYTPath
import Verif.Props.XYTPathEx
import Verif.Props.XYTPlan
import Verif.Props.XYTPlanEx
import Verif.Props.XYTPrim
import Verif.Props.XYTPrimEx
import Verif.Spec.AD
import Verif.Spec.ANA
import Verif.Spec.ARAScratch
import Verif.Spec.AdjList
import Verif.Spec.Agree
import Verif.Spec.BFS
import Verif.Spec.CList
import Verif.Spec.Counters
import Verif.Spec.DistTransform
import Verif.Spec.EvalPolicy
import Verif.Spec.Fifo
import Verif.Spec.Files
import Verif.Spec.Footprint
import Verif.Spec.Graph
import Verif.Spec.GridSearch
import Verif.Spec.Heap
import Verif.Spec.LazyARA
import Verif.Spec.MDP
import Verif.Spec.MHA
import Verif.Spec.MLev
import Verif.Spec.Nav2D
import Verif.Spec.Nav2DRobot
import Verif.Spec.NavUU
import Verif.Spec.Planner
import Verif.Spec.PlannerTable
import Verif.Spec.Polygon
import Verif.Spec.RStar
import Verif.Spec.RobArm
import Verif.Spec.RobArmRand
import Verif.Spec.SlidingBucket
import Verif.Spec.Utils
import Verif.Spec.VI
import Verif.Spec.XYT
import Verif.Spec.XYTAngles
import Verif.Spec.XYTDefault
import Verif.Spec.XYTHeur
import Verif.Spec.XYTPath
import Verif.Spec.XYTPlan
import Verif.Spec.XYTPrim
