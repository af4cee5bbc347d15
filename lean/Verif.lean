import Verif.Lemmas.AlOptions
import Verif.Lemmas.Atomic
import Verif.Lemmas.AugLag
import Verif.Lemmas.AugLagConvex
import Verif.Lemmas.AugLagDirect
import Verif.Lemmas.AugLagResult
import Verif.Lemmas.CholUpdate
import Verif.Lemmas.ClosedLoop
import Verif.Lemmas.Collocation
import Verif.Lemmas.CollocationExact
import Verif.Lemmas.CollocationFeasible
import Verif.Lemmas.CollocationScheme
import Verif.Lemmas.Colouring
import Verif.Lemmas.Controls
import Verif.Lemmas.ConvexDirect
import Verif.Lemmas.ConvexLocal
import Verif.Lemmas.ConvexShots
import Verif.Lemmas.Copy
import Verif.Lemmas.DataCopy
import Verif.Lemmas.DataCopyCalls
import Verif.Lemmas.DataFrame
import Verif.Lemmas.DataSet
import Verif.Lemmas.DeepCopy
import Verif.Lemmas.Dict
import Verif.Lemmas.Diff
import Verif.Lemmas.Direct
import Verif.Lemmas.DirectCommon
import Verif.Lemmas.DirectScheme
import Verif.Lemmas.DirectSolution
import Verif.Lemmas.DistAL
import Verif.Lemmas.DistPrepare
import Verif.Lemmas.DistSolve
import Verif.Lemmas.ExactTrajectory
import Verif.Lemmas.Expansion
import Verif.Lemmas.Expm
import Verif.Lemmas.Export
import Verif.Lemmas.Expr
import Verif.Lemmas.Gauss
import Verif.Lemmas.Indirect
import Verif.Lemmas.IndirectOptimal
import Verif.Lemmas.IntegOptions
import Verif.Lemmas.Intermediary
import Verif.Lemmas.Kalman
import Verif.Lemmas.Layout
import Verif.Lemmas.LayoutCreate
import Verif.Lemmas.LayoutGuess
import Verif.Lemmas.Merge
import Verif.Lemmas.MethodCtor
import Verif.Lemmas.Mpc
import Verif.Lemmas.MpcMethods
import Verif.Lemmas.NetDescent
import Verif.Lemmas.NetInitial
import Verif.Lemmas.NetJoint
import Verif.Lemmas.NetOptimum
import Verif.Lemmas.NetProblem
import Verif.Lemmas.Network
import Verif.Lemmas.NetworkIter
import Verif.Lemmas.NetworkModel
import Verif.Lemmas.Nlp
import Verif.Lemmas.NodeData
import Verif.Lemmas.NuUpdate
import Verif.Lemmas.Ocp
import Verif.Lemmas.OptResult
import Verif.Lemmas.OwnShots
import Verif.Lemmas.OwnSolution
import Verif.Lemmas.Pce
import Verif.Lemmas.Pickling
import Verif.Lemmas.Plant
import Verif.Lemmas.Poly
import Verif.Lemmas.PolyDecision
import Verif.Lemmas.ProblemScope
import Verif.Lemmas.Py
import Verif.Lemmas.Relax
import Verif.Lemmas.RelaxDecision
import Verif.Lemmas.RelaxDirect
import Verif.Lemmas.RelaxOptimal
import Verif.Lemmas.RelaxTransfer
import Verif.Lemmas.RelaxWellPosed
import Verif.Lemmas.Replace
import Verif.Lemmas.ResultVectors
import Verif.Lemmas.Revise
import Verif.Lemmas.Scope
import Verif.Lemmas.Session
import Verif.Lemmas.SessionDeclared
import Verif.Lemmas.ShootIndirect
import Verif.Lemmas.Shooting
import Verif.Lemmas.ShotSolution
import Verif.Lemmas.SimGuess
import Verif.Lemmas.Simulate
import Verif.Lemmas.SolveAugLag
import Verif.Lemmas.SolveDirect
import Verif.Lemmas.SolveDirectRun
import Verif.Lemmas.SolveIndirect
import Verif.Lemmas.SolveShootIndirect
import Verif.Lemmas.SolveShootingRun
import Verif.Lemmas.SolverOptions
import Verif.Lemmas.Stochastic
import Verif.Lemmas.Sufficient
import Verif.Lemmas.SystemModel
import Verif.Lemmas.Transcribe
import Verif.Lemmas.TranscribeIndirect
import Verif.Lemmas.TranscribeShooting
import Verif.Lemmas.Vectors
import Verif.Model.AlOptions
import Verif.Model.AlgVar
import Verif.Model.AugLag
import Verif.Model.AugLagResult
import Verif.Model.Blocks
import Verif.Model.CholUpdate
import Verif.Model.Collocation
import Verif.Model.Copy
import Verif.Model.Dae
import Verif.Model.DataCopy
import Verif.Model.DataFrame
import Verif.Model.DataSet
import Verif.Model.DeepCopy
import Verif.Model.Dict
import Verif.Model.Diff
import Verif.Model.Direct
import Verif.Model.DistAL
import Verif.Model.DistPrepare
import Verif.Model.DistSolve
import Verif.Model.Equilibrium
import Verif.Model.Estimators
import Verif.Model.Expm
import Verif.Model.Export
import Verif.Model.Expr
import Verif.Model.GridCache
import Verif.Model.Indirect
import Verif.Model.IntegOptions
import Verif.Model.Intermediary
import Verif.Model.IntermediaryResult
import Verif.Model.Kalman
import Verif.Model.Layout
import Verif.Model.MethodCtor
import Verif.Model.Mpc
import Verif.Model.MpcAugLag
import Verif.Model.MpcDirect
import Verif.Model.MpcMethods
import Verif.Model.Names
import Verif.Model.NetInitial
import Verif.Model.Network
import Verif.Model.Nlp
import Verif.Model.NodeData
import Verif.Model.NuUpdate
import Verif.Model.Ocp
import Verif.Model.OcpCost
import Verif.Model.OcpSimulate
import Verif.Model.OptResult
import Verif.Model.Pce
import Verif.Model.Pickling
import Verif.Model.Plant
import Verif.Model.Poly
import Verif.Model.Py
import Verif.Model.Relax
import Verif.Model.ResultCache
import Verif.Model.ResultCheck
import Verif.Model.Saving
import Verif.Model.Session
import Verif.Model.ShootIndirect
import Verif.Model.Shooting
import Verif.Model.SimGuess
import Verif.Model.Simulate
import Verif.Model.SolveAugLag
import Verif.Model.SolveDirect
import Verif.Model.SolveIndirect
import Verif.Model.SolveShootIndirect
import Verif.Model.SolveShooting
import Verif.Model.SolverArgs
import Verif.Model.SolverOptions
import Verif.Model.Stochastic
import Verif.Model.SystemModel
import Verif.Model.Timeout
import Verif.Model.TimeoutNest
import Verif.Model.Transcribe
import Verif.Model.TranscribeIndirect
import Verif.Model.TranscribeShooting
import Verif.Model.Util
import Verif.Model.VarNames
import Verif.Props.AlOptions
import Verif.Props.AlgVar
import Verif.Props.AugLag
import Verif.Props.AugLagConvex
import Verif.Props.AugLagDirect
import Verif.Props.AugLagResult
import Verif.Props.CholUpdate
import Verif.Props.ClosedLoop
import Verif.Props.Collocation
import Verif.Props.CollocationExact
import Verif.Props.CollocationGrid
import Verif.Props.Colouring
import Verif.Props.Controls
import Verif.Props.ConvexLocal
import Verif.Props.ConvexShots
import Verif.Props.Copy
import Verif.Props.CouplingError
import Verif.Props.Dae
import Verif.Props.DataCopy
import Verif.Props.DataFrame
import Verif.Props.DataSet
import Verif.Props.DeepCopy
import Verif.Props.DiffEquations
import Verif.Props.Direct
import Verif.Props.DirectScheme
import Verif.Props.DistAL
import Verif.Props.DistPrepare
import Verif.Props.DistSolve
import Verif.Props.EquationCalls
import Verif.Props.Equilibrium
import Verif.Props.Estimators
import Verif.Props.ExactTrajectory
import Verif.Props.Expm
import Verif.Props.Export
import Verif.Props.GridCache
import Verif.Props.Indirect
import Verif.Props.IndirectOptimal
import Verif.Props.IntegOptions
import Verif.Props.Intermediary
import Verif.Props.IntermediaryResult
import Verif.Props.Kalman
import Verif.Props.LastControl
import Verif.Props.Layout
import Verif.Props.Merge
import Verif.Props.MethodCtor
import Verif.Props.Mpc
import Verif.Props.MpcAugLag
import Verif.Props.MpcDirect
import Verif.Props.MpcMethods
import Verif.Props.MpcSend
import Verif.Props.Names
import Verif.Props.NetDescent
import Verif.Props.NetEnds
import Verif.Props.NetInitial
import Verif.Props.NetJoint
import Verif.Props.NetOptimum
import Verif.Props.NetProblem
import Verif.Props.Network
import Verif.Props.NetworkModel
import Verif.Props.Nlp
import Verif.Props.NlpFeasible
import Verif.Props.NlpSolver
import Verif.Props.NodeData
import Verif.Props.NuUpdate
import Verif.Props.OcpBounds
import Verif.Props.OcpConstraints
import Verif.Props.OcpCost
import Verif.Props.OcpCostState
import Verif.Props.OcpGuesses
import Verif.Props.OcpIndices
import Verif.Props.OcpMerge
import Verif.Props.OcpSimulate
import Verif.Props.OcpSizes
import Verif.Props.OdeVector
import Verif.Props.OptParameters
import Verif.Props.OptResult
import Verif.Props.Pce
import Verif.Props.PceKalman
import Verif.Props.Pickling
import Verif.Props.Plant
import Verif.Props.Poly
import Verif.Props.ProblemScope
import Verif.Props.Relax
import Verif.Props.RelaxOptimal
import Verif.Props.Removal
import Verif.Props.Replace
import Verif.Props.ResultCache
import Verif.Props.ResultCheck
import Verif.Props.Revise
import Verif.Props.Saving
import Verif.Props.Session
import Verif.Props.ShootIndirect
import Verif.Props.Shooting
import Verif.Props.SimGuess
import Verif.Props.Simulate
import Verif.Props.SolveAugLag
import Verif.Props.SolveDirect
import Verif.Props.SolveIndirect
import Verif.Props.SolveShootIndirect
import Verif.Props.SolveShooting
import Verif.Props.SolverArgs
import Verif.Props.SolverOptions
import Verif.Props.States
import Verif.Props.Stochastic
import Verif.Props.Sufficient
import Verif.Props.Theta
import Verif.Props.TimeConversion
import Verif.Props.Timeout
import Verif.Props.TimeoutNest
import Verif.Props.Transcribe
import Verif.Props.TranscribeIndirect
import Verif.Props.TranscribeShooting
import Verif.Props.TunedIndirect
import Verif.Props.Util
import Verif.Props.VarNames
import Verif.Props.WeightsReuse
import Verif.Spec.AlOptions
import Verif.Spec.AlgVar
import Verif.Spec.AugLag
import Verif.Spec.AugLagConvex
import Verif.Spec.AugLagDirect
import Verif.Spec.AugLagResult
import Verif.Spec.Calls
import Verif.Spec.CholUpdate
import Verif.Spec.ClosedLoop
import Verif.Spec.Collocation
import Verif.Spec.CollocationExact
import Verif.Spec.ConvexDirect
import Verif.Spec.ConvexLocal
import Verif.Spec.ConvexShots
import Verif.Spec.CouplingError
import Verif.Spec.DataCopy
import Verif.Spec.DataFrame
import Verif.Spec.DataSet
import Verif.Spec.DeepCopy
import Verif.Spec.Diff
import Verif.Spec.Direct
import Verif.Spec.DirectScheme
import Verif.Spec.DistAL
import Verif.Spec.DistPrepare
import Verif.Spec.DistSolve
import Verif.Spec.Equations
import Verif.Spec.Equilibrium
import Verif.Spec.ExactTrajectory
import Verif.Spec.Expm
import Verif.Spec.Export
import Verif.Spec.Indirect
import Verif.Spec.IndirectOptimal
import Verif.Spec.IntegOptions
import Verif.Spec.Intermediary
import Verif.Spec.IntermediaryResult
import Verif.Spec.Kalman
import Verif.Spec.Layout
import Verif.Spec.Merge
import Verif.Spec.MethodCtor
import Verif.Spec.Mpc
import Verif.Spec.MpcDirect
import Verif.Spec.MpcMethods
import Verif.Spec.NetDescent
import Verif.Spec.NetEnds
import Verif.Spec.NetInitial
import Verif.Spec.NetJoint
import Verif.Spec.NetOptimum
import Verif.Spec.NetProblem
import Verif.Spec.Network
import Verif.Spec.Nlp
import Verif.Spec.NodeData
import Verif.Spec.NuUpdate
import Verif.Spec.Ocp
import Verif.Spec.OptResult
import Verif.Spec.Pce
import Verif.Spec.Pickling
import Verif.Spec.Plant
import Verif.Spec.ProblemScope
import Verif.Spec.Relax
import Verif.Spec.RelaxOptimal
import Verif.Spec.ResultCheck
import Verif.Spec.Revise
import Verif.Spec.Scope
import Verif.Spec.Session
import Verif.Spec.ShootIndirect
import Verif.Spec.Shooting
import Verif.Spec.SimGuess
import Verif.Spec.SolveAugLag
import Verif.Spec.SolveDirect
import Verif.Spec.SolveIndirect
import Verif.Spec.SolveShootIndirect
import Verif.Spec.SolveShooting
import Verif.Spec.SolverArgs
import Verif.Spec.SolverOptions
import Verif.Spec.Stochastic
import Verif.Spec.Sufficient
import Verif.Spec.Transcribe
import Verif.Spec.TranscribeIndirect
import Verif.Spec.TranscribeShooting
import Verif.Spec.Vectors
