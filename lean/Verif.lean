import Verif.Props.Sampling
import Verif.Props.Snapshots
import Verif.Props.Blocks
import Verif.Props.LinAlg
import Verif.Props.BlockMat
import Verif.Props.GramSchmidt
import Verif.Props.Hdf5
import Verif.Props.Topology
import Verif.Props.SubMesh
import Verif.Props.Ports
import Verif.Props.Boundary
import Verif.Props.Flux
import Verif.Props.TimeLoop
import Verif.Props.Smoother
import Verif.Props.RomHandler
import Verif.Props.InterfaceForm
import Verif.Props.CompSetup
import Verif.Props.RomAssembly
import Verif.Props.RomOperator
import Verif.Props.Options
import Verif.Props.Timer
import Verif.Props.Params
import Verif.Props.Convection
import Verif.Props.Eqp
import Verif.Props.EqpItf
import Verif.Props.Training
import Verif.Props.EqpStore
import Verif.Props.EqpComp
import Verif.Props.LaxF
import Verif.Props.LaxFFast
import Verif.Props.TensorRom
import Verif.Props.EqpRom
import Verif.Props.Unsteady
import Verif.Props.UnsteadyRom
import Verif.Props.Online
import Verif.Props.SteadyNS
import Verif.Props.Penalty
import Verif.Props.Temam
import Verif.Props.Loads
import Verif.Props.PortFile
import Verif.Props.RomElems
import Verif.Props.SingleRun
import Verif.Props.Supremizer
import Verif.Props.BasisNumbers
import Verif.Props.SampleConfig
import Verif.Props.TrainRom
import Verif.Props.Optimizer
import Verif.Props.TrainItf
import Verif.Props.TrainPorts
import Verif.Props.CompLoad
import Verif.Props.Pipeline
import Verif.Props.NsPipeline
import Verif.Props.FomSolve
import Verif.Props.RomSolve
import Verif.Props.Visual
import Verif.Props.AdvDiff
import Verif.Props.ElastRom
import Verif.Props.Decompose
import Verif.Props.Terms
import Verif.Props.Problems
import Verif.Props.ProblemFns
import Verif.Props.BlockProj
import Verif.Props.EqpPipeline
import Verif.Props.GenConf
import Verif.Props.GenLattice
import Verif.Props.BoxConfig
import Verif.Props.Channel
import Verif.Props.Divide
import Verif.Props.DivideRhs
import Verif.Props.ConfigOps
import Verif.Props.DivideNS
import Verif.Props.DivideJac
import Verif.Props.DivideDeriv
import Verif.Props.DivideFlow
import Verif.Props.DivideElast
import Verif.Props.DivideSolve
import Verif.Props.DivideSteady
import Verif.Props.DivideNewton
import Verif.Props.Cfl
import Verif.Props.EqpCoords
import Verif.Props.PrintEqp
import Verif.Props.SchurSolve
import Verif.Props.PreItf
import Verif.Props.PreItfLax
