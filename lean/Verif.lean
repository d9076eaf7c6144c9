import Verif.Py.Err
import Verif.Py.Dict
import Verif.Py.Index
import Verif.Model.Network
import Verif.Spec.Multigraph
import Verif.Spec.MultigraphOps
import Verif.Proofs.Network
import Verif.Proofs.Network2
import Verif.Proofs.NetworkQueries
import Verif.Model.Matrix
import Verif.Proofs.Matrix
import Verif.Props.Network
import Verif.Props.Matrix
import Verif.Model.Msgpack
import Verif.Model.NetworkX
import Verif.Proofs.NetworkX
import Verif.Props.Copy
import Verif.Props.UpdateOrder
import Verif.Props.Requests
import Verif.Props.Flags
import Verif.Model.Evolution
import Verif.Proofs.EvolutionValue
import Verif.Spec.Evolution
import Verif.Proofs.EvolutionRun
import Verif.Proofs.EvolutionPure
import Verif.Proofs.EvolutionLog
import Verif.Proofs.EvolutionTotal
import Verif.Proofs.Memo
import Verif.Proofs.EvolutionFlags
import Verif.Proofs.EvolutionRestart
import Verif.Proofs.EvolutionFlags2
import Verif.Proofs.Copy
import Verif.Props.Examples
import Verif.Props.Evolution
import Verif.Props.Memo
import Verif.Py.Repr
import Verif.Model.Rules
import Verif.Model.RuleTables
import Verif.Proofs.Digits
import Verif.Spec.Rules
import Verif.Proofs.Rules
import Verif.Props.Rules
import Verif.Spec.RuleTables
import Verif.Proofs.RuleTables
import Verif.Proofs.RuleWalk
import Verif.Props.RuleTables
import Verif.Model.Topology
import Verif.Spec.Topology
import Verif.Proofs.Topology
import Verif.Proofs.Rotation
import Verif.Proofs.Ring
import Verif.Proofs.Families
import Verif.Proofs.Grid
import Verif.Props.Topology
import Verif.Proofs.Run
import Verif.Proofs.RunPure
import Verif.Proofs.CARun
import Verif.Props.EndToEnd
import Verif.Props.Symmetry
import Verif.Model.RuleClasses
import Verif.Props.Reversible
import Verif.Proofs.Simulate
import Verif.Proofs.Async
import Verif.Props.Async
import Verif.Props.NodeOrder
import Verif.Proofs.Torus
import Verif.Model.Sandpile
import Verif.Props.Sandpile
import Verif.Model.Ctrbl
import Verif.Props.Ctrbl
import Verif.Model.Turing
import Verif.Spec.Turing
import Verif.Props.Turing
import Verif.Model.Utils
import Verif.Props.Utils
import Verif.Model.Turtle
import Verif.Props.Turtle
import Verif.Model.Hopfield
import Verif.Spec.Hopfield
import Verif.Proofs.Hopfield
import Verif.Props.Hopfield
import Verif.Model.TSP
import Verif.Spec.TSP
import Verif.Proofs.TSP
import Verif.Props.TSP
import Verif.Model.Substitution
import Verif.Spec.Substitution
import Verif.Proofs.Substitution
import Verif.Proofs.SubstitutionRun
import Verif.Props.Substitution
import Verif.Model.Wolfram
import Verif.Spec.Wolfram
import Verif.Proofs.Wolfram
import Verif.Proofs.WolframConfig
import Verif.Props.Wolfram
import Verif.Props.Analysis
import Verif.Model.Fungal
import Verif.Spec.Fungal
import Verif.Proofs.Fungal
import Verif.Props.Fungal
import Verif.Model.Lattice
import Verif.Spec.Lattice
import Verif.Proofs.Lattice
import Verif.Props.Lattice
import Verif.Props.State
import Verif.Model.Langton
import Verif.Spec.Langton
import Verif.Proofs.Langton
import Verif.Proofs.LangtonWindow
import Verif.Props.Langton
import Verif.Model.TuringPlot
import Verif.Props.TuringPlot
import Verif.Model.Hexplot
import Verif.Props.Hexplot
import Verif.Model.PlotData
import Verif.Proofs.PlotData
import Verif.Proofs.VisData
import Verif.Props.PlotData
import Verif.Props.VisData
import Verif.Model.Machines
import Verif.Spec.Machines
import Verif.Proofs.Machines
import Verif.Proofs.Pushdown
import Verif.Props.Machines
import Verif.Spec.TorusCA
import Verif.Model.Fredkin
import Verif.Proofs.TorusCA
import Verif.Proofs.Frobenius
import Verif.Proofs.Fredkin
import Verif.Props.Fredkin
import Verif.Model.Growth
import Verif.Spec.Growth
import Verif.Proofs.TopologyRun
import Verif.Proofs.Growth
import Verif.Proofs.Restricted
import Verif.Props.Growth
import Verif.Props.Restricted
import Verif.Proofs.Expand
import Verif.Proofs.ExpandStep
import Verif.Proofs.ExpandRun
import Verif.Props.Expand
import Verif.Model.Functional
import Verif.Spec.Functional
import Verif.Proofs.JointRun
import Verif.Proofs.Functional
import Verif.Proofs.FunctionalLattice
import Verif.Props.Functional
import Verif.Model.Fields
import Verif.Spec.Fields
import Verif.Proofs.Fields
import Verif.Proofs.FirstFail
import Verif.Props.Fields
import Verif.Model.Dynamics
import Verif.Spec.Dynamics
import Verif.Proofs.StaticRun
import Verif.Proofs.Dynamics
import Verif.Props.RunRows
import Verif.Props.Dynamics
import Verif.Props.Continuous
import Verif.Model.Perturb
import Verif.Spec.Perturb
import Verif.Proofs.Perturb
import Verif.Props.Perturb
import Verif.Model.Mlp
import Verif.Spec.Mlp
import Verif.Proofs.Mlp
import Verif.Props.Mlp
import Verif.Model.Swarm
import Verif.Spec.Swarm
import Verif.Proofs.InvRun
import Verif.Proofs.Swarm
import Verif.Props.Swarm
import Verif.Model.Rbm
import Verif.Spec.Rbm
import Verif.Proofs.Rbm
import Verif.Props.Rbm
import Verif.Model.Flock
import Verif.Spec.Flock
import Verif.Proofs.TopFirstRun
import Verif.Proofs.Flock
import Verif.Props.Flock
import Verif.Model.SandDrop
import Verif.Spec.SandRest
import Verif.Proofs.SandRest
import Verif.Props.SandRest
import Verif.Spec.Majority
import Verif.Proofs.Majority
import Verif.Props.Majority
import Verif.Spec.SecondOrder
import Verif.Props.SecondOrder
import Verif.Model.SubstDemos
import Verif.Spec.Morphism
import Verif.Props.SubstDemos
import Verif.Model.LSystemDemos
import Verif.Spec.Angles
import Verif.Props.LSystemDemos
import Verif.Props.LTreeDemos
import Verif.Props.MooreCurve
import Verif.Props.LSystemReal
import Verif.Spec.LifePlane
import Verif.Proofs.LifePlane
import Verif.Model.LifeDemo
import Verif.Props.LifePatterns
import Verif.Spec.AnBnCn
import Verif.Model.TuringDemos
import Verif.Proofs.Zipper
import Verif.Proofs.AbcMachine
import Verif.Proofs.AbcRuns
import Verif.Props.AnBnCn
import Verif.Spec.Line
import Verif.Model.TuringUniversal
import Verif.Proofs.Universal
import Verif.Proofs.Compress
import Verif.Props.Universal110
import Verif.Spec.Wireworld
import Verif.Model.WireDemos
import Verif.Proofs.Wireworld
import Verif.Props.Wireworld
import Verif.Spec.Sequential
import Verif.Proofs.Sequential
import Verif.Props.Sequential
import Verif.Spec.Density
import Verif.Proofs.Density
import Verif.Props.Density
import Verif.Model.Plot1D
import Verif.Spec.Plot1D
import Verif.Proofs.Plot1D
import Verif.Props.Plot1D
import Verif.Model.HexDemo
import Verif.Spec.Plane
import Verif.Spec.Outline
import Verif.Proofs.Plane
import Verif.Proofs.Outline
import Verif.Props.Plane
import Verif.Model.PlotGrid
import Verif.Spec.PlotGrid
import Verif.Proofs.PlotGrid
import Verif.Props.PlotGrid
import Verif.Spec.Elementary
import Verif.Proofs.Elementary
import Verif.Proofs.Additive
import Verif.Props.Elementary
import Verif.Model.TurtleView
import Verif.Props.TurtleView
import Verif.Model.Results
import Verif.Props.Results
import Verif.Spec.Recall
import Verif.Model.HopfieldDemo
import Verif.Props.Recall
import Verif.Model.SmallWorld
import Verif.Spec.SmallWorld
import Verif.Proofs.SmallWorld
import Verif.Props.SmallWorld
import Verif.Proofs.Information
import Verif.Props.Information
import Verif.Spec.Cycles
import Verif.Proofs.Cycles
import Verif.Props.Cycles
import Verif.Model.PerturbReal
import Verif.Spec.PerturbReal
import Verif.Proofs.PerturbReal
import Verif.Props.PerturbReal
import Verif.Props.ReversibleInj
import Verif.Model.WolframDemo
import Verif.Spec.WolframDemo
import Verif.Proofs.WolframDemo
import Verif.Props.WolframDemo
import Verif.Spec.Traffic
import Verif.Proofs.Traffic
import Verif.Props.Traffic
import Verif.Model.SubstPairs
import Verif.Spec.SubstPairs
import Verif.Proofs.SubstPairs
import Verif.Props.SubstPairs
import Verif.Model.TuringDemo
import Verif.Spec.TuringDemo
import Verif.Proofs.TuringDemo
import Verif.Props.TuringDemo
import Verif.Props.InputErrors
import Verif.Props.Errors
import Verif.Spec.LocalRuns
import Verif.Proofs.LocalRuns
import Verif.Props.LocalRuns
import Verif.Model.ReversibleDemos
import Verif.Spec.ReversibleDemos
import Verif.Proofs.ReversibleDemos
import Verif.Props.ReversibleDemos
import Verif.Props.AverageInformation
import Verif.Props.EntropyRuns
import Verif.Props.Distances
import Verif.Props.Diagonals
import Verif.Props.FlockMargins
import Verif.Model.NetworkEq
import Verif.Spec.SameGraph
import Verif.Proofs.NetworkEq
import Verif.Props.NetworkEq
import Verif.Spec.Colony
import Verif.Props.Colony
import Verif.Spec.Limit
import Verif.Props.LogisticLimit
import Verif.Spec.Motions
import Verif.Props.Motions
import Verif.Props.Eden
import Verif.Spec.Covering
import Verif.Props.Covering
import Verif.Spec.Order
import Verif.Proofs.Order
import Verif.Props.Order
import Verif.Props.Collatz
import Verif.Model.HexColours
import Verif.Props.HexColours
import Verif.Props.Upstream
import Verif.Spec.Walks
import Verif.Props.Walks
import Verif.Model.MlpOutput
import Verif.Props.MlpOutput
import Verif.Props.Exceptions
import Verif.Props.PlotGridImages
import Verif.Props.Camel
import Verif.Model.Decay
import Verif.Props.Decay
import Verif.Props.MlpPixels
import Verif.Props.HopfieldMemo
