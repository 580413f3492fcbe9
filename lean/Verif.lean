import Verif.Examples.Film
import Verif.Examples.Handed
import Verif.Examples.Littrow
import Verif.Examples.LittrowModes
import Verif.Examples.LittrowRun
import Verif.Examples.LossyColumns
import Verif.Examples.Normal
import Verif.Examples.OneOrder
import Verif.Examples.Planar
import Verif.Examples.Polarised
import Verif.Examples.QuarterWave
import Verif.Examples.Run
import Verif.Examples.Scalar
import Verif.Examples.Slab
import Verif.Examples.Solve
import Verif.Examples.Square
import Verif.Examples.TurnedRows
import Verif.Examples.TwoOrders
import Verif.Model.Amplitudes
import Verif.Model.Blocks
import Verif.Model.Config
import Verif.Model.Excitation
import Verif.Model.FieldGrid
import Verif.Model.Filter
import Verif.Model.Fourier
import Verif.Model.Generators
import Verif.Model.Geometry
import Verif.Model.Helpers
import Verif.Model.Lattice
import Verif.Model.Layer
import Verif.Model.NewtonCG
import Verif.Model.Opt
import Verif.Model.Optimize
import Verif.Model.Orders
import Verif.Model.Parallel
import Verif.Model.Pattern
import Verif.Model.Plot
import Verif.Model.Prelude
import Verif.Model.SMatrix
import Verif.Model.Sample
import Verif.Model.Sim
import Verif.Model.Stress
import Verif.Model.Tangent
import Verif.Proofs.Absorbing
import Verif.Proofs.AbsorbingMedium
import Verif.Proofs.AbsorbingStack
import Verif.Proofs.AbsorbingTotal
import Verif.Proofs.Absorption
import Verif.Proofs.Alike
import Verif.Proofs.AllForms
import Verif.Proofs.AllWaves
import Verif.Proofs.Amplitudes
import Verif.Proofs.Blocks
import Verif.Proofs.Border
import Verif.Proofs.Circular
import Verif.Proofs.Classical
import Verif.Proofs.ClassicalRun
import Verif.Proofs.ComplexOrders
import Verif.Proofs.Config
import Verif.Proofs.Copies
import Verif.Proofs.Csqrt
import Verif.Proofs.Denser
import Verif.Proofs.DenserBuild
import Verif.Proofs.Embedded
import Verif.Proofs.EmbeddedInit
import Verif.Proofs.EmbeddedSim
import Verif.Proofs.Energy
import Verif.Proofs.EnergyEnds
import Verif.Proofs.EnergyMedium
import Verif.Proofs.EnergyStack
import Verif.Proofs.EnergyVectors
import Verif.Proofs.Eval
import Verif.Proofs.FieldEqs
import Verif.Proofs.Fields
import Verif.Proofs.Filter
import Verif.Proofs.FluxBalance
import Verif.Proofs.Fourier
import Verif.Proofs.Full
import Verif.Proofs.Gauge
import Verif.Proofs.GaugeSim
import Verif.Proofs.GeneratorOrders
import Verif.Proofs.Generators
import Verif.Proofs.GeneratorsMoved
import Verif.Proofs.Geometry
import Verif.Proofs.GratingMatrix
import Verif.Proofs.GratingModes
import Verif.Proofs.Guided
import Verif.Proofs.GuidedRun
import Verif.Proofs.Inverse4
import Verif.Proofs.Isolated
import Verif.Proofs.LastLayer
import Verif.Proofs.Lattice
import Verif.Proofs.Layer
import Verif.Proofs.Magnetic
import Verif.Proofs.Medium
import Verif.Proofs.Moved
import Verif.Proofs.MovedInit
import Verif.Proofs.MovedLayers
import Verif.Proofs.MovedSim
import Verif.Proofs.NewtonCG
import Verif.Proofs.Opt
import Verif.Proofs.Optimize
import Verif.Proofs.Orders
import Verif.Proofs.Orders2
import Verif.Proofs.Parallel
import Verif.Proofs.ParamFormula
import Verif.Proofs.ParamGrid
import Verif.Proofs.ParamInit
import Verif.Proofs.ParamMedium
import Verif.Proofs.ParamSmooth
import Verif.Proofs.Parameters
import Verif.Proofs.ParametersRun
import Verif.Proofs.Pixelated
import Verif.Proofs.Planar
import Verif.Proofs.PlanarField
import Verif.Proofs.PlanarRun
import Verif.Proofs.PlanarTotal
import Verif.Proofs.Plasmon
import Verif.Proofs.Plot
import Verif.Proofs.Profile
import Verif.Proofs.ProfileCore
import Verif.Proofs.ProfileInit
import Verif.Proofs.ProfileSim
import Verif.Proofs.Propagate
import Verif.Proofs.Reciprocity
import Verif.Proofs.ReciprocityFields
import Verif.Proofs.ReciprocityInit
import Verif.Proofs.ReciprocityPairs
import Verif.Proofs.ReciprocitySim
import Verif.Proofs.ReciprocityStack
import Verif.Proofs.ReciprocityWaves
import Verif.Proofs.Regauge
import Verif.Proofs.Reversed
import Verif.Proofs.Rewave
import Verif.Proofs.SMatrix
import Verif.Proofs.SMatrix2
import Verif.Proofs.Sample
import Verif.Proofs.ScaledOrders
import Verif.Proofs.ScaledSim
import Verif.Proofs.Shared
import Verif.Proofs.Sim
import Verif.Proofs.SimCalls
import Verif.Proofs.SimInv
import Verif.Proofs.SimRel
import Verif.Proofs.Similar
import Verif.Proofs.SimilarInit
import Verif.Proofs.SimilarRun
import Verif.Proofs.SimilarSim
import Verif.Proofs.Smooth
import Verif.Proofs.SolveTotal
import Verif.Proofs.SolveTotalVectors
import Verif.Proofs.Solved
import Verif.Proofs.Stress
import Verif.Proofs.Superpose
import Verif.Proofs.Thick
import Verif.Proofs.Tiled
import Verif.Proofs.Total
import Verif.Proofs.UnitCell
import Verif.Proofs.ZeroVectors
import Verif.Props.Absorbing
import Verif.Props.Absorption
import Verif.Props.AnyVectors
import Verif.Props.Area
import Verif.Props.Blocks
import Verif.Props.CircularMetric
import Verif.Props.Classical
import Verif.Props.Coefficients
import Verif.Props.Complex
import Verif.Props.Config
import Verif.Props.Constitutive
import Verif.Props.Denser
import Verif.Props.DepthPower
import Verif.Props.Energy
import Verif.Props.EnergyVectors
import Verif.Props.Excitation
import Verif.Props.FabryPerot
import Verif.Props.FieldGrid
import Verif.Props.Fields
import Verif.Props.Filter
import Verif.Props.FluxBalance
import Verif.Props.FluxField
import Verif.Props.Fourier
import Verif.Props.FreeSpace
import Verif.Props.Frustrated
import Verif.Props.Full
import Verif.Props.Gauge
import Verif.Props.GeneratorOrders
import Verif.Props.Generators
import Verif.Props.GeneratorsBorder
import Verif.Props.GeneratorsMoved
import Verif.Props.GeneratorsOpt
import Verif.Props.GeneratorsSmooth
import Verif.Props.GeneratorsWeak
import Verif.Props.Geometry
import Verif.Props.Grating
import Verif.Props.GridPower
import Verif.Props.Guided
import Verif.Props.HalfWave
import Verif.Props.LastLayer
import Verif.Props.Lattice
import Verif.Props.Layer
import Verif.Props.LayerObject
import Verif.Props.Magnetic
import Verif.Props.Mirror
import Verif.Props.MirrorJones
import Verif.Props.Opt
import Verif.Props.OptLengths
import Verif.Props.OptNewton
import Verif.Props.OptRuns
import Verif.Props.Optimize
import Verif.Props.Orders
import Verif.Props.Parallel
import Verif.Props.Parameters
import Verif.Props.Pattern
import Verif.Props.Planar
import Verif.Props.Plasmon
import Verif.Props.Plot
import Verif.Props.Polarisation
import Verif.Props.PowerOfTwo
import Verif.Props.Profile
import Verif.Props.RealSpace
import Verif.Props.Reciprocity
import Verif.Props.ReciprocityVectors
import Verif.Props.Reversed
import Verif.Props.Rotation
import Verif.Props.SMatrix
import Verif.Props.SMatrixCalls
import Verif.Props.SameWave
import Verif.Props.Sample
import Verif.Props.Shared
import Verif.Props.SilentOrders
import Verif.Props.Sim
import Verif.Props.Smooth
import Verif.Props.Solvable
import Verif.Props.Stress
import Verif.Props.StressVaries
import Verif.Props.Supercell
import Verif.Props.Superstrate
import Verif.Props.Symmetry
import Verif.Props.Symmetry2
import Verif.Props.Tangent
import Verif.Props.TensorShapes
import Verif.Props.Tensors
import Verif.Props.Thick
import Verif.Props.ThickAbsorbing
import Verif.Props.ThicknessPeriod
import Verif.Props.ThinLayer
import Verif.Props.UnitCell
import Verif.Props.VectorCases
import Verif.Props.ZeroVectors
import Verif.Spec.Absorbing
import Verif.Spec.Absorption
import Verif.Spec.Calls
import Verif.Spec.Classical
import Verif.Spec.Coefficients
import Verif.Spec.Config
import Verif.Spec.Constitutive
import Verif.Spec.Denser
import Verif.Spec.Energy
import Verif.Spec.FieldGrid
import Verif.Spec.Fields
import Verif.Spec.Fourier
import Verif.Spec.Full
import Verif.Spec.Geometry
import Verif.Spec.Grating
import Verif.Spec.GratingEquation
import Verif.Spec.Guided
import Verif.Spec.HalfWave
import Verif.Spec.Magnetic
import Verif.Spec.Maxwell
import Verif.Spec.Mirror
import Verif.Spec.Opt
import Verif.Spec.Optimize
import Verif.Spec.Parameters
import Verif.Spec.Pixelated
import Verif.Spec.Planar
import Verif.Spec.Plot
import Verif.Spec.PowerOfTwo
import Verif.Spec.Profile
import Verif.Spec.RealSpace
import Verif.Spec.Reciprocity
import Verif.Spec.Results
import Verif.Spec.Reversed
import Verif.Spec.Sample
import Verif.Spec.Smooth
import Verif.Spec.Solvable
import Verif.Spec.Sort
import Verif.Spec.Stress
import Verif.Spec.Supercell
import Verif.Spec.Symmetry
import Verif.Spec.Thick
import Verif.Spec.Truncation
import Verif.Spec.UnitCell
import Verif.Spec.Vectors
import Verif.Spec.Wave
