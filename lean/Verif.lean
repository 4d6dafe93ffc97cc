import Verif.Props.Spin
import Verif.Props.Angles
import Verif.Props.Decay
import Verif.Props.Registry
import Verif.Props.Builder
import Verif.Props.Amplitude
import Verif.Props.Reference
import Verif.Props.Dynamics
import Verif.Props.LineshapeBuilder
import Verif.Props.Qrules
import Verif.Props.QrulesConvert
import Verif.Props.QrulesMinLs
import Verif.Props.QrulesPermute
import Verif.Props.QrulesCommute
import Verif.Props.QrulesContainers
import Verif.Props.QrulesDecay
import Verif.Props.Serialization
import Verif.Props.SerialRecoupling
import Verif.Props.SerialAmplitude
import Verif.Props.SerialComplete
import Verif.Props.SerialDynamics
import Verif.Props.SerialErrors
import Verif.Props.Io
import Verif.Props.Cached
import Verif.Props.CachedConcurrent
import Verif.Props.Closure
import Verif.Props.RegisteredDynamics
import Verif.Props.SerialClosure
import Verif.Props.Superposition
import Verif.Props.Recoupling
import Verif.Props.WeightNames
import Verif.Props.HelicityErrors
import Verif.Props.Warnings
import Verif.Props.Swap
import Verif.Props.Couplings
import Verif.Props.Exchange
import Verif.Props.Division
import Verif.Props.SerialDivision
import Verif.Props.Relabel
import Verif.Props.Units
import Verif.Props.Pipeline
import Verif.Props.PipelineOrder
import Verif.Props.SerialWeights
import Verif.Props.SerialRelabel
import Verif.Props.FrontEnds
import Verif.Props.FrontEndsSpin
import Verif.Props.LatexChain
import Verif.Props.IoExpression
import Verif.Props.Parity
import Verif.Props.Projection
import Verif.Props.Unitary
import Verif.Props.ParityCouplings
import Verif.Props.HelicityBasis
import Verif.Props.Ordering
import Verif.Props.OpticalTheorem
import Verif.Props.SerialReference
import Verif.Props.SerialUnits
import Verif.Props.SerialVertices
import Verif.Props.Text
import Verif.Props.DalitzCoordinate
import Verif.Props.Smooth
import Verif.Props.SerialSmooth
import Verif.Props.Interference
import Verif.Props.SerialInterference
import Verif.Props.LatexRepr
import Verif.Props.QuantumNumbers
import Verif.Props.Bound
import Verif.Props.SerialBound
import Verif.Props.SerialProjection
import Verif.Props.RecouplingErrors
import Verif.Props.Conjugation
import Verif.Props.Collinear
import Verif.Props.Region
import Verif.Props.Closed
import Verif.Props.Legendre
import Verif.Props.Lc2ppiK
import Verif.Props.QrulesIterables
import Verif.Props.StateIds
import Verif.Props.DocsBuilders
import Verif.Props.DocsLatex
import Verif.Props.SubIntensity
import Verif.Props.SubIntensities
import Verif.Props.Redundancy
import Verif.Props.DalitzGrid
import Verif.Props.FreeParameters
import Verif.Props.PlotLabels
import Verif.Props.SerialGrid
import Verif.Props.TwoVariables
import Verif.Props.TwoVariablesDocs
import Verif.Props.DistinctDecays
import Verif.Props.Simplify
import Verif.Conformance.Serialization
import Verif.Conformance.Decay
