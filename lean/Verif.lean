import Verif.Lemmas.Away
import Verif.Lemmas.Basic
import Verif.Lemmas.BesselDeriv
import Verif.Lemmas.BesselLow
import Verif.Lemmas.BesselPoly
import Verif.Lemmas.BesselSmall
import Verif.Lemmas.BesselTwo
import Verif.Lemmas.BesselValues
import Verif.Lemmas.BranchAccuracy
import Verif.Lemmas.ColsFrame
import Verif.Lemmas.ColsRun
import Verif.Lemmas.Convergence
import Verif.Lemmas.EarlyStop
import Verif.Lemmas.EccOrbit
import Verif.Lemmas.EccSteps
import Verif.Lemmas.EvolCirc
import Verif.Lemmas.EvolEcc
import Verif.Lemmas.EvolOutput
import Verif.Lemmas.EvolveEach
import Verif.Lemmas.EvolveNew
import Verif.Lemmas.EvolveRun
import Verif.Lemmas.EvolveSteps
import Verif.Lemmas.ExactOdeint
import Verif.Lemmas.Example
import Verif.Lemmas.FitAccuracy
import Verif.Lemmas.FitOrder
import Verif.Lemmas.Float
import Verif.Lemmas.FloatOps
import Verif.Lemmas.FloatSnr
import Verif.Lemmas.FloatUtils
import Verif.Lemmas.Grid
import Verif.Lemmas.GridCurve
import Verif.Lemmas.Grows
import Verif.Lemmas.Harmonics
import Verif.Lemmas.Index
import Verif.Lemmas.Interp
import Verif.Lemmas.Interrupted
import Verif.Lemmas.KarnesisSlope
import Verif.Lemmas.Keeps
import Verif.Lemmas.KeplerBessel
import Verif.Lemmas.KeplerMap
import Verif.Lemmas.KeplerPower
import Verif.Lemmas.KeplerStrain
import Verif.Lemmas.KeplerSum
import Verif.Lemmas.LateMerger
import Verif.Lemmas.LisaExtremes
import Verif.Lemmas.LisaSlope
import Verif.Lemmas.MandelFit
import Verif.Lemmas.MergeTime
import Verif.Lemmas.MergerAccuracy
import Verif.Lemmas.MergerOrder
import Verif.Lemmas.Messages
import Verif.Lemmas.Peters
import Verif.Lemmas.Pointwise
import Verif.Lemmas.PolyCheck
import Verif.Lemmas.Psd
import Verif.Lemmas.Reclass
import Verif.Lemmas.Redshift
import Verif.Lemmas.Response
import Verif.Lemmas.ResponseAverage
import Verif.Lemmas.ScCurve
import Verif.Lemmas.Shared
import Verif.Lemmas.Sizes
import Verif.Lemmas.SizesRun
import Verif.Lemmas.Slope
import Verif.Lemmas.Snr
import Verif.Lemmas.SnrAgain
import Verif.Lemmas.SnrAll
import Verif.Lemmas.SnrChanged
import Verif.Lemmas.SnrEccEvolving
import Verif.Lemmas.SnrEvolving
import Verif.Lemmas.SnrExists
import Verif.Lemmas.SnrHalf
import Verif.Lemmas.SnrOf
import Verif.Lemmas.SnrOne
import Verif.Lemmas.SnrPointwise
import Verif.Lemmas.SnrScale
import Verif.Lemmas.SnrTwin
import Verif.Lemmas.SourceCalc
import Verif.Lemmas.SourceEach
import Verif.Lemmas.SourceEcc
import Verif.Lemmas.SourceFile
import Verif.Lemmas.SourceG
import Verif.Lemmas.SourceInv
import Verif.Lemmas.SourceLoad
import Verif.Lemmas.SourceMask
import Verif.Lemmas.SourceOps
import Verif.Lemmas.SourceReach
import Verif.Lemmas.SourceRows
import Verif.Lemmas.SourceSnr
import Verif.Lemmas.SourceState
import Verif.Lemmas.StatSnr
import Verif.Lemmas.Steps
import Verif.Lemmas.Strain
import Verif.Lemmas.Stricter
import Verif.Lemmas.Trapezoid
import Verif.Lemmas.Truncation
import Verif.Lemmas.Twin
import Verif.Lemmas.Units
import Verif.Lemmas.UnitsErrors
import Verif.Lemmas.UnitsEvol
import Verif.Lemmas.UnitsPsd
import Verif.Lemmas.UnitsRun
import Verif.Lemmas.UnitsSnr
import Verif.Lemmas.UnitsSource
import Verif.Lemmas.UnitsTrack
import Verif.Lemmas.UnitsUtils
import Verif.Lemmas.Verbose
import Verif.Lemmas.VisSource
import Verif.Lemmas.Visualisation
import Verif.Model.Consts
import Verif.Model.EnsureArray
import Verif.Model.Evol
import Verif.Model.EvolArrays
import Verif.Model.Float
import Verif.Model.Harmonics
import Verif.Model.Iterate
import Verif.Model.Keywords
import Verif.Model.ListIndex
import Verif.Model.Logging
import Verif.Model.Messages
import Verif.Model.Psd
import Verif.Model.ScParams
import Verif.Model.Shared
import Verif.Model.Snr
import Verif.Model.Source
import Verif.Model.SourceFile
import Verif.Model.Strain
import Verif.Model.Units
import Verif.Model.UnitsSnr
import Verif.Model.UnitsSource
import Verif.Model.Utils
import Verif.Model.Verbose
import Verif.Model.Visualisation
import Verif.Props.Agree
import Verif.Props.Cached
import Verif.Props.Classes
import Verif.Props.Coarse
import Verif.Props.Construct
import Verif.Props.Convergence
import Verif.Props.Crossing
import Verif.Props.CrossingThird
import Verif.Props.DocTransition
import Verif.Props.EccEndToEnd
import Verif.Props.EccObserve
import Verif.Props.EccSteps
import Verif.Props.EccStrain
import Verif.Props.EndToEnd
import Verif.Props.Energy
import Verif.Props.EnsureArray
import Verif.Props.EvolArrays
import Verif.Props.EvolCirc
import Verif.Props.EvolEcc
import Verif.Props.EvolInput
import Verif.Props.Harmonics
import Verif.Props.Heavier
import Verif.Props.Interpolation
import Verif.Props.Iterate
import Verif.Props.ListIndex
import Verif.Props.Logging
import Verif.Props.Longer
import Verif.Props.MassRatio
import Verif.Props.MergerAccuracy
import Verif.Props.MergerOrder
import Verif.Props.Messages
import Verif.Props.NearlyCircular
import Verif.Props.NoiseRegular
import Verif.Props.Orientation
import Verif.Props.PetersG
import Verif.Props.PetersSum
import Verif.Props.Psd
import Verif.Props.PsdTianqin
import Verif.Props.Quieter
import Verif.Props.Redshift
import Verif.Props.Rescaled
import Verif.Props.Response
import Verif.Props.Rounding
import Verif.Props.RoundingSnr
import Verif.Props.Session
import Verif.Props.Shared
import Verif.Props.SnrCircEvolving
import Verif.Props.SnrEccEvolving
import Verif.Props.SnrStationary
import Verif.Props.SourceArrays
import Verif.Props.SourceCopies
import Verif.Props.SourceDerived
import Verif.Props.SourceEvolve
import Verif.Props.SourceFile
import Verif.Props.SourceIndex
import Verif.Props.SourceMasks
import Verif.Props.SourceParams
import Verif.Props.SourceParts
import Verif.Props.SourceRepeat
import Verif.Props.SourceSnr
import Verif.Props.SourceWith
import Verif.Props.Stationarity
import Verif.Props.StationarySnr
import Verif.Props.Steps
import Verif.Props.Strain
import Verif.Props.Stricter
import Verif.Props.TolSnr
import Verif.Props.Transition
import Verif.Props.Truncation
import Verif.Props.Units
import Verif.Props.UnitsSnr
import Verif.Props.UnitsSource
import Verif.Props.Utils
import Verif.Props.Verbose
import Verif.Props.Verification
import Verif.Props.VisSource
import Verif.Props.Visualisation
import Verif.Props.White
import Verif.Py.Basic
import Verif.Py.Float
import Verif.Py.Heap
import Verif.Py.Iterate
import Verif.Py.Numpy
import Verif.Py.Units
import Verif.Spec.AllHarmonics
import Verif.Spec.Arrays
import Verif.Spec.Cached
import Verif.Spec.Chirp
import Verif.Spec.Classes
import Verif.Spec.Construct
import Verif.Spec.Convergence
import Verif.Spec.EccEvolve
import Verif.Spec.EccOrbit
import Verif.Spec.EndToEnd
import Verif.Spec.EnsureArray
import Verif.Spec.Evolve
import Verif.Spec.Grid
import Verif.Spec.Harmonics
import Verif.Spec.Independent
import Verif.Spec.Index
import Verif.Spec.Integrator
import Verif.Spec.Iterate
import Verif.Spec.Logging
import Verif.Spec.Longer
import Verif.Spec.Masks
import Verif.Spec.Merger
import Verif.Spec.Messages
import Verif.Spec.Orbit
import Verif.Spec.Orientation
import Verif.Spec.Peters
import Verif.Spec.Power
import Verif.Spec.Psd
import Verif.Spec.Redshift
import Verif.Spec.Rescaled
import Verif.Spec.Response
import Verif.Spec.Rounding
import Verif.Spec.Rows
import Verif.Spec.ScCurve
import Verif.Spec.Session
import Verif.Spec.Shared
import Verif.Spec.Sizes
import Verif.Spec.Slope
import Verif.Spec.Snr
import Verif.Spec.SnrOf
import Verif.Spec.Source
import Verif.Spec.SourceFile
import Verif.Spec.Strain
import Verif.Spec.Total
import Verif.Spec.Units
import Verif.Spec.UnitsSnr
import Verif.Spec.UnitsSource
import Verif.Spec.Verbose
import Verif.Spec.Visualisation
