import Verif.Axioms
import Verif.Lemmas.HitNames
import Verif.Lemmas.Hitcore
import Verif.Lemmas.Preserves
import Verif.Lemmas.TextIO
import Verif.Lemmas.WeightContext
import Verif.Model.Amplitude
import Verif.Model.BatchQueue
import Verif.Model.BoundingEllipse
import Verif.Model.Bunch
import Verif.Model.BunchCopy
import Verif.Model.BunchList
import Verif.Model.BunchMore
import Verif.Model.BunchRead
import Verif.Model.BunchWrite
import Verif.Model.Bunchcore
import Verif.Model.ClosedOrbit
import Verif.Model.Common
import Verif.Model.Decoupled
import Verif.Model.DecoupledEmittance
import Verif.Model.EllipseFunction
import Verif.Model.FFTTune
import Verif.Model.Figures
import Verif.Model.FileConvert
import Verif.Model.FitEllipse
import Verif.Model.Generator
import Verif.Model.Grid
import Verif.Model.Hist
import Verif.Model.Hit
import Verif.Model.HitCheck
import Verif.Model.HitShell
import Verif.Model.HitTransform
import Verif.Model.Hitcore
import Verif.Model.HullContent
import Verif.Model.IndexByPower
import Verif.Model.MausRoot
import Verif.Model.MausTracking
import Verif.Model.MausTree
import Verif.Model.MultiMaus
import Verif.Model.Multipole
import Verif.Model.Newton
import Verif.Model.NodeProcess
import Verif.Model.Optics
import Verif.Model.PeakErrors
import Verif.Model.PeakFinder
import Verif.Model.Plots
import Verif.Model.Process
import Verif.Model.Py
import Verif.Model.RefCount
import Verif.Model.RefinePeak
import Verif.Model.Reload
import Verif.Model.RunTracking
import Verif.Model.Scan
import Verif.Model.SmartPointer
import Verif.Model.Smoothing
import Verif.Model.Subprocess
import Verif.Model.Substitute
import Verif.Model.TextIO
import Verif.Model.Tracking
import Verif.Model.Tune
import Verif.Model.Voronoi
import Verif.Model.WeightContext
import Verif.Props.Amplitude
import Verif.Props.BatchQueue
import Verif.Props.BoundingEllipse
import Verif.Props.BunchCopy
import Verif.Props.BunchCov
import Verif.Props.BunchCut
import Verif.Props.BunchDerived
import Verif.Props.BunchHistogram
import Verif.Props.BunchInternal
import Verif.Props.BunchList
import Verif.Props.BunchMoments
import Verif.Props.BunchPeriod
import Verif.Props.BunchRead
import Verif.Props.BunchRelative
import Verif.Props.BunchShell
import Verif.Props.BunchSigma
import Verif.Props.BunchSplit
import Verif.Props.BunchTransform
import Verif.Props.BunchTransmission
import Verif.Props.BunchWrite
import Verif.Props.ClosedOrbit
import Verif.Props.ClosedOrbitConverges
import Verif.Props.ClosedOrbitScan
import Verif.Props.Common
import Verif.Props.CutSequences
import Verif.Props.CutTransport
import Verif.Props.Decoupled
import Verif.Props.DecoupledEmittance
import Verif.Props.EllipseFunction
import Verif.Props.FFTTune
import Verif.Props.FFTTuneSignal
import Verif.Props.Figures
import Verif.Props.FileConvert
import Verif.Props.FitEllipse
import Verif.Props.GaussianDensity
import Verif.Props.Generator
import Verif.Props.Grid
import Verif.Props.Hist
import Verif.Props.HitCheck
import Verif.Props.HitCopy
import Verif.Props.HitShell
import Verif.Props.HitStorage
import Verif.Props.HitTransform
import Verif.Props.HullContent
import Verif.Props.IndexByPower
import Verif.Props.Invariants
import Verif.Props.JoinedEmittance
import Verif.Props.MassShell
import Verif.Props.Matching
import Verif.Props.MausRead
import Verif.Props.MausRoot
import Verif.Props.MausTracking
import Verif.Props.MausTree
import Verif.Props.MinMax
import Verif.Props.MultiMaus
import Verif.Props.Multipole
import Verif.Props.Newton
import Verif.Props.NodeProcess
import Verif.Props.Optics
import Verif.Props.PeakErrors
import Verif.Props.PeakFinder
import Verif.Props.PidCharge
import Verif.Props.PlaneEmittance
import Verif.Props.Plots
import Verif.Props.Process
import Verif.Props.RefCount
import Verif.Props.RefinePeak
import Verif.Props.Refused
import Verif.Props.Refused2
import Verif.Props.Reload
import Verif.Props.RunTracking
import Verif.Props.Scan
import Verif.Props.SmartPointer
import Verif.Props.Smoothing
import Verif.Props.Spec
import Verif.Props.Subprocess
import Verif.Props.Substitute
import Verif.Props.TextFile
import Verif.Props.TextIO
import Verif.Props.TextUser
import Verif.Props.Tracking
import Verif.Props.Tune
import Verif.Props.TuneBound
import Verif.Props.TuneExact
import Verif.Props.Voronoi
import Verif.Props.WeightContext
