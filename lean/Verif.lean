import Verif.Props.Reorder
import Verif.Props.Labels
import Verif.Props.Layers
import Verif.Props.Dict
import Verif.Props.Copy
import Verif.Props.Sampling
import Verif.Props.LabelTable
import Verif.Props.Standardize
import Verif.Props.Preprocessing
import Verif.Props.Generator
import Verif.Props.Noise
import Verif.Props.Reflectivity
import Verif.Props.Flux
import Verif.Props.Simulate
import Verif.Props.SldProfile
import Verif.Props.Interpolation
import Verif.Props.Footprint
import Verif.Props.Scans
import Verif.Props.SpecFile
import Verif.Props.Loaders
import Verif.Props.Fio
import Verif.Props.P08
import Verif.Props.Rescaler
import Verif.Props.Prediction
import Verif.Props.FileNames
import Verif.Props.H5
import Verif.Props.H5Load
import Verif.Props.TrainedModel
import Verif.Props.CurveError
import Verif.Props.CurveFitter
import Verif.Props.CurveFitterCases
import Verif.Props.Polish
import Verif.Props.Results
import Verif.Props.Fitters
import Verif.Props.FitterCases
import Verif.Props.Images
import Verif.Props.ImageOrder
import Verif.Props.Combine
import Verif.Props.CalcQ
import Verif.Props.Trainer
import Verif.Props.TrainerCases
import Verif.Props.FioInfo
import Verif.Props.Refine
import Verif.Props.Peaks
import Verif.Props.Compare
import Verif.Props.ScanSeries
import Verif.Props.ResultProfiles
import Verif.Props.Networks
import Verif.Props.TrainingFiles
import Verif.Props.FioHeader
import Verif.Props.Plots
import Verif.Props.Fits
import Verif.Props.ResultPlots
import Verif.Props.Passive
import Verif.Props.Loss
import Verif.Props.Printing
import Verif.Props.Gaussian
import Verif.Props.Continuity
import Verif.Props.Limits
import Verif.Props.ClosedLoop
import Verif.Props.Independent
import Verif.Props.FitSimulator
import Verif.Props.ScanMotors
import Verif.Props.Detectors
import Verif.Props.Words
import Verif.Props.Parratt
import Verif.Props.Thick
import Verif.Props.Counts
import Verif.Props.LoadedFit
import Verif.Props.Seeds
import Verif.Props.RefineUndone
import Verif.Props.FittedCurve
import Verif.Props.Growing
import Verif.Props.CodeFit
import Verif.Props.Rounded
import Verif.Props.GrowingFits
import Verif.Props.Chance
import Verif.Props.NoiseChance
import Verif.Props.LabelLaw
import Verif.Props.Exchange
import Verif.Props.Tail
import Verif.Props.Epochs
import Verif.Props.ErrorKinds
import Verif.Props.Support
import Verif.Props.Ambiguity
import Verif.Props.TestSet
import Verif.Props.Learnable
import Verif.Props.Calls
import Verif.Props.Lookup
import Verif.Props.Identify
import Verif.Props.Film
import Verif.Props.Kinematic
import Verif.Props.Density
import Verif.Props.Withheld
import Verif.Props.RoundedCounts
import Verif.Props.DefaultSupport
import Verif.Props.Irreducible
import Verif.Props.OnSubstrate
import Verif.Props.Distinct
import Verif.Props.BatchSize
import Verif.Props.Falling
import Verif.Props.Recover
import Verif.Props.Fringes
import Verif.Props.TrainerRecover
import Verif.Props.Mirror
import Verif.Props.SampleCalls
import Verif.Props.RoughTail
import Verif.Props.LeastRough
import Verif.Props.RoughSpan
import Verif.Props.RoughFilm
import Verif.Props.SmoothSurface
import Verif.Props.BuriedInterface
import Verif.Props.RoughLearnable
import Verif.Props.Exchanged
import Verif.Props.SurfaceLearnable
import Verif.Props.BareLearnable
import Verif.Props.BuriedLearnable
import Verif.Audit
