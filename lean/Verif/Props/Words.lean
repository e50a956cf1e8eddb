import Verif.Model.CurveFitter
import Verif.Model.Fio
import Verif.Model.Fits
import Verif.Model.Fitters
import Verif.Model.H5
import Verif.Model.Helpers
import Verif.Model.Images
import Verif.Model.Noise
import Verif.Model.P08
import Verif.Model.Peaks
import Verif.Model.Plots
import Verif.Model.Preprocessing
import Verif.Model.ResultPlots
import Verif.Model.Scans
import Verif.Model.Simulate
import Verif.Model.SpecFile
import Verif.Model.TrainedModel
import Verif.Model.TrainingFiles
import Verif.Model.Trainer

/-!
# The words that the statements use

The theorems about files, scans and plots name keys, tags and extensions by constants of the model. Here each constant
is fixed to the text that the code uses, so that a wrong text in the model does not pass unnoticed.
-/

namespace Verif.Props
open Verif.Py Verif.Model

/-- The texts of `Model/CurveFitter`. -/
theorem words_curveFitter :
    thicknessS = "thickness".toList ∧ roughnessS = "roughness".toList :=
  ⟨rfl, rfl⟩

/-- The texts of `Model/Fio`. -/
theorem words_fio :
    roiWord = "roi".toList ∧ ubWord = "ubmatrix".toList ∧ signalWord = "signalcounter".toList ∧ scanWord = "scan".toList ∧
    meshWord = "mesh".toList ∧ colWord = "Col ".toList ∧ fioExt = ".fio".toList :=
  ⟨rfl, rfl, rfl, rfl, rfl, rfl, rfl⟩

/-- The texts of `Model/Fits`. -/
theorem words_fits :
    dataLabel = "data".toList ∧ fitLabel = "fit".toList ∧ startLabel = "start".toList ∧ beforeLabel = "before_fit".toList ∧
    logLabel = "log_fit".toList ∧ voigtType = "voigt".toList :=
  ⟨rfl, rfl, rfl, rfl, rfl, rfl⟩

/-- The texts of `Model/Fitters`. -/
theorem words_fitters :
    omS = "om".toList ∧ ttS = "tt".toList ∧ FioFitter.p100k = "p100k".toList ∧
    defaultFioImport.ttCounter = "tt".toList ∧ defaultFioImport.roiName = "p100k_roi1".toList ∧
    defaultFioImport.attenuator = some "atten_position".toList ∧ defaultFioImport.division = none :=
  ⟨rfl, rfl, rfl, rfl, rfl, rfl, rfl⟩

/-- The texts of `Model/H5`. -/
theorem words_h5 :
    extH5 = ".h5".toList ∧ extHdf5 = ".hdf5".toList ∧ nQ = "q_values".toList ∧ nInfo = "info".toList ∧
    nReflectivity = "reflectivity".toList ∧ nLabels = "labels".toList ∧ nShotNoise = "shot_noise".toList ∧
    nShotNoiseLevels = "shot_noise_levels".toList ∧ nBackground = "background".toList ∧
    nBackgroundLevels = "background_levels".toList ∧ kNumberOfLayers = "number_of_layers".toList ∧
    kNumCurves = "num_curves".toList ∧ kQUnit = "q_unit".toList ∧ kThicknessUnit = "thickness_unit".toList ∧
    kRoughnessUnit = "roughness_uni".toList ∧ kSldUnit = "sld_unit".toList ∧ sufMin = "_min".toList ∧ sufMax = "_max".toList :=
  ⟨rfl, rfl, rfl, rfl, rfl, rfl, rfl, rfl, rfl, rfl, rfl, rfl, rfl, rfl, rfl, rfl, rfl, rfl⟩

/-- The texts of `Model/Helpers`. -/
theorem words_helpers :
    thicknessLine = "\tthickness: ".toList ∧ roughnessLine = "\troughness: ".toList ∧ sldLine = "\tsld: ".toList ∧
    lengthUnitText = " [Å]".toList ∧ sldUnitText = " [1e-6 1/Å^2]".toList ∧ substrateText = " (substrate):".toList ∧
    ambientText = " (ambient):".toList :=
  ⟨rfl, rfl, rfl, rfl, rfl, rfl, rfl⟩

/-- The texts of `Model/Images`. -/
theorem words_images :
    lambdaKey = "lambda".toList ∧ p100kKey = "p100k".toList ∧ eigerKey = "eiger".toList ∧ mythenKey = "mythen".toList ∧
    indexSuffix = "_index".toList ∧ tifExt = ".tif".toList ∧ cbfExt = ".cbf".toList ∧ rawExt = ".raw".toList ∧
    ttKey = "tt".toList ∧ omKey = "om".toList ∧ qKey = "q".toList ∧ fitRoi = "fit_roi".toList ∧ bckInt = "bck_int".toList :=
  ⟨rfl, rfl, rfl, rfl, rfl, rfl, rfl, rfl, rfl, rfl, rfl, rfl, rfl⟩

/-- The texts of `Model/Noise`. -/
theorem words_noise :
    singleS = "single".toList ∧ batchS = "batch".toList :=
  ⟨rfl, rfl⟩

/-- The texts of `Model/P08`. -/
theorem words_p08 :
    allKey = "all".toList ∧ attenKey = "atten_position".toList ∧ customRoi = "custom_roi".toList ∧
    energyKey = "energyfmb".toList :=
  ⟨rfl, rfl, rfl, rfl⟩

/-- The texts of `Model/Peaks`. -/
theorem words_peaks :
    gaussType = "gauss".toList ∧ lorentzType = "lorentzian".toList :=
  ⟨rfl, rfl⟩

/-- The texts of `Model/Plots`. -/
theorem words_plots :
    backgroundKey = "background".toList :=
  rfl

/-- The texts of `Model/Preprocessing`. -/
theorem words_preprocessing :
    minToZeroS = "min_to_zero".toList ∧ absoluteMaxS = "absolute_max".toList :=
  ⟨rfl, rfl⟩

/-- The texts of `Model/ResultPlots`. -/
theorem words_resultPlots :
    sldS = "sld".toList ∧ timeS = "time".toList ∧ lengthUnit = "Å".toList ∧ noteSldUnit = "x 10$^{-6}$ Å$^{-2}$".toList ∧
    axisSldUnit = "10$^{-6}$ Å$^{-2}$".toList :=
  ⟨rfl, rfl, rfl, rfl, rfl⟩

/-- The texts of `Model/Scans`. -/
theorem words_scans :
    gaussS = "gauss".toList ∧ boxS = "box".toList ∧ maxS = "max".toList ∧ firstS = "first".toList :=
  ⟨rfl, rfl, rfl, rfl⟩

/-- The texts of `Model/Simulate`. -/
theorem words_simulate :
    refl1dS = "refl1d".toList ∧ builtinS = "builtin".toList :=
  ⟨rfl, rfl⟩

/-- The texts of `Model/SpecFile`. -/
theorem words_specFile :
    tagS = "#S".toList ∧ tagD = "#D".toList ∧ tagL = "#L".toList :=
  ⟨rfl, rfl, rfl⟩

/-- The texts of `Model/TrainedModel`. -/
theorem words_trainedModel :
    nSample = "sample".toList ∧ nMean = "ip_mean".toList ∧ nStd = "ip_std".toList :=
  ⟨rfl, rfl, rfl⟩

/-- The texts of `Model/TrainingFiles`. -/
theorem words_trainingFiles :
    modelsS = "models".toList ∧ graphsS = "tb_graphs".toList ∧ h5S = ".h5".toList :=
  ⟨rfl, rfl, rfl⟩

/-- The numbers that are used when no others are given: the distribution of random labels (data_generator.py l.45-46), the
ranges of noise and scaling (training.py l.29-30). -/
theorem default_numbers :
    defaultDist.kind = .bolstered ∧ defaultDist.fraction = some (15 / 100) ∧ defaultDist.width = some (1 / 10) ∧
    noiseRange = (9 / 10, 11 / 10) ∧ scalingRange = (9 / 10, 11 / 10) := by
  refine ⟨rfl, ?_, ?_, ?_, ?_⟩ <;> norm_num [defaultDist, noiseRange, scalingRange]

end Verif.Props
