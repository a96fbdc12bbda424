import Verif.Base.Float
import Verif.Base.Image
import Verif.Base.Nearest
import Verif.Base.NumPy
import Verif.Base.Sqrt
import Verif.Model.Approx
import Verif.Model.Canvas
import Verif.Model.Catalogs
import Verif.Model.Compound
import Verif.Model.Correction
import Verif.Model.CorrectionMore
import Verif.Model.Drawing
import Verif.Model.FitObjects
import Verif.Model.Fitting
import Verif.Model.Gaussian
import Verif.Model.GridRun
import Verif.Model.Heap
import Verif.Model.IntImages
import Verif.Model.NaNImages
import Verif.Model.Objects
import Verif.Model.Overlap
import Verif.Model.PSFChecks
import Verif.Model.PSFModel
import Verif.Model.Petrosian
import Verif.Model.PetrosianArrays
import Verif.Model.PetrosianInt
import Verif.Model.Photometry
import Verif.Model.PlotLabels
import Verif.Model.PlotLimits
import Verif.Model.Plots
import Verif.Model.Profiles
import Verif.Model.Rotate
import Verif.Model.Rounding
import Verif.Model.RoundingEvaluate
import Verif.Model.RoundingGrid
import Verif.Model.RoundingModel
import Verif.Model.RoundingPhotometry
import Verif.Model.RoundingUtils
import Verif.Model.Segmentation
import Verif.Model.SegmentationMore
import Verif.Model.SharedPsf
import Verif.Model.Simulation
import Verif.Model.Tied
import Verif.Model.Utils
import Verif.Model.UtilsMore
import Verif.Model.Wrapper
import Verif.Spec.Boxy
import Verif.Spec.Catalogs
import Verif.Spec.Drawing
import Verif.Spec.Fitting
import Verif.Spec.Galaxy
import Verif.Spec.Grid
import Verif.Spec.History
import Verif.Spec.Interp
import Verif.Spec.NaturalSort
import Verif.Spec.Noise
import Verif.Spec.PSFModel
import Verif.Spec.Petrosian
import Verif.Spec.Photometry
import Verif.Spec.Profiles
import Verif.Spec.RoundedInterp
import Verif.Spec.Rounding
import Verif.Spec.Segmentation
import Verif.Spec.SegmentationMore
import Verif.Spec.SersicFit
import Verif.Spec.Spline
import Verif.Spec.StepImage
import Verif.Spec.Tame
import Verif.Spec.Wrapper
import Verif.Lemmas.Argmin
import Verif.Lemmas.BlurredSimulation
import Verif.Lemmas.BnContinuous
import Verif.Lemmas.Correction
import Verif.Lemmas.CuspSum
import Verif.Lemmas.EllipseArea
import Verif.Lemmas.EllipseIntegral
import Verif.Lemmas.Fitting
import Verif.Lemmas.FluxRadius
import Verif.Lemmas.Fraction
import Verif.Lemmas.Galaxy
import Verif.Lemmas.GammaTail
import Verif.Lemmas.Heap
import Verif.Lemmas.Homogeneous
import Verif.Lemmas.IncGamma
import Verif.Lemmas.Interp
import Verif.Lemmas.Linear
import Verif.Lemmas.Midpoint
import Verif.Lemmas.NaturalSort
import Verif.Lemmas.Nearest
import Verif.Lemmas.Noise
import Verif.Lemmas.NumPy
import Verif.Lemmas.PSFModel
import Verif.Lemmas.PairwiseSum
import Verif.Lemmas.Petrosian
import Verif.Lemmas.PetrosianObj
import Verif.Lemmas.Photometry
import Verif.Lemmas.PlaneNoise
import Verif.Lemmas.RingPhotometry
import Verif.Lemmas.Rounding
import Verif.Lemmas.RoundingCrossing
import Verif.Lemmas.Sampled
import Verif.Lemmas.SampledNear
import Verif.Lemmas.Scale
import Verif.Lemmas.Segmentation
import Verif.Lemmas.SersicFit
import Verif.Lemmas.ShapeContinuous
import Verif.Lemmas.SigmaClip
import Verif.Lemmas.SimulationEntries
import Verif.Lemmas.SimulationLists
import Verif.Lemmas.Spline
import Verif.Lemmas.SplineBound
import Verif.Lemmas.TameCalm
import Verif.Props.ApertureArea
import Verif.Props.ApertureShapes
import Verif.Props.Approx
import Verif.Props.BlurredRecipe
import Verif.Props.Canvas
import Verif.Props.Catalogs
import Verif.Props.CompoundNames
import Verif.Props.Consistency
import Verif.Props.Correction
import Verif.Props.CorrectionCopy
import Verif.Props.CorrectionGrid
import Verif.Props.CorrectionMore
import Verif.Props.CubicRadius
import Verif.Props.Defaults
import Verif.Props.Discretisation
import Verif.Props.Drawing
import Verif.Props.EpsilonErr
import Verif.Props.FainterOutwards
import Verif.Props.FitDerived
import Verif.Props.FitExtra
import Verif.Props.FitMulti
import Verif.Props.FitMultiWindow
import Verif.Props.FitNoise
import Verif.Props.FitObjects
import Verif.Props.FitPSF
import Verif.Props.FitPSFSersic
import Verif.Props.FitPSFWindow
import Verif.Props.FitResolution
import Verif.Props.FitRobust
import Verif.Props.FitShapes
import Verif.Props.FitUnordered
import Verif.Props.Fitting
import Verif.Props.FittingMasks
import Verif.Props.FloatBits
import Verif.Props.FloatFits
import Verif.Props.FloatImages
import Verif.Props.Fraction
import Verif.Props.Gaussian
import Verif.Props.GridColumns
import Verif.Props.GridConvergence
import Verif.Props.GridRun
import Verif.Props.GridSettings
import Verif.Props.GridTruth
import Verif.Props.GrowthSteps
import Verif.Props.ImageConvergence
import Verif.Props.IntImages
import Verif.Props.ModelLight
import Verif.Props.NaNImages
import Verif.Props.NaNWindow
import Verif.Props.NaturalSort
import Verif.Props.Noise
import Verif.Props.NoisyFluxes
import Verif.Props.NoisyImage
import Verif.Props.NoisyPSF
import Verif.Props.NoisySky
import Verif.Props.OuterApertures
import Verif.Props.OutsidePhotometry
import Verif.Props.OversampleSetter
import Verif.Props.Oversampling
import Verif.Props.OversamplingExact
import Verif.Props.OversamplingWindow
import Verif.Props.PSFBlur
import Verif.Props.PSFImage
import Verif.Props.PSFModel
import Verif.Props.PSFMore
import Verif.Props.PSFNorm
import Verif.Props.PSFPhotometry
import Verif.Props.ParamContinuity
import Verif.Props.PetrosianArrays
import Verif.Props.PetrosianErrors
import Verif.Props.PetrosianFluxes
import Verif.Props.PetrosianInt
import Verif.Props.PetrosianProfile
import Verif.Props.PetrosianQueries
import Verif.Props.PetrosianRadius
import Verif.Props.PetrosianState
import Verif.Props.PetrosianUnits
import Verif.Props.Photometry
import Verif.Props.PhotometrySymmetry
import Verif.Props.PhotometryUnits
import Verif.Props.PlaneNoise
import Verif.Props.PlotLabels
import Verif.Props.PlotLimits
import Verif.Props.Plots
import Verif.Props.Profiles
import Verif.Props.PsfAngle
import Verif.Props.REpsilon
import Verif.Props.RadiusErrorCubic
import Verif.Props.RadiusErrorLinear
import Verif.Props.Recipe
import Verif.Props.RecipeFluxes
import Verif.Props.Refinement
import Verif.Props.RobustRadius
import Verif.Props.Rotate
import Verif.Props.Rounding
import Verif.Props.RoundingAttained
import Verif.Props.RoundingConvert
import Verif.Props.RoundingCurve
import Verif.Props.RoundingGrid
import Verif.Props.RoundingImage
import Verif.Props.RoundingModel
import Verif.Props.RoundingMonotone
import Verif.Props.RoundingPhotometry
import Verif.Props.RoundingProfile
import Verif.Props.RoundingUtils
import Verif.Props.Segmentation
import Verif.Props.SegmentationMore
import Verif.Props.SelfCorrection
import Verif.Props.SersicFit
import Verif.Props.SharedModel
import Verif.Props.SharedPsf
import Verif.Props.SigmaClip
import Verif.Props.SimulatedRow
import Verif.Props.Simulation
import Verif.Props.SourceBackground
import Verif.Props.SourcePhotometry
import Verif.Props.Spline
import Verif.Props.SplineLocal
import Verif.Props.Tied
import Verif.Props.UniqueIndex
import Verif.Props.Utils
import Verif.Props.Wrapper
