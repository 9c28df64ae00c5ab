import Verif.Basic.Img
import Verif.Basic.Loop
import Verif.Basic.Py
import Verif.Basic.Tile
import Verif.Model.AngleDic
import Verif.Model.AngleReads
import Verif.Model.BaseImage
import Verif.Model.CalibrateCall
import Verif.Model.Calibration
import Verif.Model.Calibrators
import Verif.Model.Camera
import Verif.Model.ChenCalculate
import Verif.Model.ChenCall
import Verif.Model.ChenFolder
import Verif.Model.ChiSquare
import Verif.Model.Classes
import Verif.Model.Congrid
import Verif.Model.Convert
import Verif.Model.Corrections
import Verif.Model.DemodObject
import Verif.Model.Demodulate
import Verif.Model.Demosaic
import Verif.Model.Disk
import Verif.Model.Edit
import Verif.Model.Errors
import Verif.Model.Figures
import Verif.Model.Folder
import Verif.Model.Glob
import Verif.Model.Helpers
import Verif.Model.ImageData
import Verif.Model.Integer
import Verif.Model.Keywords
import Verif.Model.LinearRoi
import Verif.Model.LiveFolder
import Verif.Model.Load
import Verif.Model.Measurement
import Verif.Model.MedianFilter
import Verif.Model.MixedInteger
import Verif.Model.NormalizeRounded
import Verif.Model.NotANumber
import Verif.Model.Nrgf
import Verif.Model.NrgfCall
import Verif.Model.NumPy
import Verif.Model.Object
import Verif.Model.Occulter
import Verif.Model.PilRotate
import Verif.Model.PolFunctions
import Verif.Model.Prepare
import Verif.Model.Printed
import Verif.Model.Rebin
import Verif.Model.Roi
import Verif.Model.Rotate
import Verif.Model.Rounding
import Verif.Model.Save
import Verif.Model.Savers
import Verif.Model.Shift
import Verif.Model.Statistics
import Verif.Model.Stokes
import Verif.Model.Utils
import Verif.Spec.Again
import Verif.Spec.AngleDic
import Verif.Spec.Blend
import Verif.Spec.CalibrateCall
import Verif.Spec.Calibration
import Verif.Spec.CalibrationBinned
import Verif.Spec.CalibrationLocal
import Verif.Spec.CalibrationUnits
import Verif.Spec.CalibrationWindow
import Verif.Spec.Calibrators
import Verif.Spec.Chen
import Verif.Spec.ChenCall
import Verif.Spec.ChenFolder
import Verif.Spec.ChiSquare
import Verif.Spec.Classes
import Verif.Spec.Cone
import Verif.Spec.Congrid
import Verif.Spec.Convert
import Verif.Spec.Counts
import Verif.Spec.DemodObject
import Verif.Spec.DemodRebin
import Verif.Spec.Demosaic
import Verif.Spec.Disk
import Verif.Spec.Edit
import Verif.Spec.EditDemosaiced
import Verif.Spec.EditMaps
import Verif.Spec.Errors
import Verif.Spec.Failed
import Verif.Spec.Figures
import Verif.Spec.FittedDictionary
import Verif.Spec.Folder
import Verif.Spec.Frame
import Verif.Spec.Glob
import Verif.Spec.Groups
import Verif.Spec.HotPixels
import Verif.Spec.Integer
import Verif.Spec.Keywords
import Verif.Spec.Light
import Verif.Spec.LiveFolder
import Verif.Spec.Load
import Verif.Spec.Locality
import Verif.Spec.MapsBlind
import Verif.Spec.Measurement
import Verif.Spec.MixedInteger
import Verif.Spec.Normalisation
import Verif.Spec.NormalizeRounded
import Verif.Spec.NotANumber
import Verif.Spec.Nrgf
import Verif.Spec.Object
import Verif.Spec.Observation
import Verif.Spec.Occulter
import Verif.Spec.OcculterSearch
import Verif.Spec.Order
import Verif.Spec.Part
import Verif.Spec.PilRotate
import Verif.Spec.Prepare
import Verif.Spec.Rebin
import Verif.Spec.Repeated
import Verif.Spec.Roi
import Verif.Spec.Rotate
import Verif.Spec.Rounding
import Verif.Spec.Save
import Verif.Spec.Savers
import Verif.Spec.Shape
import Verif.Spec.Shift
import Verif.Spec.Stability
import Verif.Spec.StabilityMaps
import Verif.Spec.Statistics
import Verif.Spec.Stokes
import Verif.Spec.Superposition
import Verif.Spec.Transposed
import Verif.Spec.Units
import Verif.Spec.Utils
import Verif.Lemmas.Again
import Verif.Lemmas.AngleDic
import Verif.Lemmas.AnyHistory
import Verif.Lemmas.Apart
import Verif.Lemmas.ApartOps
import Verif.Lemmas.BaseImage
import Verif.Lemmas.Blend
import Verif.Lemmas.Calibration
import Verif.Lemmas.CalibrationBinned
import Verif.Lemmas.CalibrationGrid
import Verif.Lemmas.CalibrationUnits
import Verif.Lemmas.Chen
import Verif.Lemmas.ChenCall
import Verif.Lemmas.ChenFolder
import Verif.Lemmas.Classes
import Verif.Lemmas.Congrid
import Verif.Lemmas.Convert
import Verif.Lemmas.ConvertPath
import Verif.Lemmas.Corrections
import Verif.Lemmas.Counts
import Verif.Lemmas.DemodRebin
import Verif.Lemmas.Demodulate
import Verif.Lemmas.Demosaic
import Verif.Lemmas.Disk
import Verif.Lemmas.Edit
import Verif.Lemmas.EditDemosaiced
import Verif.Lemmas.EditDemosaicedSessions
import Verif.Lemmas.EditMaps
import Verif.Lemmas.Failed
import Verif.Lemmas.Figures
import Verif.Lemmas.Folder
import Verif.Lemmas.Glob
import Verif.Lemmas.GlobMatch
import Verif.Lemmas.GlobStar
import Verif.Lemmas.Groups
import Verif.Lemmas.Keywords
import Verif.Lemmas.Light
import Verif.Lemmas.LightData
import Verif.Lemmas.LinearRoi
import Verif.Lemmas.LiveFolder
import Verif.Lemmas.Load
import Verif.Lemmas.MapsBlind
import Verif.Lemmas.MedianFilter
import Verif.Lemmas.Memory
import Verif.Lemmas.MemoryOps
import Verif.Lemmas.MixedInteger
import Verif.Lemmas.MoorePenrose
import Verif.Lemmas.NearData
import Verif.Lemmas.NearMore
import Verif.Lemmas.NearRefs
import Verif.Lemmas.NearSession
import Verif.Lemmas.NearView
import Verif.Lemmas.Normalisation
import Verif.Lemmas.NormalizeRounded
import Verif.Lemmas.NotANumber
import Verif.Lemmas.Nrgf
import Verif.Lemmas.NumPy
import Verif.Lemmas.ObjectDefault
import Verif.Lemmas.ObjectExec
import Verif.Lemmas.ObjectFrame
import Verif.Lemmas.ObjectHeader
import Verif.Lemmas.ObjectMask
import Verif.Lemmas.ObjectOps
import Verif.Lemmas.ObjectShape
import Verif.Lemmas.ObjectStep
import Verif.Lemmas.ObjectValue
import Verif.Lemmas.ObjectView
import Verif.Lemmas.Occulter
import Verif.Lemmas.PilRotate
import Verif.Lemmas.Prepare
import Verif.Lemmas.Printed
import Verif.Lemmas.Rebin
import Verif.Lemmas.RebinFold
import Verif.Lemmas.Roi
import Verif.Lemmas.Rotate
import Verif.Lemmas.Rounding
import Verif.Lemmas.RoundingImages
import Verif.Lemmas.Save
import Verif.Lemmas.Savers
import Verif.Lemmas.SaversTurns
import Verif.Lemmas.Shift
import Verif.Lemmas.Split
import Verif.Lemmas.Stability
import Verif.Lemmas.Statistics
import Verif.Lemmas.Stokes
import Verif.Lemmas.Units
import Verif.Lemmas.UnitsData
import Verif.Lemmas.UnitsExec
import Verif.Lemmas.UnitsOps
import Verif.Lemmas.Utils
import Verif.Props.Again
import Verif.Props.AngleDic
import Verif.Props.AngleReads
import Verif.Props.BaseImage
import Verif.Props.CalibrateCall
import Verif.Props.Calibration
import Verif.Props.CalibrationBinned
import Verif.Props.CalibrationLocal
import Verif.Props.CalibrationRun
import Verif.Props.CalibrationUnits
import Verif.Props.CalibrationWindow
import Verif.Props.Calibrators
import Verif.Props.CalibratorsRun
import Verif.Props.Camera
import Verif.Props.ChenCalculate
import Verif.Props.ChenCall
import Verif.Props.ChenDepends
import Verif.Props.ChenFolder
import Verif.Props.ChiSquare
import Verif.Props.Classes
import Verif.Props.Cone
import Verif.Props.ConeStokes
import Verif.Props.Congrid
import Verif.Props.CongridStokes
import Verif.Props.Convert
import Verif.Props.ConvertFiles
import Verif.Props.ConvertRaw
import Verif.Props.Corrections
import Verif.Props.Counts
import Verif.Props.DemodObject
import Verif.Props.DemodRebin
import Verif.Props.Demodulate
import Verif.Props.Demosaic
import Verif.Props.DemosaicStokes
import Verif.Props.Disk
import Verif.Props.Edit
import Verif.Props.EditDemosaiced
import Verif.Props.EditMaps
import Verif.Props.Errors
import Verif.Props.Failed
import Verif.Props.Figures
import Verif.Props.FittedDictionary
import Verif.Props.Folder
import Verif.Props.Frame
import Verif.Props.Glob
import Verif.Props.Groups
import Verif.Props.Helpers
import Verif.Props.HotPixels
import Verif.Props.Integer
import Verif.Props.Keywords
import Verif.Props.KeywordsLoad
import Verif.Props.Light
import Verif.Props.LinearRoi
import Verif.Props.LinearRoiPolar
import Verif.Props.LinearRoiValues
import Verif.Props.LiveFolder
import Verif.Props.Load
import Verif.Props.Locality
import Verif.Props.MapsBlind
import Verif.Props.Measurement
import Verif.Props.MixedInteger
import Verif.Props.Normalisation
import Verif.Props.NormalizeArray
import Verif.Props.NormalizeRounded
import Verif.Props.NotANumber
import Verif.Props.Nrgf
import Verif.Props.NrgfCall
import Verif.Props.Object
import Verif.Props.ObjectHeader
import Verif.Props.ObjectPixels
import Verif.Props.ObjectStokes
import Verif.Props.Observation
import Verif.Props.Occulter
import Verif.Props.OcculterSearch
import Verif.Props.Order
import Verif.Props.OtherUnits
import Verif.Props.Part
import Verif.Props.PilRotate
import Verif.Props.Polarization
import Verif.Props.Prepare
import Verif.Props.Printed
import Verif.Props.Rebin
import Verif.Props.Repeated
import Verif.Props.Roi
import Verif.Props.Rotate
import Verif.Props.Rounding
import Verif.Props.Save
import Verif.Props.Savers
import Verif.Props.Shift
import Verif.Props.SplitMerge
import Verif.Props.Stability
import Verif.Props.StabilityAll
import Verif.Props.StabilitySession
import Verif.Props.Statistics
import Verif.Props.Stokes
import Verif.Props.Superposition
import Verif.Props.Transposed
import Verif.Props.TransposedCalibration
import Verif.Props.Units
import Verif.Props.Utils
