import Verif.Base
import Verif.Str
import Verif.Lemmas.Base
import Verif.Lemmas.Str
import Verif.Model.Chipper
import Verif.Lemmas.Chipper
import Verif.Props.Chipper
import Verif.Props.ChipFiles
import Verif.Model.ImageUtils
import Verif.Lemmas.ImageUtils
import Verif.Props.ImageUtils
import Verif.Props.Colormap
import Verif.Props.ColormapBins
import Verif.Model.Registration
import Verif.Props.Registration
import Verif.Model.PointCalc
import Verif.Props.PointCalc
import Verif.Props.RayCaster
import Verif.Model.Geotiff
import Verif.Props.Geotiff
import Verif.Model.Rotation
import Verif.Props.Rotation
import Verif.Model.Camera
import Verif.Props.Camera
import Verif.Model.Grids
import Verif.Props.Grids
import Verif.Model.Ortho
import Verif.Props.Ortho
import Verif.Props.Obstruction
import Verif.Props.Dem
import Verif.Model.Nav
import Verif.Props.Nav
import Verif.Props.Time
import Verif.Model.Spectral
import Verif.Lemmas.Spectral
import Verif.Props.SpectralStats
import Verif.Props.SpectralDetect
import Verif.Props.SpectralEq
import Verif.Props.SpectralInvariance
import Verif.Props.SpectralOrder
import Verif.Model.Spectrum
import Verif.Props.Spectrum
import Verif.Model.TextUtils
import Verif.Lemmas.TextUtils
import Verif.Props.TextUtils
import Verif.Model.Envi
import Verif.Lemmas.Envi
import Verif.Lemmas.EnviHeader
import Verif.Props.EnviHeader
import Verif.Lemmas.EnviImage
import Verif.Props.EnviImage
import Verif.Model.Images
import Verif.Props.Images
import Verif.Props.ImageFiles
import Verif.Model.Readers
import Verif.Lemmas.Readers
import Verif.Lemmas.ReadersLines
import Verif.Props.SpectrumFiles
import Verif.Lemmas.Pix4d
import Verif.Props.Pix4d
import Verif.Model.Scoring
import Verif.Props.Scoring
import Verif.Model.Csv
import Verif.Props.CsvFiles
import Verif.Model.NavObject
import Verif.Props.NavObject
import Verif.Model.DemObject
import Verif.Props.DemObject
import Verif.Model.Micasense
import Verif.Props.Micasense
import Verif.Model.Workflow
import Verif.Props.Workflow
import Verif.Props.PMatrices
import Verif.Props.Usgs
import Verif.Model.Setup
import Verif.Props.Setup
import Verif.Model.Warp
import Verif.Props.Warp
import Verif.Model.SpectrumObject
import Verif.Props.SpectrumObject
import Verif.Model.Shapes
import Verif.Props.Shapes
import Verif.Model.ImageObjects
import Verif.Props.ImageObjects
import Verif.Model.Training
import Verif.Props.Training
import Verif.Model.OrthoFile
import Verif.Props.OrthoFile
import Verif.Model.Collect
import Verif.Props.Collect
import Verif.Props.Collect2
import Verif.Model.Exif
import Verif.Props.Exif
import Verif.Model.IntImages
import Verif.Props.IntImages
import Verif.Model.Rounding
import Verif.Lemmas.Rounding
import Verif.Model.Rounded
import Verif.Props.Rounded
import Verif.Props.RoundedImages
import Verif.Props.RoundedNav
import Verif.Props.RoundedTime
import Verif.Props.RoundedGeo
import Verif.Model.Jobs
import Verif.Props.Jobs
import Verif.Props.Dirs
import Verif.Props.TextCrash
import Verif.Model.TrainFiles
import Verif.Props.TrainFiles
import Verif.Model.MicaHistory
import Verif.Props.MicaHistory
import Verif.Model.SharedDem
import Verif.Props.SharedDem
import Verif.Model.SharedGeot
import Verif.Props.SharedGeot
import Verif.Model.EnviJobs
import Verif.Props.EnviJobs
import Verif.Props.EnviSame
import Verif.Model.CalcObject
import Verif.Props.CalcObject
import Verif.Model.NavHistory
import Verif.Props.NavHistory
import Verif.Model.FloatSpectral
import Verif.Lemmas.FloatSpectral
import Verif.Props.FloatSpectral
import Verif.Model.Missing
import Verif.Props.Missing
import Verif.Model.Voids
import Verif.Props.Voids
import Verif.Lemmas.FloatGeom
import Verif.Lemmas.TrigBounds
import Verif.Model.FloatGeom
import Verif.Props.FloatGeom
import Verif.Props.FloatAngles
import Verif.Props.Convergence
import Verif.Props.ConvergenceCamera
import Verif.Props.RaySlope
import Verif.Model.FloatDem
import Verif.Props.FloatDem
import Verif.Model.GeoFiles
import Verif.Props.GeoFiles
import Verif.Props.GeoFilesOwn
import Verif.Model.WarpFiles
import Verif.Props.WarpFiles
import Verif.Model.FloatSolver
import Verif.Lemmas.FloatSolver
import Verif.Props.FloatSolver
import Verif.Props.FloatCamera
import Verif.Props.LensCamera
import Verif.Model.FloatLens
import Verif.Props.FloatLens
import Verif.Props.NoRounding
import Verif.Model.FloatDetect
import Verif.Props.FloatDetect
import Verif.Props.FloatDetectRange
import Verif.Props.HeaderTypes
import Verif.Model.EnviWrite
import Verif.Props.HeaderCopy
import Verif.Model.Ieee
import Verif.Lemmas.Ieee
import Verif.Props.Ieee
import Verif.Props.IeeeConform
import Verif.Props.IeeeSam
import Verif.Props.EndToEnd
import Verif.Model.Memory
import Verif.Lemmas.Memory
import Verif.Props.Memory
import Verif.Model.FloatRay
import Verif.Lemmas.FloatRay
import Verif.Props.FloatRay
import Verif.Props.FloatRayDouble
import Verif.Props.GrazingRay
import Verif.Model.FloatOrtho
import Verif.Props.FloatOrtho
import Verif.Model.FloatSpectrum
import Verif.Lemmas.FloatSpectrum
import Verif.Props.FloatSpectrum
import Verif.Model.SolverIeee
import Verif.Props.SolverIeee
import Verif.Props.RpcInverse
import Verif.Props.SolverSpec
import Verif.Props.RpcIeee
import Verif.Props.FloatMask
import Verif.Props.RpcWide
import Verif.Props.RpcInverseIeee
import Verif.Model.FloatPix
import Verif.Props.FloatPix
import Verif.Props.OrthoMore
import Verif.Props.FloatPixLens
