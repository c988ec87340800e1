import Verif.Basic
import Verif.Model.Utilities
import Verif.Model.Lattice
import Verif.Model.UB
import Verif.Model.Goni
import Verif.Model.Sample
import Verif.Model.Tas
import Verif.Model.ScanData
import Verif.Lemmas.Numpy
import Verif.Lemmas.Lattice
import Verif.Lemmas.GStar
import Verif.Lemmas.Rot
import Verif.Props.Lattice
import Verif.Lemmas.Arctan2
import Verif.Props.Goni
import Verif.Props.Energy
import Verif.Props.UBDet
import Verif.Props.UBFit
import Verif.Props.UBPlane
import Verif.Props.UBPlaneAll
import Verif.Props.UBPlaneDemo
import Verif.Props.Tilt
import Verif.Props.RoundTrip
import Verif.Props.Convention
import Verif.Model.Str
import Verif.Model.Scan
import Verif.Props.Rebin
import Verif.Props.RebinUse
import Verif.Props.Rebin2D
import Verif.Props.Group
import Verif.Props.GroupUse
import Verif.Props.Hkle
import Verif.Props.HkleUse
import Verif.Model.Resolution
import Verif.Props.Quadric
import Verif.Props.Cooper
import Verif.Props.Frame
import Verif.Props.Batch
import Verif.Props.Reach
import Verif.Props.Demo
import Verif.Model.Nexus
import Verif.Props.Entry
import Verif.Props.Store
import Verif.Model.Tavi
import Verif.Lemmas.Dec
import Verif.Props.Session
import Verif.Lemmas.Assoc
import Verif.Lemmas.Text
import Verif.Model.Spice
import Verif.Props.Header
import Verif.Props.Datafile
import Verif.Props.Numbers
import Verif.Model.App
import Verif.Props.Filter
import Verif.Props.Broker
import Verif.Props.Loading
import Verif.Props.Configuration
import Verif.Model.Fit
import Verif.Props.Fit
import Verif.Model.FitCurve
import Verif.Model.FitInit
import Verif.Props.FitCurve
import Verif.Props.FitGuess
import Verif.Props.FitBar
import Verif.Props.FitConv
import Verif.Props.FitDemo
import Verif.Model.Misc
import Verif.Props.Misc
import Verif.Model.Ornl
import Verif.Props.OrnlFile
import Verif.Props.OrnlLoad
import Verif.Model.Convolution
import Verif.Props.Convolution
import Verif.Model.Builder
import Verif.Model.BuilderJson
import Verif.Lemmas.Members
import Verif.Props.Builder
import Verif.Props.Columns
import Verif.Props.Loads
import Verif.Props.LoadDemo
import Verif.Props.BuilderJson
import Verif.Props.BuilderJsonDemo
import Verif.Props.DataNames
import Verif.Props.NamesSized
import Verif.Props.Gimbal
import Verif.Props.NearPlane
import Verif.Props.NearTilt
import Verif.Props.TiltClose
import Verif.Props.NearDemo
import Verif.Props.ScanColumns
import Verif.Props.FileColumns
import Verif.Props.ScanData
import Verif.Props.DatasetName
import Verif.Props.ScanInfo
import Verif.Props.Reports
import Verif.Props.Measurement
import Verif.Props.MeasurementDemo
import Verif.Props.Folder
import Verif.Props.FolderDemo
import Verif.Model.Links
import Verif.Props.Tree
import Verif.Props.Links
import Verif.Props.PlotLink
import Verif.Props.PlotLinkDemo
import Verif.Props.Norm
import Verif.Props.Lookup
import Verif.Props.Written
import Verif.Props.ReadBack
import Verif.Props.ReadBackDemo
import Verif.Props.BuilderTidy
import Verif.Props.BuilderAxis
import Verif.Props.BuilderLists
import Verif.Props.Clean
import Verif.Props.NamesBack
import Verif.Props.ScanBack
import Verif.Props.ScanFile
import Verif.Props.ScanNumber
import Verif.Props.ScanFileDemo
import Verif.Model.Config
import Verif.Props.Components
import Verif.Props.SampleJson
import Verif.Props.SampleScan
import Verif.Props.SampleScanDemo
import Verif.Model.Convert
import Verif.Model.Window
import Verif.Model.Plot
import Verif.Model.Curve
import Verif.Model.Manager
import Verif.Props.Convert
import Verif.Props.ConvertDemo
import Verif.Props.Window
import Verif.Props.Plot
import Verif.Props.PlotShown
import Verif.Props.Curve
import Verif.Props.Manager
import Verif.Model.TaviFile
import Verif.Props.TaviFile
import Verif.Props.TaviFileDemo
import Verif.Model.Plot2D
import Verif.Props.Plot2D
import Verif.Props.Plot2DShown
import Verif.Model.Setup
import Verif.Props.Setup
import Verif.Props.NearSetup
import Verif.Props.SetupDemo
import Verif.Model.ScanPlot
import Verif.Props.ScanPlot
import Verif.Props.ScanPlotUse
import Verif.Props.ScanDrawn
import Verif.Props.ScanPlotDemo
import Verif.Props.FitScan
import Verif.Props.FitScanDemo
import Verif.Model.ScanMap
import Verif.Props.ScanMap
import Verif.Props.ScanCut
import Verif.Props.ScanMapDemo
import Verif.Props.GapDemo
import Verif.Props.ScanMapAny
import Verif.Props.HkleAny
import Verif.Props.QuadricSmall
import Verif.Props.FrameSmall
import Verif.Props.FrameLocal
import Verif.Props.RebinLost
import Verif.Props.GroupFails
import Verif.Props.DelQ
import Verif.Props.Blur
import Verif.Props.ConvPool
import Verif.Props.Cell
import Verif.Model.ResoFigure
import Verif.Props.ResoFigure
import Verif.Model.SessionScans
import Verif.Props.SessionScans
import Verif.Props.SessionScansDemo
import Verif.Model.FolderSession
import Verif.Props.FolderSession
import Verif.Props.FolderSessionDemo
import Verif.Model.Ini
import Verif.Lemmas.Ini
import Verif.Props.Ini
import Verif.Props.IniDemo
import Verif.Props.IniComments
import Verif.Props.IniCommentsDemo
import Verif.Props.SampleConf
import Verif.Props.ConfWrite
import Verif.Props.ConfData
import Verif.Props.ConfDataDemo
import Verif.Props.ConfBack
import Verif.Props.ConfConvert
import Verif.Props.ConfConvertDemo
import Verif.Props.ConfReports
import Verif.Props.ConfReportsDemo
import Verif.Props.Mounting
import Verif.Props.MountingDemo
import Verif.Props.Coarser
import Verif.Props.CoarserDemo
import Verif.Props.Mirror
import Verif.Props.MirrorDemo
import Verif.Props.OtherEntries
import Verif.Props.TypedText
import Verif.Model.Report
import Verif.Props.FramePositive
import Verif.Props.Report
import Verif.Model.UBText
import Verif.Props.UBText
import Verif.Props.MirrorWidths
import Verif.Props.InPlane
import Verif.Props.InPlaneDemo
import Verif.Props.Enlarge
import Verif.Props.EnlargeDemo
import Verif.Props.EnlargeAngles
import Verif.Props.MirrorAngles
import Verif.Props.EnlargeAxes
