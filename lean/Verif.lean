import Verif.Lemmas.Bytes
import Verif.Lemmas.Drx
import Verif.Props.Drx
import Verif.Props.DrxStream
import Verif.Props.Buffer
import Verif.Props.Timestamp
import Verif.Props.Words
import Verif.Props.McsTime
import Verif.Props.FlatMulti
import Verif.Props.Mib
import Verif.Props.Vdif
import Verif.Props.Tbx
import Verif.Props.Cor
import Verif.Props.Drspec
import Verif.Props.SplitFile
import Verif.Props.FileCache
import Verif.Props.MemoryFile
import Verif.Props.FileLock
import Verif.Props.Sdf
import Verif.Props.SdfParse
import Verif.Props.Baselines
import Verif.Props.Uvw
import Verif.Props.Config
import Verif.Props.ConfigFile
import Verif.Props.Telemetry
import Verif.Props.Registry
import Verif.Props.Header
import Verif.Props.LdpRead
import Verif.Props.Astro
import Verif.Props.MathUtils
import Verif.Props.ObsFile
import Verif.Props.TarPath
import Verif.Props.AspMode
import Verif.Props.Color
import Verif.Props.Progress
import Verif.Props.Parser
import Verif.Props.DataAccess
import Verif.Props.Ssmif
import Verif.Props.SsmifLine
import Verif.Props.SsmifFaults
import Verif.Props.SsmifExample
import Verif.Props.UvTable
import Verif.Props.VisData
import Verif.Props.VisConvert
import Verif.Props.FEngine
import Verif.Props.FEngineFaults
import Verif.Props.XEngine
import Verif.Props.XEngineStokes
import Verif.Props.PSD
import Verif.Props.PSDStokes
import Verif.Props.FX
import Verif.Props.FXStokes
import Verif.Props.Beam
import Verif.Props.Turn
import Verif.Props.Gridder
import Verif.Props.Imaging
import Verif.Props.ImagingTurn
import Verif.Props.MeasSet
import Verif.Props.MeasUvw
import Verif.Props.SimFast
import Verif.Props.Dedisp
import Verif.Props.DedispTurn
import Verif.Props.FilterBank
import Verif.Props.FilterTurn
import Verif.Props.Stats
import Verif.Props.StatsRuns
import Verif.Props.Kurtosis
import Verif.Props.Robust
import Verif.Props.RobustFit
import Verif.Props.RfUtils
import Verif.Props.Scatter
import Verif.Props.SelfCal
import Verif.Props.Deconv
import Verif.Props.AnalysisUnit
import Verif.Props.SkyMap
import Verif.Props.Idf
import Verif.Props.IdfCheck
import Verif.Props.SdfUtils
import Verif.Props.LdpSpec
import Verif.Props.LdpGroup
import Verif.Props.LdpGroupMore
import Verif.Props.Ionex
import Verif.Props.MagField
import Verif.Props.Igrf
import Verif.Props.Rst
import Verif.Props.RstSky
import Verif.Props.Pointing
import Verif.Props.Hardware
import Verif.Props.Dipole
import Verif.Props.SimSky
import Verif.Props.Sdm
import Verif.Props.Posn
import Verif.Props.TimeObj
import Verif.Props.Catalog
import Verif.Props.SdFits
import Verif.Props.Nec
import Verif.Props.NecPhase
import Verif.Props.VdifFile
import Verif.Props.FrameMath
import Verif.Props.MathFns
import Verif.Props.Ndft
import Verif.Props.Guppi
