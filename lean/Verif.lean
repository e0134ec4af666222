import Verif.Props.View
import Verif.Props.Caseless
import Verif.Props.Structlike
import Verif.Props.StructRepr
import Verif.Props.Router
import Verif.Props.JuiceWire
import Verif.Props.JuiceRpc
import Verif.Props.JuiceArgs
import Verif.Props.JuiceDispatch
import Verif.Props.JuiceTls
import Verif.Props.JuiceTypes
import Verif.Props.Liner
import Verif.Props.BenchmarkReport
import Verif.Props.JuiceSwitch
import Verif.Props.AmpAuth
import Verif.Props.Calendar
import Verif.Props.Extime
import Verif.Props.ExtimeIso
import Verif.Props.ExtimeRfc
import Verif.Props.ExtimePosix
import Verif.Props.ExtimeHuman
import Verif.Props.ExtimeShow
import Verif.Props.Modal
import Verif.Props.Expose
import Verif.Props.Remember
import Verif.Props.Descriptor
import Verif.Props.Hotfix
import Verif.Props.Pending
import Verif.Props.React
import Verif.Props.Process
import Verif.Props.Timeout
import Verif.Props.Benchmark
import Verif.Props.Setuphelper
import Verif.Props.Asplode
import Verif.Props.Version
import Verif.Props.Spewer
import Verif.Props.DelayedCall
import Verif.Props.PluginPaths
import Verif.Props.FilePath
import Verif.Props.FilePathCopy
import Verif.Props.FilePathOps
import Verif.Props.DeferredGenerator
import Verif.Props.Literals
import Verif.Props.ExtimeCookie
import Verif.Props.AssertWarns
import Verif.Props.SpewerArgs
import Verif.Props.PluginCache
import Verif.Model.FilePathCreate
import Verif.Props.FilePathCreate
import Verif.Props.FilePathSearch
import Verif.Model.BenchmarkSync
import Verif.Props.BenchmarkSync
import Verif.Model.BenchmarkSize
import Verif.Props.BenchmarkSize
import Verif.Model.JuiceBytes
import Verif.Spec.JuiceBytes
import Verif.Lemmas.JuiceSim
import Verif.Lemmas.JuiceBytes
import Verif.Lemmas.JuiceQuiet
import Verif.Lemmas.JuiceSent
import Verif.Props.JuiceBytes
import Verif.Props.JuiceOrder
import Verif.Model.Renegotiate
import Verif.Props.Renegotiate
import Verif.Model.StructlikeContext
import Verif.Props.StructContext
import Verif.Model.JuiceDo
import Verif.Spec.JuiceRemote
import Verif.Props.JuiceRemote
import Verif.Model.Loopback
import Verif.Props.Loopback
import Verif.Model.Certcreate
import Verif.Props.Certcreate
import Verif.Props.JuiceRpcAny
import Verif.Model.RouterReentry
import Verif.Lemmas.RouterReentry
import Verif.Props.RouterReentry
import Verif.Model.LinerReentry
import Verif.Props.LinerReentry
import Verif.Model.IOSim
import Verif.Props.IOSim
import Verif.Model.CaselessUse
import Verif.Props.CaselessUse
import Verif.Model.FilePathDirs
import Verif.Props.FilePathDirs
import Verif.Model.BenchmarkMain
import Verif.Props.BenchmarkMain
import Verif.Model.JuiceReentry
import Verif.Props.JuiceReentry
import Verif.Model.JuiceBoxes
import Verif.Props.JuiceBoxes
import Verif.Model.FilePathParts
import Verif.Props.FilePathParts
import Verif.Model.HotfixInstall
import Verif.Props.HotfixInstall
import Verif.Model.AmpServer
import Verif.Props.AmpServer
import Verif.Model.RouteSetup
import Verif.Lemmas.RouteSetup
import Verif.Props.RouteSetup
import Verif.Model.BenchmarkFile
import Verif.Lemmas.BenchmarkFile
import Verif.Props.BenchmarkFile
import Verif.Model.ExtimeRepr
import Verif.Props.ExtimeRepr
import Verif.Model.DelayedCallStr
import Verif.Props.DelayedCallStr
import Verif.Model.FileLinks
import Verif.Lemmas.FileLinks
import Verif.Props.FileLinks
import Verif.Model.ExtimeZone
import Verif.Props.ExtimeZone
import Verif.Model.ExtimeZoneShow
import Verif.Props.ExtimeReadback
import Verif.Model.FileLinksWrite
import Verif.Props.FileLinksWrite
import Verif.Props.FileLinksMerge
import Verif.Model.CaselessUnicode
import Verif.Props.CaselessUnicode
import Verif.Model.SpewerTrace
import Verif.Props.SpewerTrace
import Verif.Py.FloatText
import Verif.Props.JuiceFloat
import Verif.Model.ExtimeFold
import Verif.Props.ExtimeFold
import Verif.Py.Literal
import Verif.Py.LiteralRead
import Verif.Model.Unrepr
import Verif.Props.Unrepr
import Verif.Props.FileErrors
import Verif.Props.ErrorKinds
import Verif.Py.Base64
import Verif.Py.Sha1
import Verif.Model.SecureName
import Verif.Props.SecureName
import Verif.Model.Services
import Verif.Props.Services
import Verif.Model.ModalDefaults
import Verif.Props.ModalDefaults
import Verif.Model.CaselessTypes
import Verif.Props.CaselessTypes
import Verif.Props.RouterUnhandled
import Verif.Model.StructlikeText
import Verif.Props.StructlikeText
import Verif.Py.FloatOrder
import Verif.Model.DelayedCallFloat
import Verif.Props.DelayedCallFloat
import Verif.Py.Base64Decode
import Verif.Model.JuiceBase64
import Verif.Props.JuiceBase64
import Verif.Model.AmpOverlap
import Verif.Props.AmpOverlap
import Verif.Props.DelayedCallGrid
import Verif.Model.DelayedCallOwner
import Verif.Props.DelayedCallOwner
import Verif.Model.JuiceTransact
import Verif.Props.JuiceTransact
import Verif.Model.ClockRun
import Verif.Props.ClockRun
import Verif.Props.JuiceArgsBody
import Verif.Props.RouteCount
import Verif.Props.AmpAdder
import Verif.Model.GenRun
import Verif.Props.GenRunSpec
import Verif.Props.GenRunInv
import Verif.Props.GenRunRes
import Verif.Props.GenRunHist
import Verif.Props.GenRun
import Verif.Props.GenRunDepth
import Verif.Props.FilePathChild
import Verif.Model.SizeLinks
import Verif.Props.SizeLinks
import Verif.Props.FileLinksRefuse
import Verif.Props.Base64Value
import Verif.Props.FileLinksCircle
