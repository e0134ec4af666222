import Verif.Model.Asplode
import Verif.Model.BenchmarkMain
import Verif.Model.BenchmarkReport
import Verif.Model.Descriptor
import Verif.Model.ExtimeHuman
import Verif.Model.ExtimeRepr
import Verif.Model.ExtimeRfc
import Verif.Model.ExtimeShow
import Verif.Model.FilePathParts
import Verif.Model.JuiceArgs
import Verif.Model.JuiceRpc
import Verif.Model.Modal
import Verif.Model.PluginCache
import Verif.Model.PluginPaths
import Verif.Model.Process
import Verif.Model.Remember
import Verif.Model.RouteSetup
import Verif.Model.Router
import Verif.Model.Setuphelper
import Verif.Model.SpewerArgs
/-!
# The string constants of the models, spelt out

Not properties of the code: these only compare the lists of code points in the models with readable strings.
-/
namespace Verif.Literals
open Verif.Py

def lit (s : String) : List Nat := s.toList.map Char.toNat

theorem asplode : Asplode.sProject = lit "_project_" ∧ Asplode.sCapProject = lit "_Project_" ∧ Asplode.sDate = lit "_date_" ∧
    Asplode.marker = lit "###file:" := by decide

theorem benchmark : Benchmark.diskNames = ["readCount", "mergedReadCount", "readSectorCount", "readMilliseconds", "writeCount",
      "mergedWriteCount", "writeSectorCount", "writeMilliseconds", "outstandingIOCount", "ioMilliseconds",
      "weightedIOMilliseconds"].map lit ∧
    Benchmark.partitionNames = ["readCount", "readSectorCount", "writeCount", "writeSectorCount"].map lit ∧
    Benchmark.discoverCurrentWorkingDevice (fun _ => false) [] [] = .ok (lit "<unknown>") := by
  refine ⟨by decide, by decide, rfl⟩

theorem descriptor : Descriptor.nGet = lit "get" ∧ Descriptor.nSet = lit "set" ∧ Descriptor.nDelete = lit "delete" := by decide

theorem humanly : Extime.weekdays = ["monday", "tuesday", "wednesday", "thursday", "friday", "saturday", "sunday"].map lit ∧
    Extime.wNext = lit "next" ∧ Extime.wThis = lit "this" ∧ Extime.wToday = lit "today" ∧ Extime.wTomorrow = lit "tomorrow" ∧
    Extime.wYesterday = lit "yesterday" ∧ Extime.wNoon = lit "noon" ∧ Extime.wMidnight = lit "midnight" ∧ Extime.wNow = lit "now" := by
  decide

theorem humanlyShown (secs : Bool) (d : DT) : Extime.humanText secs true d d = lit "all day" := by
  simp [Extime.humanText, Extime.sameDate, lit]

theorem rfc : Extime.monthNames = ["jan", "feb", "mar", "apr", "may", "jun", "jul", "aug", "sep", "oct", "nov", "dec", "january",
      "february", "march", "april", "may", "june", "july", "august", "september", "october", "november", "december"].map lit ∧
    Extime.dayNames = ["mon", "tue", "wed", "thu", "fri", "sat", "sun"].map lit ∧
    Extime.zoneNames = [("UT", 0), ("UTC", 0), ("GMT", 0), ("Z", 0), ("AST", -400), ("ADT", -300), ("EST", -500), ("EDT", -400),
      ("CST", -600), ("CDT", -500), ("MST", -700), ("MDT", -600), ("PST", -800), ("PDT", -700)].map (fun x => (lit x.1, x.2)) ∧
    Extime.rfcWeekdays = ["Mon", "Tue", "Wed", "Thu", "Fri", "Sat", "Sun"].map lit ∧
    Extime.rfcMonths = ["Jan", "Feb", "Mar", "Apr", "May", "Jun", "Jul", "Aug", "Sep", "Oct", "Nov", "Dec"].map lit := by
  decide

theorem juice : JuiceArgs.TRUE = lit "True" ∧ JuiceArgs.FALSE = lit "False" ∧ JuiceRpc.ASK = lit "_ask" ∧
    JuiceRpc.ANSWER = lit "_answer" ∧ JuiceRpc.COMMAND = lit "_command" ∧ JuiceRpc.ERROR = lit "_error" ∧
    JuiceRpc.ERROR_CODE = lit "_error_code" ∧ JuiceRpc.ERROR_DESCRIPTION = lit "_error_description" ∧
    Juice.LENGTH = lit "_length" ∧ Juice.BODY = lit "body" := by decide

theorem modal : Modal.nMode = lit "mode" ∧ Modal.nModeAttribute = lit "modeAttribute" ∧ Modal.nInitialMode = lit "initialMode" ∧
    Modal.nEnter = lit "__enter__" ∧ Modal.nExit = lit "__exit__" ∧ Modal.nModule = lit "__module__" ∧ Modal.nFile = lit "__file__" ∧
    Modal.nName = lit "__name__" ∧ Modal.nDoc = lit "__doc__" ∧ Modal.nNil = lit "nil" := by decide

theorem others : PluginPaths.sInit = lit "__init__.py" ∧ Process.sLib = lit "lib" ∧ Process.sPythonPath = lit "PYTHONPATH" ∧
    (∀ n, Remember.rememberName n = lit "_remembered_" ++ n) ∧ Router.ROUTE = lit "_route" ∧ Setuphelper.sInit = lit "__init__.py" ∧
    Setuphelper.sPlugins = lit "plugins" ∧ Setuphelper.sDropin = lit "dropin.cache" ∧
    Setuphelper.moduleExts = [".py", ".pyc", ".pyo"].map lit :=
  ⟨by decide, by decide, by decide, fun _ => rfl, by decide, by decide, by decide, by decide, by decide⟩

theorem more : PluginCache.emptyName = lit "Empty module name" ∧ PluginCache.sInstall = lit "install" ∧
    Spewer.undefined = lit "*** undefined ***" := by decide

/-- White space of `bytes`. -/
theorem byteSpace (c : Nat) : Py.isByteSpace c = true ↔ c ∈ [9, 10, 11, 12, 13, 32] := by
  simp only [Py.isByteSpace, Bool.or_eq_true, Bool.and_eq_true, decide_eq_true_eq, beq_iff_eq, List.mem_cons, List.not_mem_nil,
    or_false]
  omega

/-- White space of `str`: all characters of which `str.isspace` is true. -/
theorem space (c : Nat) : Extime.isSpace c = true ↔
    c ∈ [9, 10, 11, 12, 13, 28, 29, 30, 31, 32, 133, 160, 5760, 8192, 8193, 8194, 8195, 8196, 8197, 8198, 8199, 8200, 8201, 8202,
      8232, 8233, 8239, 8287, 12288] := by
  simp only [Extime.isSpace, Bool.or_eq_true, Bool.and_eq_true, decide_eq_true_eq, beq_iff_eq, List.mem_cons, List.not_mem_nil,
    or_false]
  omega

theorem amPm : Extime.wAm = lit "am" ∧ Extime.wPm = lit "pm" := by decide

theorem routeSetup : RouteSetup.COMMAND = lit "_command" ∧ RouteSetup.ASK = lit "_ask" ∧ RouteSetup.ANSWER = lit "_answer" ∧
    RouteSetup.NAME = lit "name" ∧ RouteSetup.NEWROUTE = lit "NewRoute" := by decide

theorem benchmarkMain : Benchmark.Main.wIgnore = lit "-Wignore" ∧ Benchmark.overallSuffix = lit "-overall" ∧
    Benchmark.benchmarkSuffix = lit "-benchmark" := by decide

theorem filePathRepr (r : List Nat → List Nat) (f : FilePath.Parts.FP) :
    FilePath.Parts.FP.repr r f = lit "FilePath(" ++ r f.path ++ lit ")" := rfl

theorem timeRepr : Extime.datetimeOpen = lit "datetime.datetime(" ∧ Extime.fromDatetimeOpen = lit "extime.Time.fromDatetime(" ∧
    Benchmark.msNames = ["readMilliseconds", "writeMilliseconds"].map lit := by decide

end Verif.Literals
