import Verif.Model.JuiceDispatch
import Verif.Model.AmpAuth
import Verif.Model.PluginCache
import Verif.Model.RouteSetup
import Verif.Model.Certcreate
import Verif.Model.AssertWarns
import Verif.Model.ExtimeZone
import Verif.Model.Modal
import Verif.Model.HotfixInstall
import Verif.Model.Benchmark
import Verif.Model.JuiceTls
import Verif.Model.Descriptor
import Verif.Model.BenchmarkReport
import Verif.Model.JuiceBoxes
import Verif.Model.JuiceBase64
import Verif.Model.Services
import Verif.Model.JuiceSwitch
import Verif.Model.FileLinksWrite
import Verif.Model.SpewerArgs
/-!
# The kinds of the exceptions, where other theorems only say that there is one
-/
namespace Verif.ErrorKinds
open Verif.Py

/-! ## Juice arguments (C28, C82) -/

section
open Verif.JuiceArgs

/-- Objects without the method that `toString` calls: `Unicode` and other encoded strings take only text, `Path` only a `FilePath`,
`Time` only a time; everything else is an `AttributeError`. -/
theorem wrong_type (e : Encoding) (cwd : Juice.Str) (D : Extime.Digits) (opt : Bool) (x : Obj) :
    ((∀ s, x ≠ .str s) → (encodedString e opt).enc x = .error .attributeError) ∧
    ((∀ p, x ≠ .path p) → (pathArg cwd opt).enc x = .error .attributeError) ∧
    ((∀ t, x ≠ .time t) → (timeArg D opt).enc x = .error .attributeError) := by
  refine ⟨fun h => ?_, fun h => ?_, fun h => ?_⟩ <;> cases x <;> first | rfl | exact absurd rfl (h _)

/-- Text from the network that is no text of the kind: reading a `Path` fails only as `bytes.decode` does. -/
theorem path_dec (cwd : Juice.Str) (opt : Bool) (v : Val) :
    (pathArg cwd opt).dec v = (match v with
      | .raw b => (match utf8Decode b with
        | some s => .ok (.path (Path.abspath cwd s))
        | none => .error .unicodeError)
      | .text _ => .error .attributeError) := by
  cases v with
  | text s => rfl
  | raw b =>
    simp only [pathArg, unicode, encodedString, utf8]
    cases utf8Decode b <;> rfl

/-- `Base64Binary` fails on Python 3 with everything. -/
theorem base64_fails (opt : Bool) :
    (∀ s, (base64Binary opt).enc (.str s) = .error (.other "LookupError")) ∧
    (∀ x, (∀ s, x ≠ .str s) → (base64Binary opt).enc x = .error .attributeError) ∧
    (∀ b, (base64Binary opt).dec (.raw b) = .error (.other "LookupError")) ∧
    (∀ s, (base64Binary opt).dec (.text s) = .error .attributeError) := by
  refine ⟨fun s => rfl, fun x h => ?_, fun b => rfl, fun s => rfl⟩
  cases x <;> first | rfl | exact absurd rfl (h _)

/-- An element of a `JuiceList` that is no dictionary has no `get`: the list cannot be written. -/
theorem not_dict (U : Uni) (subargs : ArgList) (l : List Obj) (x : Obj) (r : List Obj) (hl : l = x :: r) (h : ∀ d, x ≠ .dict d) :
    (juiceList U subargs).enc (.list l) = .error .attributeError := by
  subst hl
  cases x <;> first | rfl | exact absurd rfl (h _)

/-- Items of a list that are `bytes` on the wire cannot be joined as text. -/
theorem raw_item {c : Codec} {x : Obj} {b : Juice.Bytes} (d : Juice.Str) (h : c.enc x = .ok (.raw b)) :
    listItem c d x = .error .typeError := by
  unfold listItem; rw [h]; rfl

/-- For example: text in a list of `Unicode`. -/
example : listItem (unicode false) [44] (.str [97]) = .error .typeError := raw_item _ (b := [97]) rfl

end

/-- Negotiation that is called without a list of versions. (C35) -/
theorem negotiate_without (H : JuiceDispatch.Hier) (V : List Int) (kw : Dict Juice.Str JuiceArgs.Obj)
    (h : ∀ l, Dict.get? kw JuiceDispatch.VERSIONS_ARG ≠ some (.list l)) :
    JuiceDispatch.commandNegotiate H V kw = .raised (H.builtin .typeError) := by
  unfold JuiceDispatch.commandNegotiate
  split
  · rename_i l hl; exact absurd hl (h l)
  · rfl

/-- A response without a challenge before it. (C43) -/
theorem respond_first (sha1 : AmpAuth.Bytes → AmpAuth.Bytes) (users : Dict AmpAuth.Bytes AmpAuth.Text) (st : AmpAuth.Conn) (n r : AmpAuth.Bytes) (h : st.auth = none) :
    (AmpAuth.respondNow sha1 users st n r).1 = .error .attributeError := by
  simp [AmpAuth.respondNow, h]

/-- `close` of the generator of plugin modules while there is another module to import: the bare `except` has caught the
`GeneratorExit`, and Python raises `RuntimeError`. (C89) -/
theorem close_again (imp : PluginCache.Importer) (n : PluginCache.Str) (names : List PluginCache.Str) (m : Nat) (h : imp n = .ok m) :
    PluginCache.close imp (.suspended (n :: names)) = (.suspended names, some .runtimeError) := by
  simp [PluginCache.close, PluginCache.handle, PluginCache.advance, h]

/-- `install` without an `install` command object. (C89) -/
theorem no_install (commands : List PluginCache.Str) (path : List PluginCache.Str) (imp : List PluginCache.Str → PluginCache.Importer)
    (plugins : Nat → Except PyErr Unit) (pkgs : List PluginCache.Str) (h : PluginCache.sInstall ∈ commands) :
    PluginCache.regeneratePluginCache commands none path imp plugins pkgs = (path, [], some .keyError) := by
  simp [PluginCache.regeneratePluginCache, h]

/-- Losing the connection before the router has routes. (C114) -/
theorem lose_early (s : RouteSetup.Sys) (h : s.client.routes = none) :
    (RouteSetup.lose s).log = s.log ++ [.raised .client .attributeError] := by
  simp [RouteSetup.lose, h]

/-- An answer to a question that was not asked, or was answered already. (C114) -/
theorem answer_unasked (s : RouteSetup.Sys) (box : Router.Box) (burst : List Router.Box) (tag name : Router.Str)
    (h1 : Dict.get? box RouteSetup.ANSWER = some tag) (h2 : Dict.get? box RouteSetup.NAME = some name)
    (h3 : Dict.get? s.pending tag = none) :
    (RouteSetup.clientProto s box burst).log = s.log ++ [.raised .client .keyError] := by
  simp [RouteSetup.clientProto, h1, h2, h3]

/-- Options that lack one of the fields of the subject. (C100) -/
theorem subject_without (opts : Dict Certcreate.Str Certcreate.Val) (l : List (Certcreate.Str × Certcreate.Str))
    (d : Dict Certcreate.Str Certcreate.Val) (h : ∃ f ∈ l, Dict.get? opts f.1 = none) :
    Certcreate.subject opts l d = .error .keyError := by
  induction l generalizing d with
  | nil => obtain ⟨f, hf, -⟩ := h; cases hf
  | cons f l ih =>
    obtain ⟨x, y⟩ := f
    rw [Certcreate.subject]
    cases hx : Dict.get? opts x with
    | none => rfl
    | some v =>
      refine ih _ ?_
      obtain ⟨g, hg, hn⟩ := h
      rcases List.mem_cons.1 hg with rfl | hg
      · rw [hx] at hn; cases hn
      · exact ⟨g, hg, hn⟩

/-- A mode attribute that is itself modal: the recursion ends with `RuntimeError`. (C52) -/
theorem mode_of_mode (mro : List (Dict Modal.Name Modal.Val)) (inst : Dict Modal.Name Modal.Val) (a : Modal.Name)
    (h1 : Dict.get? inst a = none) {x y z} (h2 : Modal.lookup mro a = some (.modal x y z)) :
    Modal.currentMode mro inst (.str a) = .error .runtimeError := by
  simp [Modal.currentMode, h1, h2]

/-- A `DelayedCall` class without an initialiser written in Python. (C112) -/
theorem delayed_without (o : HotfixInstall.Outside) (h : HotfixInstall.Heap)
    (hn : ∀ f, h.attr (.target .delayed) "__init__" ≠ some (.fn f)) :
    HotfixInstall.wanted o h (.pair .delayed) = .error .attributeError := by
  have : h.delayedArgs = .error .attributeError := by
    unfold HotfixInstall.Heap.delayedArgs
    split
    · rename_i f hf; exact absurd hf (hn f)
    · rfl
  simp only [HotfixInstall.wanted, this]

/-- Options without a serial number, a file name or the quiet flag. (C100) -/
theorem create_without (E : Certcreate.Env) (opts d : Dict Certcreate.Str Certcreate.Val)
    (hs : Certcreate.subject opts Certcreate.fields [] = .ok d)
    (h : Dict.get? opts (Certcreate.chars "serial-number") = none ∨ Dict.get? opts (Certcreate.chars "filename") = none ∨
      Dict.get? opts Certcreate.quiet = none) :
    Certcreate.create E opts = ([], .raised .keyError) := by
  unfold Certcreate.create
  rw [hs]
  simp only
  split
  · rename_i h1 h2 h3
    rw [h1, h2, h3] at h
    rcases h with h | h | h <;> cases h
  · rfl

/-- A warning whose file name is not a string. (C87) -/
theorem warns_no_name (category message line : AssertWarns.Val) (filename : List Nat) (n : Nat) (result : AssertWarns.Val)
    (others : List (List AssertWarns.Val)) (ho : ∀ o ∈ others, o.take 2 = [message, category]) :
    AssertWarns.check category message filename ([message, category, .obj n, line] :: others) result = .error .typeError := by
  have h : (others.any fun other => other.take 2 != [message, category]) = false := by
    rw [List.any_eq_false]
    intro o hm
    simp [ho o hm]
  simp [AssertWarns.check, h]

/-- A word that is neither `noon` nor `midnight`; the parser calls the function only with these. (C119) -/
theorem noon_midnight (text : List Nat) (z : ExtimeZone.Zone) (now : Extime.Time)
    (h1 : Extime.lowerS text ≠ Extime.wNoon) (h2 : Extime.lowerS text ≠ Extime.wMidnight) :
    ExtimeZone.fromNoonOrMidnight text z now = .error .assertionError := by
  simp [ExtimeZone.fromNoonOrMidnight, h1, h2]

/-! ## TLS (C34), statistics (C64) and timeouts (C70) -/

/-- A second `startTLS` raises `RuntimeError`, whatever happened between; nothing else changes. -/
theorem tls_again {Box : Type} (ser : Box → Option PyErr) (st : JuiceTls.St Box) (h : st.certified = true) :
    JuiceTls.startTLS ser st = { st with raised := st.raised ++ [.runtimeError] } := by
  unfold JuiceTls.startTLS
  rw [if_pos h]

/-- A line of the statistics with fewer than three words: `IndexError`. -/
theorem disk_line_short (line : List Nat) (h : (words isByteSpace line).length < 3) :
    Benchmark.parseDiskStatLine line = .error .indexError := by
  unfold Benchmark.parseDiskStatLine
  simp only [List.getElem?_eq_none (show (words isByteSpace line).length ≤ 2 by omega)]

/-- A `DelayedCall` that is not pending can be neither cancelled nor reset, whatever else is pending or not. -/
theorem not_pending (st : Timeout.St) (id : Nat) (period : Int) (h : ∀ c ∈ st.calls, c.1 ≠ id) :
    Timeout.cancelCall st id = .error (.other "AlreadyCalled") ∧ Timeout.resetCall st id period = .error (.other "AlreadyCalled") := by
  have : st.calls.any (·.1 == id) = false := by
    rw [List.any_eq_false]
    intro c hc
    simp [h c hc]
  unfold Timeout.cancelCall Timeout.resetCall
  simp [this]

example : (words isByteSpace [56, 32, 48]).length < 3 := by decide
example : Timeout.cancelCall (Timeout.St.new 0) 3 = .error (.other "AlreadyCalled") := rfl

/-- Statistics afterwards but none before: `AttributeError` (of `None`); statistics without one of the counters too. (C85) -/
theorem no_statistics_before (a : Benchmark.Stat) (names : List Structlike.Name) :
    Benchmark.differences (some a) none names = .error .attributeError ∧
    ∀ (b : Benchmark.Stat) (n : Structlike.Name) (ns : List Structlike.Name), Dict.get? a n = none ∨ Dict.get? b n = none →
      Benchmark.differences (some a) (some b) (n :: ns) = .error .attributeError := by
  refine ⟨rfl, fun b n ns h => ?_⟩
  have : Benchmark.minus a b n = .error .attributeError := by
    unfold Benchmark.minus
    rcases h with h | h
    · rw [h]
    · rw [h]; cases Dict.get? a n <;> rfl
  simp only [Benchmark.differences, List.mapM_cons, this]
  rfl

/-- A line of the mount table with fewer than two words, wherever it is: the whole search ends with the `IndexError` of `parts[1]`. -/
theorem short_mount_line (sp : Nat → Bool) (cwd line : List Nat) (before after : List (List Nat))
    (h : (Py.words sp line).length < 2) :
    Benchmark.discoverCurrentWorkingDevice sp cwd (before ++ line :: after) = .error .indexError := by
  have key : Benchmark.possibilities sp cwd (before ++ line :: after) = .error .indexError := by
    induction before with
    | nil =>
      rw [List.nil_append, Benchmark.possibilities]
      generalize Py.words sp line = w at h
      match w, h with
      | [], _ => rfl
      | [_], _ => rfl
    | cons b bs ih =>
      rw [List.cons_append, Benchmark.possibilities, ih]
      split <;> rfl
  rw [Benchmark.discoverCurrentWorkingDevice, key]

example : Benchmark.discoverCurrentWorkingDevice (· == 32) [47] [[114, 32, 47], [120]] = .error .indexError :=
  short_mount_line _ _ [120] [[114, 32, 47]] [] (by decide +kernel)

/-! ## Attributes (C57) and lists (C28) -/

/-- An attribute that neither the class nor the object has. -/
theorem no_attribute (c : Descriptor.Cls) (oself : Nat) (name : Descriptor.Name) (h : Descriptor.Heap)
    (h1 : Descriptor.find c name = none) (h2 : Dict.get? (h oself) name = none) :
    Descriptor.getattr c oself name h = (.error .attributeError, h) := by
  unfold Descriptor.getattr
  rw [h1]
  simp only [h2]

/-- A function that the metaclass did not make static would get one argument too many. -/
theorem plain_member (d : Dict Descriptor.Name Descriptor.Member) (kw : Descriptor.Name) (f : Descriptor.Fn)
    (hd : Dict.get? d kw = some (.plain f)) (oself : Nat) (v : Option Descriptor.Value) (h : Descriptor.Heap) :
    Descriptor.callMember d kw oself v h = (.error .typeError, h) := by
  unfold Descriptor.callMember
  rw [hd]
  rfl

/-- `bytes` cannot be split at a `str`, nor matched with the pattern of times. -/
theorem listOf_bytes (c : JuiceArgs.Codec) (delimiter : Juice.Str) (b : List Nat) (D : Extime.Digits) (opt : Bool) :
    (JuiceArgs.listOf c delimiter).dec (.raw b) = .error .typeError ∧
      (JuiceArgs.timeArg D opt).dec (.raw b) = .error .typeError := ⟨rfl, rfl⟩

example : Descriptor.getattr [] 0 [120] (fun _ => []) = (.error .attributeError, fun _ => []) :=
  no_attribute [] 0 [120] _ rfl rfl

/-! ## Headers, bodies and commands (C24, C110, C31), services (C130), Base64 (C136) -/

/-- A message that begins with a continuation line. -/
theorem continuation_first (U : Uni) (rest : List Nat) (lines : List (List Nat)) :
    Juice.parseJuiceHeaders U ((32 :: rest) :: lines) = .error .assertionError := rfl

/-- The body of a box that has none. -/
theorem no_body (o : JuiceBoxes.Obj) (h : Dict.get? o.fields Juice.BODY = none) : o.getBody = .error .keyError := by
  unfold JuiceBoxes.Obj.getBody
  rw [h]

/-- A method with the name of a command that was not declared to be one: looking for its command raises, nothing is called, and
the exception is not turned into an answer. -/
theorem undeclared_command (U : Uni) (H : JuiceDispatch.Hier) (app : JuiceDispatch.App) (cmd : Juice.Str) (box : Juice.Box)
    (ns : Option Juice.Str) (m : Nat)
    (h : app.attr (JuiceDispatch.autoDispatchPrefix ++ JuiceDispatch.normalizeCommand U cmd) = some (.bare m)) :
    JuiceDispatch.dispatchCommand U H app cmd box ns = ([], .error .attributeError) := by
  unfold JuiceDispatch.dispatchCommand JuiceDispatch.lookupFunction
  rw [h]
  rfl

/-- Only a `SchedulingService` has `addIterator`. -/
theorem not_scheduling (s : Services.Service) (i : Nat) (h : s.kind ≠ .scheduling) :
    Services.step s (.add i) = .error .attributeError := by
  unfold Services.step Services.addIterator
  dsimp only
  split
  · next e => exact absurd e h
  · rfl

/-- What is no string has no `encode`. -/
theorem base64_not_string (opt : Bool) (x : JuiceArgs.Obj) (h : ∀ s, x ≠ .str s) :
    (JuiceBase64.base64Binary2 opt).enc x = .error .attributeError := by
  cases x <;> first | rfl | exact absurd rfl (h _)

example : Services.step ⟨.standardIO 3, false, []⟩ (.add 1) = .error .attributeError := not_scheduling _ _ (by decide)

/-! ## Lists of what is no sequence (C28), deleting (C57), locked protocols (C83), the clock (C112), links in circles (C122) -/

/-- `ListOf` cannot write what is not iterable. -/
theorem listOf_not_iterable (c : JuiceArgs.Codec) (delimiter : Juice.Str) (x : JuiceArgs.Obj) (h1 : ∀ l, x ≠ .list l)
    (h2 : ∀ s, x ≠ .str s) (h3 : ∀ d, x ≠ .dict d) (h4 : ∀ b, x ≠ .bytes b) :
    (JuiceArgs.listOf c delimiter).enc x = .error .typeError := by
  cases x <;> first | rfl | exact absurd rfl (h1 _) | exact absurd rfl (h2 _) | exact absurd rfl (h3 _) | exact absurd rfl (h4 _)

/-- Deleting an attribute that neither the class nor the object has. -/
theorem no_attribute_deleted (c : Descriptor.Cls) (oself : Nat) (name : Descriptor.Name) (h : Descriptor.Heap)
    (h1 : ∀ d, Descriptor.find c name ≠ some (.desc d)) (h2 : Dict.get? (h oself) name = none) :
    Descriptor.delattr c oself name h = (.error .attributeError, h) := by
  unfold Descriptor.delattr
  split
  · next d e => exact absurd e (h1 d)
  · rw [if_neg (show ¬ Dict.has (h oself) name = true by simp [Dict.has, h2])]

/-- A command after a switch has begun, on a connection that is not lost: `AssertionError`, and nothing is sent. -/
theorem command_locked (w : JuiceSwitch.World) (s requiresAnswer : Bool) (h1 : (w.side s).locked = true)
    (h2 : (w.side s).outstanding ≠ none) :
    ((JuiceSwitch.command w s requiresAnswer).side s).raised = (w.side s).raised ++ [.assertionError] ∧
    (JuiceSwitch.command w s requiresAnswer).chan = w.chan := by
  unfold JuiceSwitch.command
  dsimp only
  cases ho : (w.side s).outstanding with
  | none => exact absurd ho h2
  | some d => cases requiresAnswer <;> simp [h1, JuiceSwitch.World.setSide]

/-- A clock without `callLater`. -/
theorem clock_without (o : HotfixInstall.Outside) (h : HotfixInstall.Heap) (hn : h.attr .clock "callLater" = none) :
    HotfixInstall.clockIsBroken o h = .error .attributeError := by
  unfold HotfixInstall.clockIsBroken
  rw [hn]

/-- Opening a path that leads nowhere, as links in a circle do. -/
theorem open_circle (limit : Nat) (w : FileLinks.World) (p : List Path.Str)
    (h : FileLinks.resolve w.links w.fs true limit p = none) :
    FileLinks.openWAt limit w p = .error FilePath.osError := by
  unfold FileLinks.openWAt
  rw [h]

/-- Only text and bytes are strings. (C28) -/
theorem string_wrong_type (opt : Bool) (x : JuiceArgs.Obj) (h1 : ∀ s, x ≠ .str s) (h2 : ∀ b, x ≠ .bytes b) :
    (JuiceArgs.string opt).enc x = .error .typeError := by
  cases x <;> first | rfl | exact absurd rfl (h1 _) | exact absurd rfl (h2 _)

/-- Text that the pattern of times does not match is a `ValueError`, in every zone. (C119) -/
theorem iso_no_match (D : Extime.Digits) (s : List Nat) (z : ExtimeZone.Zone) (h : Extime.matchIso D s = none) :
    ExtimeZone.parseIso D s z = .error .valueError := by
  unfold ExtimeZone.parseIso
  rw [h]

/-- An attribute that the class does not have, asked of the class. (C57) -/
theorem no_class_attribute (c : Descriptor.Cls) (name : Descriptor.Name) (h : Descriptor.find c name = none) :
    Descriptor.classGetattr c name = .error .attributeError := by
  unfold Descriptor.classGetattr
  rw [h]

/-- A transport class of the hotfix without a `write` of its own. (C112) -/
theorem transport_without (h : HotfixInstall.Heap) (hn : h.own .hotTransport "write" = none) :
    HotfixInstall.installTransport h = .error .keyError := by
  unfold HotfixInstall.installTransport
  rw [hn]

/-- `os.remove` of a directory. (C78) -/
theorem remove_directory (fs : FilePath.Node) (p : List Path.Str) {es} (h : FilePath.lookup fs p = some (.dir es)) :
    FilePath.osRemove fs p = .error FilePath.osError := by
  unfold FilePath.osRemove
  rw [h]

example (opt : Bool) : (JuiceArgs.string opt).enc (.int 3) = .error .typeError :=
  string_wrong_type opt _ (fun _ => by simp) (fun _ => by simp)

/-- Statistics of the disk that lack a counter: the report cannot be made. (C85) -/
theorem no_counter (after before : Benchmark.Stat) (name : Structlike.Name)
    (h : Dict.get? after name = none ∨ Dict.get? before name = none) :
    Benchmark.minus after before name = .error .attributeError := by
  unfold Benchmark.minus
  rcases h with h | h
  · rw [h]
  · rw [h]; cases Dict.get? after name <;> rfl

theorem extractLoop_short (co : Spewer.Code) (l : Dict (List Nat) Spewer.Local) (k i : Nat) (result : Dict (List Nat) Spewer.Local)
    (h : co.varnames.length < i + k) (hi : i ≤ co.varnames.length) :
    Spewer.extractLoop co l k i result = .error .indexError := by
  induction k generalizing i result with
  | zero => omega
  | succ k ih =>
    unfold Spewer.extractLoop
    by_cases hl : i = co.varnames.length
    · rw [List.getElem?_eq_none (by omega)]
    · rw [List.getElem?_eq_getElem (by omega)]
      exact ih (i + 1) _ (by omega) (by omega)

/-- Code that has fewer names than arguments. (C88) -/
theorem too_few_names (co : Spewer.Code) (l : Dict (List Nat) Spewer.Local) (h : co.varnames.length < co.argcount) :
    Spewer.extractArgs co l = .error .indexError := by
  unfold Spewer.extractArgs
  dsimp only
  refine extractLoop_short co l _ 0 [] ?_ (by omega)
  split <;> split <;> omega

end Verif.ErrorKinds
