# Formal model of twisted/epsilon — design

Target: `/repo/epsilon` (Python).  Properties: `properties.jsonl`.  Model and proofs: `lean/Verif`.
Status per property: `MANIFEST.json`.

## 1. Method

* Every modelled Python function becomes one small total computable Lean function that mirrors its
  branches.  Exceptions are values (`Except PyErr α`); "operation raised" is never confused with
  "operation returned a default".
* State that Python keeps on objects becomes an explicit state record; callbacks into code we do not own
  (application handlers, receivers, transports, the reactor) become either a *trace* of observable calls
  or an arbitrary parameter over which the theorem quantifies.
* Histories/schedules are inductive: lists of operations folded over the state, or inductive step
  relations; theorems are proved by induction over them, with no bound.
* Each property is stated against a *specification* that does not use the modelled algorithm: plain list
  slicing, the calendar defined from leap-year counting, interval inclusion, "the first offset on which …",
  ghost logs, and so on.
* When the code does not satisfy the English property, the file holds (a) a theorem exhibiting the failure
  on a concrete input, named `..._fails` / `..._counterexample`, and (b) the strongest true version, named
  `..._partial`, with the missing part written in its doc comment.  §5 lists these disagreements.
* Next to every main theorem there is an `example` instantiating the hypotheses with a non-trivial case.

## 2. Layout

```
Verif/Py/*        Python primitives shared by the models (errors, dict, str/bytes, int formatting, slices, calendar)
Verif/Model/*     the model, one file per Python module, comments cite /repo file:lines
Verif/Lemmas/*    helper lemmas
Verif/Props/*     specifications and the property theorems (this is what MANIFEST.json names);
                  Props/Literals compares the string constants of the models with readable strings
```

## 3. Trusted base

* The Lean 4.33.0 kernel.  Axioms used by theorems: at most `propext`, `Classical.choice`, `Quot.sound`.
  No `sorry`, no own axioms, no `native_decide`/`bv_decide`.
* The hand translation Python → Lean (each definition cites the lines it mirrors).
* The primitives in `Verif/Py` as descriptions of CPython behaviour (dict ordering, `str` methods,
  `slice.indices`, `datetime` arithmetic, `'%02i'` formatting).
* `email.utils.parsedate_tz` is modelled from the CPython 3.11 source; the Lean function was compared with CPython on
  6000 generated strings without a difference.  `strftime` and month names are those of the C locale.
* `Verif/Py/Path` (`posixpath`) was compared with CPython 3.11 on 3000 generated paths without a difference.
* The string functions (`find`, `rfind`, `count`, `startswith`, `endswith`, `split`, `replace`, `strip`, `title`, `int`),
  `slice.indices` and `range`, the calendar (`datetime`, `+ timedelta`, `weekday`, `isocalendar`) and UTF-8 of `Verif/Py` were
  compared with CPython 3.11 on 22 000 generated cases, and the matchers of `Model/ExtimeIso` and `Model/ExtimeHuman` with
  its `re` module and the patterns of `extime.py` on 5000, without a difference.
* `Model/ExtimeFold`: what CPython 3.11 does with `fold` (kept by `replace`, reset by `+ timedelta`, set by `fromutc`) was
  compared with the examples of `Props/ExtimeFold` using the zones of `zoneinfo` for New York and St. John's; no difference.
* `Verif/Py/FloatText` (`float(s)`, `str(x)`) was compared with CPython 3.11 on 46 written numerals and 400 random doubles
  without a difference.
* `Verif/Py/Sha1` was compared with `hashlib` on 144 texts of lengths 0 to 300 without a difference.
* `translate` and `matchPieces` of the glob model were compared on 1500 patterns with a transcription of the `fnmatch.translate` of
  CPython 2.7, run with the `re` module of CPython 3; no difference.  No Python 2 was available, so neither the transcription nor
  any other statement about Python 2 in the models was checked against a Python 2 interpreter.
* Integers are converted to text and back at any length; CPython refuses more than 4300 digits since 3.10.7 (and in security
  releases of older versions) unless told otherwise.
* Python 3 semantics (setup.cfg: 2.7 and 3.7).  Where 2 and 3 differ the difference is stated in the model.
* Not modelled: Twisted itself (reactor, transports, `Deferred` internals beyond "fires once, runs its
  callbacks"), OpenSSL, the C library, memory exhaustion, threads, `__del__`, non-integer subclasses,
  monkey-patching.  Hash functions are arbitrary functions (parameters), except that C129 and C137 use SHA-1 itself.

### 3.1 Functions outside the model

Of 408 functions in `/repo/epsilon` (tests apart) no definition of the model cites the following 1; every other function
is cited by the definition that models it.  It is used only where `os.path` has no
`islink`, and nothing in the module calls it.

* `hotfixes/filepath_copyTo.py`: islink 28-29.

## 4. Per-property plan

| id | modelled | how it is proved |
|----|----------|------------------|
| C01–C03 | `asISO8601TimeAndDate` to characters; the ISO regex as a backtracking parser; the three phases of `fromISO8601TimeAndDate`; `datetime` as a calendar record ↔ µs count | parser∘printer equation per precision; calendar bijection (`ymd2ord`/`ord2ymd`) proved from the leap rule; C02 refuted for negative offsets with minutes |
| C04–C06 | `calculateDtime` branches | acceptance iff, against a calendar spec defined by counting days |
| C07, C08 | `determineResolution`, `calculateTimezone` | case split over match shapes |
| C09, C10 | `fromDatetime`, `asDatetime`, `__add__`, `__sub__` over µs with range checks | integer arithmetic through the calendar bijection |
| C11–C14 | `__contains__`, `__eq__`, `getBounds`, `oneDay` | interval algebra over `Int`; C13: TypeError on Python 3, proved for Python 2 |
| C15 | `sanitizeStructTime` | `omega` on clamps |
| C16, C17 | struct/RFC2822 printer and the `email.utils.parsedate_tz` subset reached | printer/parser equation |
| C18 | exact rational timestamp + rounding to double | error bound |
| C19–C21 | `fromHumanly`, `asHumanly` | calendar arithmetic |
| C22–C24, C33 | `liner.dataReceived`, `lineReceived`, `rawDataReceived`, `serialize`, `parseJuiceHeaders` on bytes | refinement to a byte-at-a-time automaton, fold fusion gives chunk invariance; box codec by induction on the box |
| C25–C27 | `sendBoxCommand`/`juiceBoxReceived`/`failAllOutgoing`; two peers with FIFO channels, arbitrary scheduler | inductive invariant linking counter, outstanding table, channels and ghost logs |
| C28–C30 | `Argument` classes, `objectsToStrings`, `stringsToObjects`, `Command.__init__` | induction over argument lists |
| C31, C32, C35 | `DispatchMixin`, error translation | case analysis, end-to-end composition |
| C34 | send/prepareTLS/startTLS state machine | invariant over histories |
| C36–C40 | `Router`/`Route` | invariant over histories, two-router composition |
| C41–C45 | `OneTimePadChecker`, `CredReceiver` | ghost-log invariants; hash is a parameter |
| C46, C47 | `Caseless` over code points with an arbitrary `lower` | order laws; least-index spec |
| C48 | `SlicedView` with CPython `slice.indices` | index arithmetic |
| C49–C51 | `record`, `__init__`, `_RecursiveReprer` | against Python call binding; fuel-free recursion over finite graphs |
| C52, C53 | `ModalType`, `transitionTo` | traces |
| C54, C55 | `Exposer` with MRO lists | membership invariants |
| C56–C60 | small state machines | history induction |
| C61–C68 | scripts and helpers | list/tree induction |
| C69–C75 | hotfixes | history induction, tree induction |
| C76 | benchmark back channel | induction on the bytes |
| C77 | spewer | induction on the event trace |
| C78–C81 | `filepath_copyTo` tree operations | induction on the tree, history induction |
| C82 | juice argument types | codec round trip |
| C83 | juice protocol switching | inductive invariant of two peers and two channels |
| C84 | `LineReceiver` with any delimiter and application | refinement of a byte-at-a-time reader |
| C85 | benchmark measurements and reports | history induction |
| C86 | `asRFC1123` through the float timestamp | exact up to 2³³ s and below the last 16 µs of a second; refuted beyond |
| C87 | `failUnlessWarns` around an arbitrary function of the `warnings` state | exact acceptance condition; restoration for any function; nesting; refuted for `warnings.warn` and file names |
| C88 | `extractArgs` on the code object of any signature | exact without keyword-only parameters; refuted with them |
| C89 | `pluginModules` as a generator, `_regeneratePluginCache`, `regeneratePluginCache` | exact unless a module fails with an argument-less `ValueError`; refuted for that, for failing listings and for early closing |
| C90 | exclusive creation through `FilePath` | `create` as lookup-then-put in one step (`O_EXCL`); `Kept` says what was there is there; any interleaving of non-removing actions by induction |
| C91 | `siblingExtensionSearch` | independent specification: first accepted name (list of names per extension) that is in the listing; induction over extensions, with the canonical-path lemmas of C71 |
| C92 | benchmark script and parent over two pipes | inductive invariant: the pipes hold at most the byte of the call that waits; the history is a beginning of the expected one |
| C93 | `getSize`, `getOneSize`, `islink` | from the exactness of `walk` (C79): two duplicate-free lists of the same paths are permutations of each other |
| C94 | requests and answers over bytes (C22–C26 together) | the parser on a prefix of the stream is described by the boxes it has yielded, independently of the application (`JuiceSim`); a simulation of the byte-level peers by the box-level ones of C25, each parsed box being one delivery; quiescence from a box-level invariant (every request is in flight or handled, every handled command pending or answered) |
| C95 | order of commands | invariant: handled boxes followed by the command boxes in flight are a sublist of the calls made (all of them without lock and loss); transported to bytes by the simulation of C94 |
| C96 | two peers, two channels of Negotiate messages, each peer's version | transition relation seen from one end; invariants on channels by induction on the history; witness of disagreement when negotiations cross |
| C97 | the stack of contexts and the guards made so far as state of repr | soundness against the relation Printed of C51 by induction on the fuel; termination by comparison with the guard-threaded function |
| C98 | `remote_call`, `remote_calls_complete` | compose C94 (bytes, requests, answers) with C29 (arguments), C31 (dispatch) and C32 (errors) through one specification of a call |
| C99 | `never_nested`, `never_twice`, `in_order`, `no_stall`, `ends_properly`, `comes_to_rest` | small-step machine with an explicit call stack; one invariant by cases on the program counter; termination by a weight |
| C100 | certcreate command line | `Written` grammar and `getopt T args = some (os, rest) ↔ Written T os rest args`; `main_spec` from it |
| C101 | router under re-entrant receivers | stack machine in which receivers' code performs arbitrary operations; invariants over all executions; refinement to the sequential model for silent receivers |
| C102 | line receiver under re-entrant subclasses | stack machine in which the subclass's code does arbitrary things; conservation of bytes as an invariant |
| C103 | network simulator of the tests | machine that goes through pump from call to call with arbitrary actions in between; conservation, at-most-once and termination as invariants |
| C104 | hash tables with any hash and probe order; stable sort by `<` | refinement to a case-insensitive map; order and stability determine the sort |
| C105 | delegated methods over ASCII text | pointwise characterisation; slice at the found position |
| C106 | making directories in trees | induction over the components, from the top |
| C107 | glob over trees against an inductive matching relation | induction over the components, from the last |
| C108 | callback chain and event loop; main over trees | case analysis; C106 and exact removal |
| C109 | juice requests with arbitrary re-entrant applications | a stack machine of running callback chains; invariants: counter/tag bookkeeping and the list of Deferreds still owed |
| C110 | sendTo of all box classes over one peer | every event of the log is placed: induction over the operations, snoc lists |
| C111 | parts, order and cached stat of `FilePath` | independent specification of an extension (`IsExt`) with uniqueness; `Before` for code-point order; `known` folds a history of looks; canonical-path lemmas of C71 |
| C112 | effects of `install` of each hotfix | heap of classes whose dictionaries may be shared; closed form `ownAfter` of every attribute after any sequence, by invariant; `wanted` mirrors the tests of `require` |
| C113 | `CredAMPServerFactory`, `_errors`, and the `CredReceiver`s of `Model/AmpAuth` with one shared portal: a table of pads, a table of passwords, an arbitrary realm that may answer later | refinement of each connection to the single-connection machine of C41–C45; verdicts in closed form from the log; simulation with a server that has only this connection |
| C114 | two routers and the documented handshake | `Model/RouteSetup.lean`: both routers (the functions of `Model/Router.lean`), two FIFO channels, outstanding calls; invariant with the list of asked routes, the list of made routes and the number of answers written and arrived |
| C115 | the result file of benchmarks | commands with known texts written as legal boxes; induction over reports and benchmarks; parsing by C29's lemma |
| C116 | representation and order of Times | the expression's grammar as a relation, unique by splitting; order by the lemmas of C12 |
| C117 | the text of a DelayedCall is determined by what was asked of the call and by what its owner was told | `str_spec` and `str_debug`, `str_debug_cancelled` by an invariant over histories; the time until the call is due is told only after the owner activated the delay (`str_due_partial`), `str_delay_fails` shows a history in which the seconds are wrong |
| C118 | removing, walking and copying in a file system with symbolic links | `remove_links_partial` for links to anything but directories, by an induction over the tree in which resolution is stable under deletions below; `walk_links_partial` ends because a path of too many components leads nowhere; `copyTo_links_partial` by an induction over the tree as it is seen when links are followed; `remove_link_fails`, `remove_circle_fails`, `walk_circle_fails`, `copy_dangling_fails`, `copy_circle_fails` are the negative results |
| C119 | A zone is any pair of functions utcoffset, dst on fields with the stock tzinfo.fromutc; specification by clocks which show i + std (+ save in summer). | direct calculation; exact characterisation of the readings shown twice and of those skipped; New York 2005 as witness that the round trips fail there |
| C120 | The clocks of C119; the bounds as the least and greatest of the two readings of both ends. | case analysis on the season of the end and of the instant; witnesses where midnight is skipped (Brazil) or shown twice (Jordan) |
| C121 | asHumanly of C21 and fromHumanly of C20 composed, in FixedOffset zones and in the zones of C119; the specification speaks of instants and clock readings only. | the shown text is one of the clock times of C20 and its hour is the hour shown; all other texts fail every pattern |
| C122 | creating, opening, renaming and setContent in the file system with links of C118, the links moving with the entries; the specification is a function `entry` from places to what is there | `rename_entries` gives every entry after a renaming; resolution survives the writing of a file because nothing goes and no link changes (`resolve_keeps`); `setContent_links` is exact, `setContent_links_partial` is the claim when the sibling is not a link, `setContent_links_fails` shows that it is false otherwise |
| C123 | Caseless beyond ASCII | `Model/CaselessUnicode` (str.lower with an open database), `Props/CaselessUnicode`: lower case specified by places in the text, order and searches by induction over the scan; searches exact in text of simple characters, refuted for the capital sigma and for characters that become several |
| C124 | tracing of a whole program | `Model/SpewerTrace` (CPython's trace protocol, `Tracer.trace`, the methods of `Spewer`), `Props/SpewerTrace`: simulation of the run by the list of its events, mutual induction over the tree of calls; reading back by unique decomposition |
| C125 | floats as arguments | `Py/FloatText` (CPython's `float(s)` and `str(x)` as functions on text and rationals), `Model/JuiceArgs` (`floatArg`), `Props/JuiceFloat`: what is written denotes a decimal that rounds back; the search for the shortest one ends at the latest with the exact expansion of `k * 2 ^ j` |
| C126 | A datetime is its fields and fold, a zone any utcoffset, dst (of both) and fromutc; specification by a place: how much its clocks are ahead of UTC at each instant, with no summers assumed. | the fold singles out the instant; tuples and texts are those of the zone without fold; instances for all clocks of C119 and for New York before 1883; witnesses New York and St. John's 2005 |
| C127 | `Model/Unrepr`, `Py/Literal`: `repr` of plain data, `ast.literal_eval`, calls | structural induction over data (`Py/LiteralRead`): reading the text of a value inside brackets |
| C128 | kinds of the exceptions of the file operations | case analysis, induction over the depth of the recursion |
| C129 | `Py/Base64` (urlsafe base64, hex), `Py/Sha1`, `Model/SecureName` | `Props/SecureName`: induction over groups of three bytes; alphabet a bijection; composed with `temporarySibling_place` (C90) |
| C130 | the two services and a plain one, with the calls they make (`Model/Services`) | `Props/Services`: induction over histories; the claim about `running` refuted for all histories |
| C131 | mode classes with their bases (`Model/ModalDefaults`) | `Props/ModalDefaults`, from the dispatch theorem of C52 and the transition theorem of C53 |
| C132 | text and bytes as two kinds of values (`Model/CaselessTypes`) | `Props/CaselessTypes`: cases by kind; induction over the tuple |
| C133 | `unhandledError` beside `Model/Router` | `Props/RouterUnhandled`: the sender is set exactly if a start is in the history, by induction |
| C134 | record from a text | `Spells` (inductive specification of a text that spells words) and `record_text`, by induction on the text |
| C135 | DelayedCall with floats | exact specification `Want` beside the rounding model; error bound by induction over the history; rounding is monotone and Sterbenz's lemma in `Py/FloatOrder` |
| C136 | Base64Binary on Python 2 | `Py/Base64Decode` (encodestring, a2b_base64 as the loop of CPython 2.7) and induction over groups of three bytes / four letters |
| C137 | Overlapping logins on one connection | invariant over all orders of arrival |
| C138 | Delayed calls with a reacting owner | induction over nested scripts |
| C139 | Juice commands wrapped in transactions | comparison with the model without store, case analysis |
| C140 | Clock in use | Model/ClockRun: a list of calls with the turns of advance as single operations; invariant against a specification by call number |
| C141 | copyTo over what is there | Model/FileLinks.copyTo; entries of all places before and after; induction on the calls |
| C142 | the counting example over routes, as an application on the model of C114 | invariant of the log and of both applications over all runs; lexicographic measure for the fair deliveries |
| C143 | the documented adding servers, as an application on the model of C113 | invariant: every login that has an avatar or waits for one has a verdict in the log; frame lemma for other connections |
| C144 | Runs of many deferredGenerators | explicit stack machine; invariant on where control of each generator is (one frame or one callback), on results and on the log |
| C145 | Sizes of trees with symbolic links | path resolution with the reasons of failure refines that of C118; the walk of C118; permutation invariance of sums |

## 5. Disagreements between code and property

Each entry names the theorem that exhibits the failure on the model.

* **C24** (`Juice.segmentation_fails`): dropping the connection while handling a box with a body still lets
  one more line of the same chunk be processed, because `setLineMode(extraData)` re-enters `dataReceived`
  before anybody looks at `disconnecting`.  Whether the extra line is processed depends on segmentation.
* **C22** (outside legal boxes; `Juice.empty_body_fails`, `nonascii_body_fails`, `keyword_key_fails`): an
  empty body is dropped, the announced body length counts characters instead of bytes, a key that is a Python
  keyword arrives capitalised.
* **C33** (`Juice.switch_on_body_fails`): if the switching box has a body the inner protocol's
  `makeConnection` is called twice.
* **C36** (`Router.unbind_after_rebind_fails`), **C38** (`Router.start_displaced_fails`, `start_repeats_fails`),
  **C40** (`Router.fresh_identifier_fails`): see MANIFEST notes.
* **C25** (`JuiceRpc.answers_confused_fails`): nothing stops an application from sending a box that already holds
  the key `_answer`; the peer takes the command for an answer.
* **C26** against an arbitrary remote side (`JuiceRpc.mute_error_fails`): an error box without code or description takes the
  request off the table before `KeyError` is raised, so its Deferred never fires, not even when the connection is lost.
  `lost_all_fired_any_partial` excludes just these requests.
* **C28** (`JuiceArgs.listOf_empty_fails`, `listOf_overlap_fails`): `ListOf` turns `[]` into `['']` (or a
  `ValueError` for integers), and a delimiter that overlaps itself splits in the wrong place.
* **C82** (`JuiceArgs.encoded_wire_fails`, `encoded_survives_fails`, `base64Binary_fails`, `string_bytes_fails`): on
  Python 3 received values are `str`, which `Unicode`, `EncodedString` and `Path` try to `decode`; `Base64Binary` uses a
  codec that `str.encode` refuses; `bytes` given to `String` arrive as `str`.
* **C83** (`JuiceSwitch.server_pending_fails`, `client_pending_fails`, `simultaneous_switch_fails`): `_switchTo` does not lock, so
  a server whose earlier handlers are unfinished writes their answers into the inner protocol's stream; a locked client's late
  answer trips the assertion in `sendPacket` and closes the switched connection; two peers that ask for a switch at the same
  time both wait for ever.  Beside it: `ProtocolSwitchCommand.do` ignores its `namespace` argument.
* Beside C84 (`Liner.max_line_length_fails`): `MAX_LINE_LENGTH` is used nowhere, lines have no limit.
* **C30** (`JuiceArgs.unnormalised_name_fails`): a declared argument name that is not in normal form satisfies the
  constructor but can never be sent.
* **C31** (`JuiceDispatch.unknown_in_namespace_fails`, `namespaced_do_fails`): beside the property; see MANIFEST.
* **C32** (`JuiceDispatch.fatal_error_fails`, `shared_code_fails`, `remote_error_fails`, `base_first_fails`): `error in
  command.fatalErrors` looks up a `Failure`, so declared fatal errors never close the connection; codes shared between
  classes and `RemoteJuiceError`s raised by responders are turned into the wrong class.
* **C34** (`JuiceTls.prepare_twice_fails`, `prepare_after_tls_fails`, `unserialisable_fails`, `tlsbox_delayed_fails`).
* **C44** (`AmpAuth.overlapping_logins_fails`, `late_login_fails`, `raising_avatar_fails`): with two logins in flight the
  first one's logout is overwritten; a login that completes after the connection was lost is never logged out; an
  exception in the avatar's `stopReceivingBoxes` prevents the logout.
* **C45** (beside the property, `AmpAuth.nonce_length_fails`): the server accepts nonces of any length.
* **C02** (`Extime.iso_zone_fails`): `FixedOffset(int('-05'), int('30'))` adds the minutes instead of subtracting them:
  `-05:30` is read as −4:30 and `-00:30` as +0:30.
* **C03** (`Extime.iso_truncates_fails_long`, `iso_truncates_fails_9999`): a resolution of more than 366 days prints the
  empty string; the year 9999 cannot be read back, since its resolution is found by constructing 10000-01-01.
* **C04** (`Extime.iso_weekdate_fails`): `9999-W52-6` and `-7` overflow.
* **C07** (`Extime.iso_resolution_fails`, `iso_year_9999`): more than six decimals; the year 9999.
* **C11, C13, C14, C16**: see the MANIFEST notes (`Extime.getBounds_fails`, `structTime_roundtrip_fails`, …).
* **C17** (`Extime.rfc_roundtrip_fails_year`, `rfc_roundtrip_fails_day`): years below 100 are read as 1969–2068; a
  whole-day `Time` is printed without shifting it, but with the zone, so reading it back shifts it.
* **C18** (`Extime.posix_roundtrip_fails`): the last microsecond of 9999 rounds up to 253402300800.0 and overflows.
  Outside ±272 years of 1970 the double has less than microsecond precision.
* **C20** (`Extime.human_time_fails`, `human_noon_fails`): `12:30 pm` becomes hour 24 and is refused, whatever `now`;
  `noon` at 12:30 is the noon that has just passed.
* Beside the properties (in `example`s next to the theorems or in the model's comments): `yeſterday` (U+017F) matches the
  case-insensitive pattern and then trips an `assert`; weekday and day words ignore `tzinfo`; hour 24, seconds 60 and 61
  raise `ValueError`; `__add__` yields a resolution of one microsecond; `sanitizeStructTime` leaves 31 February alone;
  `asISO8601TimeAndDate` prints `+00:00` where its documentation says no zone is printed.
* **C52** (`Modal.modal_subclass_fails`, `modal_attribute_fails`, `modal_doc_fails`): a subclass that defines a modal method
  hides all the base's implementations of that name; the metaclass binds `mode` whatever `modeAttribute` says; the
  implicit `__doc__` of mode classes makes the class's `__doc__` a `ModalMethod`.
* **C53** (beside it): `mode.__enter__`/`__exit__` of the base class are not collected, so entering a mode that defines
  neither raises `AttributeError` after the mode has been changed.
* **C55** (`Expose.get_alias_fails`).
* **C56** (`Remember.remember_none_fails`, `remember_circle_fails`, `remember_clash_fails`).
* **C58** (`Hotfix.hotfix_retry_fails`): an install that raises is not remembered and is called again by the next `require`.
* **C60** (`React.react_window_fails`): when the application calls `reactor.stop()` and main's Deferred fires in the same
  reactor turn, `react` calls `stop` a second time (its flag is only set by the later shutdown event).
* **C61** (`Process.absent_fails`, `library_fails`): without a `PYTHONPATH` the child gets an additional empty entry, its
  working directory; `/usr/libx` is taken to be inside `/usr/lib`.
* **C62** (`Benchmark.device_prefix_fails`, `device_overmount_fails`): mount points are compared as text; of two devices
  mounted on one point the earlier (hidden) one is reported.
* **C65** (`Setuphelper.autosetup_root_fails`): a root with `__init__.py` or `plugins` makes `os.listdir('')` raise.
* **C76** (`Benchmark.backchannel_fails`): on Python 3 every byte of the back channel ends the child.
* **C66** (`Asplode.splode_python3_fails`, `splode_headless_fails`).
* **C68** (`Spewer.signals_foreign_fails`, `signals_twice_fails`): a handler that was not installed from Python is reported
  as `None`, which `signal.signal` refuses; starting twice forgets the original handlers.
* **C71** (`FilePath.child_separator_fails`, `preauth_escape_fails`): `child('b/../a')` is accepted; from `/foo`,
  `preauthChild('../foobar')` gives `/foobar`, since only the texts are compared.
* **C72** (`FilePath.copy_into_itself_fails`): a directory copied into itself is copied without end.  Beside it: copying a
  file onto itself empties it (`copy_self_empties`).
* **C73** (`DelayedCall.callLater_python3_fails`): `list.sort` takes no comparison function on Python 3.
* **C74** (`DeferredGenerator.yield_deferred_fails`, `wait_twice_fails`, `deferGenerator_python3_fails`): a Deferred yielded
  after a wait leaves the caller's Deferred unfired for ever; awaiting a Deferred again gives `None`; on Python 3 `g.next` does
  not exist and every call fails with `AttributeError`.
* **C77** (`Spewer.toggle_fails`, `depth_exception_fails`): `threading.setttrace` does not exist; exception events are
  counted as returns.
* **C80** (`FilePath.setContent_directory_fails`, `moveTo_device_fails`): `moveTo` between devices calls `secureSibling`, which
  does not exist.
* **C81** (`FilePath.stat_stale_fails`): answers are cached and go stale.
* Beside C71–C81: `filepath_copyTo.py` imports `sha`, which Python 3 does not have, so the module can only be imported on
  Python 2; `__getstate__` uses `has_key`.
* **C85** (`Benchmark.timeout_fails`, `disk_name_fails`, `unmeasured_fails`): a run that timed out is not reported at all; the disk of
  `nvme0n1p1` is taken to be `nvme0n1p`; a script without START and STOP makes the report raise half-way.
* **C86** (RFC 1123 dates).  The date is made from a float timestamp.  Beyond 2³³ seconds from 1970 the last (at most sixteen) microseconds of a second may be rounded up: the next second is printed (`rfc1123_fails_second`), and the last microsecond of the year 9999 raises `ValueError` (`rfc1123_fails_last`).  `rfc1123_near`: nothing else goes wrong.  As in C17, `fromRFC2822` takes years below 100 for abbreviations.
* **C87** (`failUnlessWarns`).  Only calls through the attribute `warnings.warn_explicit` are recorded; CPython's `warnings.warn` (in C since 2.6) does not make them, so ordinary warnings are not seen (`warn_unseen_fails`).  A warning from a file whose name is a proper prefix of the expected one passes, even the empty name (`any_file_fails`); of several warnings only the first has to come from the file (`other_file_fails`); a call with keyword arguments raises `TypeError` in the function under test (`keywords_fails`).
* **C88** (`extractArgs`).  `co_argcount` does not count keyword-only parameters, which come before `*args` and `**kwargs` in `co_varnames`; with `k` of them, the last `k` parameters are missing (`kwonly_fails`).  `formatArgs` calls `dict.iteritems`, which Python 3 does not have (C124).
* **C89** (plugin cache).  `ve.args[0]` raises `IndexError` for a `ValueError` without arguments, so a plugin module doing `raise ValueError` keeps all later ones from being yielded (`bare_error_fails`).  An exception while listing the plugins of one module does so too (`listing_fails`).  The bare `except` around the `yield` catches the `GeneratorExit` of `close()`, which raises `RuntimeError` if another module can be imported (`close_fails`); it also swallows `KeyboardInterrupt`.
* C90: `alwaysCreate` belongs to one `FilePath` object and is lost by `clonePath`. So `setContent` of a path with `alwaysCreate` overwrites the file that is there (`setContent_always_fails`), and `copyTo` of a directory to such a path overwrites the files in it (`copyTo_directory_fails`). `getContent` of such a path creates an empty file if there is none and fails if there is one (`getContent_always_fails`), `touch` always raises `AssertionError` (`touch_always_fails`). The temporary sibling of the root is a child of it (`temporarySibling_root_fails`).
* C91: with `'*'`, when no name begins with the path and a dot, the path followed by a literal asterisk is accepted too (`search_star_fails`). An extension with slashes leads out of the directory (`search_slash_fails`).
* C92: on Python 3 `start()` and `stop()` raise `TypeError` before anything is written, because `os.write` is given a `str` (`sync_fails`).
* C93: `FilePath.islink` is never true, because `restat` uses `stat` (`islink_fails`).
* C94 needs text the wire can carry: an error reply whose description has a lone surrogate cannot be encoded, `sendError` raises, and the request is not answered (`bytes_all_answered_fails`); `_puke` then asks the transport to drop the connection.
* C95: a locked peer skips requests that arrive but not commands without answer (`locked_skips_fails`); the property excludes locks where it claims completeness.
C96: with two or more common versions, negotiations begun by both ends at once leave the peers with different protocolVersions although both Deferreds succeed (`Renegotiate.crossing_fails`). With the module's VERSIONS=[1] this cannot be seen.
* **C99** holds.  `_LoopbackQueue.put` and `_loopbackAsyncBody` are Twisted's and are modelled from its source as known (release 8.2); only `_loopbackAsyncContinue` is in /repo.  Producers are left out.
* **C100** (`Certcreate.bad_serial_fails`): a mistake in the serial number (`-S x`) is no usage message: `int` raises `ValueError`, which escapes from `main` ; `Options` could have named a coercion. All other mistakes in the command line end in a message (`main_refuses_partial`).
* C100: `getopt.getopt` and `usage.Options` are outside /repo and modelled from their documentation: long names may be abbreviated, letters may be joined, `--help` and `--version` exist in every `Options`, and `-h` is the host name here. Signing, writing and `int` are arbitrary functions that may fail; the file of a failed write is not modelled (`open(…, 'wb')` empties it).
* **C102** (`Liner.Reentry.data_in_line_fails`, `raise_in_line_fails`): `dataReceived` keeps the buffer in a local variable while it calls `lineReceived` (`liner.py:37-63`). Data passed to the receiver from `lineReceived` is put behind the beginning of the current line, which is so received twice, and what it leaves over is overwritten; if `lineReceived` raises, the beginning of the line stays in the buffer and the rest of the data is lost. `lose_in_raw_fails`: a line handed back after `loseConnection()` is still delivered, since `isDisconnecting` is looked at only after a line.
* **C103** (`IOSim.data_after_lost_fails`, `producer_after_lost_fails`): `pump` goes on delivering after it has called `connectionLost`, also the data a producer writes in the very round in which the connection is closed. `raise_fails`: both files are emptied first, so if the server raises on its data, the client's is lost. `debug_fails`: with `debug` the data is printed as `'C: ' + line`, a `TypeError` on Python 3. `writeSequence_fails`: `FileWrapper.writeSequence` joins `bytes` with a `str`, or swallows the error. Beside these, `connectedServerAndClient.__enter__` takes no argument (and there is no `__exit__`), so it cannot be used in a `with` statement (`iosim.py:129-133`).
* **C104 (`caseless.py:93-112`).** A plain string with an upper-case letter equals the `Caseless` of it but has another hash, so it does not find it in a dictionary; `==` among plain strings and `Caseless` is not transitive; comparing a `Caseless` with anything that has no `lower` raises `AttributeError` where Python expects `False`, so that even `x in [None]` raises (`dict_plain_fails`, `eq_transitive_fails`, `other_fails`).
* **C105 (`caseless.py:76-77`).** Beyond ASCII, upper-casing may change a text up to case: `'ß'.upper()` is `'SS'` (`upper_unicode_fails`; for `find` see C47).
* **C107 (`filepath_copyTo.py:269`).** `globChildren` does not quote special characters of its own path: for a directory named `a*` it also gives files of the directory `ab` (`glob_escapes_fails`). Proved for paths without special characters.
* **C108 (`benchmark.py:571-577`).** The child changes to the temporary directory before it opens the script, so a script named by a relative path is looked for in an empty directory (`relative_script_fails`). `bench` never returns if `func()` gives a Deferred that has been fired already (`bench_fired_fails`). `main` raises, although nothing went wrong, if the benchmark removed its own working directory (`main_gone_fails`).
* **C109**: an application that fires the Deferred of its own request (instead of cancelling it) makes `failAllOutgoing` raise `AlreadyCalledError` when the connection is lost: the requests after that one never fire, and the inner protocol is not told (`own_fire_fails`).
* **C110 (`juice.py:108-148`).** `sendTo` acts as soon as `sendPacket` returns, also when the box only went into the TLS buffer: a `QuitBox` then drops the connection unwritten (`quit_waiting_fails`). A second `TLSBox` or `_SwitchBox`, or a `NegotiateBox` without `version`, raises only after it has been written, so that the other side acts on it (`tls_twice_fails`, `switch_twice_fails`, `no_version_fails`). `TLSBox` and `_SwitchBox` cannot be copied (`copy_fails`).
* C111: answers of the getters go stale (`get_stale_fails`), as with C81; the English claim says only that they are of the last look.
* C112: the fix of generators leaves `[1]` as before, so what `require` looks for is not cured (`HotfixInstall.deferred_fails`), and the loopback's goes by the version (`loopback_fails`). The clock's fix gives `base.DelayedCall` a seventh argument, so without `delayedcall_seconds` every `Clock.callLater` raises `TypeError`, and so does `require` (`clock_alone_fails`). The fix of `TimeoutMixin` sets `module` instead of `__module__` (`timeout_module_fails`). The fix of `FilePath` leaves `clonePath` the class of the hotfix while `__cmp__` looks for Twisted's, so children of the same name differ, which is what the fix is to cure (`children_differ_fails`). On new-style classes dictionaries cannot be set (`new_style_fails`).
* **C113 (`ampauth.py:244-247`).** A pad is removed from the table before the realm is asked: if the realm has no such avatar, or the connection is lost before it has answered, nobody has got in and the pad is refused ever after (`pad_wasted_fails`).  A `PasswordChallengeResponse` before `PasswordLogin`, and credentials of a kind for which the portal has no checker, are not among the errors that the commands declare: the client is not told why, and loses the connection (`undeclared_fails`).
* C114: a receiver at the server that sends from `startReceivingBoxes` has its box on the wire before the answer to `NewRoute`, so the client's receiver is given a box before it was started (`client_started_first_fails`). It holds when server receivers are quiet at start (`client_started_first_partial`).
* C114: when the connection is lost while a `connect` is outstanding, the errback `connectionFailed` unbinds the route while `Router.stopReceivingBoxes` iterates over `_routes`: `RuntimeError`, and no receiver other than the AMP protocol is told (`lose_fails`, for every reachable state with an outstanding call).
* Beside C115: on Python 3 no box of the result file can be read back as a `Results` command: `Unicode.fromString` calls `decode` on a text (`read_back_fails`); the boxes themselves are complete.
* Beside C116: `repr` leaves out the resolution: an all-day Time and the instant it starts at are shown alike (`repr_resolution_fails`).
* C117: after `delay` (or a `reset` to a later time) the text of a `DelayedCall` tells the seconds until `self.time`, not until `getTime()`; so the seconds are too few until the owner activates the delay (`str_delay_fails`).
* C118: `remove` looks at `isdir`, which follows links, and then calls `os.rmdir`, which does not: of a symbolic link to a directory it deletes everything in that directory, wherever it is, and then raises `OSError` (`remove_link_fails`); of a directory with a link to itself it removes the link by the longest path that leads to it, and then raises `OSError` because the shorter paths lead nowhere any more (`remove_circle_fails`); `walk` follows links, so that it yields a directory with a link to itself 41 times (`walk_circle_fails`); `copyTo` refuses links that lead nowhere in the middle of the copy (`copy_dangling_fails`), and of a directory with a link to itself it makes 41 directories in one another before it raises `NotImplementedError` (`copy_circle_fails`).
* C119: the round trips through asDatetime, asStructTime and the texts move the first of two instants with the same wall clock time to the second; fromHumanly of a skipped clock time may be in the past (`zone_roundtrip_fails`, `zone_texts_fails`, `zone_time_fails`).
* C120: where the clocks skip midnight, the last hour of the day before is beyond the upper bound of getBounds; where they show it twice, its first pass is before the lower bound (`zone_bounds_fails`).
* C121: a time from noon to one is shown as `12:mm pm`, which fromHumanly refuses (`readback_fails`); the first of two instants with the same clock reading is read back as the second (`zone_readback_fails`).
* C122: `setContent` opens its sibling (`f.new`) with an ordinary `open`, which follows links: if `f.new` is a link, the file it leads to is overwritten and `f` becomes the link (`setContent_links_fails`).
* C123: `Caseless('ΑΣ')` does not end with `'Σ'` nor contain it, because the sigma is lower-cased in its context (`sigma_fails`); `'i'` is found in `'İ'`, and positions after an `'İ'` are those of the lower-case text (`length_fails`). `Caseless` lower-cases where the standard says that texts should be case-folded.
* C124: on Python 3 `formatArgs` raises `AttributeError` (`iteritems`), which the interpreter raises in the first function called while the Spewer is installed (`spew_py3_fails`). On Python 2 an exception lowers the depth once for every frame it passes and again when these return, so that what follows is printed too far left (`spew_exception_fails`). `skip` returned for another event than a call means nothing to the interpreter.
* C125: nan arrives as nan, which is not equal to itself (`float_nan_fails`). Integers from 2**53 on are rounded, from about 1.8e308 on they arrive as infinity (`float_integer_fails`). `Float` accepts any object at all, and the receiver refuses what is not a number (`float_anything_fails`). On Python 2, `str` writes twelve digits, and most floats arrive as others (`float_py2_fails`).
* C126: tuples and texts without offset have no fold and so mean the first showing; offsets with seconds are cut to minutes; fromHumanly compares readings, so that it may miss a repeated reading or, when the clocks go back over midnight, name a past one (`fold_struct_fails`, `fold_rfc_fails`, `fold_time_fails`).
* C127: `repr(v)` of an infinity, of a nan, or of data nested more than 200 deep is written without complaint and cannot be read back by `unrepr` (`unrepr_inf_fails`, `unrepr_deep_fails`); the property states the limits. Sets, complex numbers, `...`, strings side by side, `u` and `r` prefixes and a tuple without parentheses can be read by CPython and not by the model; every text that the model reads was read as the same value by CPython in 2800 random and damaged texts.
* C130 (`cooperator.py:24-28`, `process.py:63-67`): `SchedulingService` and `StandardIOService` override `startService` without calling it, so `running` stays 0 (`scheduling_running_fails`, `standardIO_running_fails`); a second start of a `StandardIOService` connects the protocol a second time, and a stop leaves it connected.
* C131 (`modal.py:52-54`, `107`): the metaclass looks only at the `__dict__` of a mode class, so inherited methods, and the `__enter__` and `__exit__` of `mode` itself, are never used (`inherited_fails`, `stranded_fails`, `entered_fails`, `plain_modes_fails`). A comment in the code says so.
* C132 (`caseless.py:52-57`, `115-116`): `str(Caseless(b'A'))` is `"b'A'"` on Python 3 (`str_bytes_fails`), `__unicode__` raises `NameError` (`unicode_fails`), and `n in Caseless(b'A')` raises `AttributeError` for the very items of its iteration (`items_bytes_fails`).
* C133 (`amprouter.py:101`): before the router has started, `unhandledError` of a route raises `AttributeError` on `None` and the failure is lost (`unhandled_fails`). A stopped router keeps its sender: routes go on sending (`send_after_stop`).
* C134: an attribute called `self` cannot be given by keyword, `record('self')(self=1)` is refused by Python itself (`self_fails`). Attributes named twice (`record('a a')`) are accepted by `record` but the class cannot be called (`named_twice`).
* C135: with floats the owner of a DelayedCall can be told of a reset although its time did not move (`told_fails`), and a reset to more than twice the scheduled time can be off by a rounding: 0.2 reset to 0.9 says 0.8999999999999999 (`reset_fails`).
* `Py/Base64Decode`: no Python 2 interpreter was available; the decoder follows CPython 2.7's `a2b_base64` and agreed with CPython 3.11's on 414 texts (among them random ones with misplaced `=`), the encoder with CPython 3.11's codec on 17 lengths around the line breaks.
* C137: of two overlapping logins on one connection, both with the right password, the one that asked first is refused (`right_password_fails`): the second `PasswordLogin` replaces the challenge.
* C138: when the owner raises while told of a reset, the new time stands (`raise_changes_fails`); an owner that itself cancels the call it is told to cancel makes the outer `cancel` raise `AttributeError` from `del self.func` (`cancel_twice_fails`); an owner that makes the call when told of its cancellation leaves it made and cancelled (`made_and_cancelled_fails`).
* C139: `doit` hands the exception of a `command_` method to a `Deferred` before `store.transact` could see it, so the transaction of a command that fails is kept (`command_kept`, `rollback_fails`); only old-style methods are undone. `store.transact` itself is outside /repo: it is taken to undo exactly what raises.
* C140: `Clock`'s resetter does nothing, so after `reset` or `delay` the list is out of order until the next `callLater`: a call that is due is not made when the one before it in the list was put off (`overdue_fails`), or calls are made in the wrong order (`order_fails`).
* C141: with a link in the destination `copyTo` writes to, or makes, files outside it (`copyTo_escapes_fails`); if the link leads to the source file, that file is emptied and `copyTo` returns (`copyTo_loses_fails`); an empty directory copied over a file leaves the file (`copyTo_empty_directory_fails`).
* C142: each counter and client is an AMP that numbers its requests from 0 in decimal; a client may also call again after it was started.
* C143: integers are not converted to text; only the command `Add` is modelled once somebody has logged in.
* C144: if two generators (or one twice) wait for the same Deferred, only the first gets its result; `gotResult` returns `None`, which is what the others get (`GenRun.shared_fails`, stated exactly by `GenRun.resumed_with`). A generator that yields a Deferred after having waited is abandoned, and its Deferred never fires (`GenRun.abandoned_fails`).
* C145: what several paths lead to is counted for each of them: a directory with a link to it beside it counts twice (`SizeLinks.counted_twice_fails`). A link in a circle makes `getSize` raise `OSError` (`ELOOP`), since only `ENOENT` is caught (`SizeLinks.circle_fails`).
* Beside C36–C40: on Python 3 Twisted's own AMP boxes have `bytes` keys, so the router's `str` key `'_route'` never matches
  a box that came off Twisted's wire; the model takes the keys as the module writes them.  `Time` defines `__eq__` without
  `__hash__` and is unhashable on Python 3.  Declared juice error codes are taken to be `str`.
* C101, `amprouter.py:168-198`: both loops run over the live dictionary of routes. A receiver that unbinds its route when told of the
  stop makes the stop raise `RuntimeError`; the receivers after it are not told and the router goes on running
  (`unbind_in_stop_fails`). A receiver that binds a route when it is started makes the start raise, and the router never runs
  (`bind_in_start_fails`). A route connected by another receiver during the start is started twice (`connect_in_start_fails`). A box
  that arrives during the start raises `TypeError` (`receive_in_start_fails`). A start inside the start leaves the router unable to
  deliver (`nested_start_fails`).
