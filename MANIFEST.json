{
 "claims": [
  {
   "property": "C01",
   "status": "proved",
   "theorems": [
    "Verif.Extime.iso_roundtrip",
    "Verif.Extime.matchIso_sound",
    "Verif.Extime.matchIso_complete",
    "Verif.Extime.parse_iff"
   ],
   "note": "For every representable instant and resolution of at most a microsecond, with and without delimiters and zone.  Floating point in the fraction is modelled exactly (IEEE double, round half to even)."
  },
  {
   "property": "C02",
   "status": "partial",
   "theorems": [
    "Verif.Extime.iso_zone_iff",
    "Verif.Extime.iso_zone_partial",
    "Verif.Extime.iso_zone_argument",
    "Verif.Extime.iso_zone_fails"
   ],
   "note": "False for zones west of Greenwich by hours and minutes: '-05:30' is read as -4:30.  iso_zone_iff says exactly when the round trip works."
  },
  {
   "property": "C03",
   "status": "partial",
   "theorems": [
    "Verif.Extime.iso_truncates_partial",
    "Verif.Extime.periodStart_spec",
    "Verif.Extime.iso_truncates_fails_long",
    "Verif.Extime.iso_truncates_fails_9999"
   ],
   "note": "False for resolutions over 366 days (prints '') and for year precision in 9999 (cannot be read back)."
  },
  {
   "property": "C04",
   "status": "partial",
   "theorems": [
    "Verif.Extime.iso_weekdate_partial",
    "Verif.Extime.iso_weekdate_isocalendar",
    "Verif.Extime.iso_weekdate_fails"
   ],
   "note": "False only for 9999-W52-6 and 9999-W52-7, days of the year 10000 (OverflowError)."
  },
  {
   "property": "C05",
   "status": "proved",
   "theorems": [
    "Verif.Extime.iso_ordinal"
   ],
   "note": "Years 1 to 9999."
  },
  {
   "property": "C06",
   "status": "proved",
   "theorems": [
    "Verif.Extime.iso_date"
   ],
   "note": "Also for fractions of seconds; in UTC."
  },
  {
   "property": "C07",
   "status": "partial",
   "theorems": [
    "Verif.Extime.iso_resolution_partial",
    "Verif.Extime.unit_exact",
    "Verif.Extime.iso_year_stop",
    "Verif.Extime.iso_month_stop",
    "Verif.Extime.iso_resolution_fails",
    "Verif.Extime.iso_year_9999"
   ],
   "note": "False for more than six decimals, which get a microsecond; the lone year 9999 is refused."
  },
  {
   "property": "C08",
   "status": "proved",
   "theorems": [
    "Verif.Extime.iso_date_tz",
    "Verif.Extime.iso_explicit_tz",
    "Verif.Extime.iso_unstated_tz",
    "Verif.Extime.iso_no_tz"
   ],
   "note": ""
  },
  {
   "property": "C09",
   "status": "proved",
   "theorems": [
    "Verif.Extime.asDatetime_instant",
    "Verif.Extime.asDatetime_none",
    "Verif.Extime.fromDatetime_asDatetime",
    "Verif.Extime.fromDatetime_instant",
    "Verif.Extime.asDatetime_sameInstant",
    "Verif.Extime.asDatetime_coarse",
    "Verif.Extime.asNaiveDatetime_clock",
    "Verif.Extime.asNaiveDatetime_plain",
    "Verif.Extime.fixedOffset_minutes"
   ],
   "note": "asDatetime raises OverflowError exactly when the local time is outside years 1-9999 (proved); zones are FixedOffset instances with offsets under 24 h (other zones: C119, C126)"
  },
  {
   "property": "C10",
   "status": "proved",
   "theorems": [
    "Verif.Extime.time_affine",
    "Verif.Extime.add_spec",
    "Verif.Extime.add_total",
    "Verif.Extime.add_sub",
    "Verif.Extime.sub_add",
    "Verif.Extime.diff_spec",
    "Verif.Extime.add_diff",
    "Verif.Extime.diff_add",
    "Verif.Extime.add_add",
    "Verif.Extime.diff_neg"
   ],
   "note": ""
  },
  {
   "property": "C11",
   "status": "partial",
   "theorems": [
    "Verif.Extime.contains_spec",
    "Verif.Extime.contains_partial",
    "Verif.Extime.contains_refl_partial",
    "Verif.Extime.contains_trans",
    "Verif.Extime.contains_antisymm",
    "Verif.Extime.contains_other",
    "Verif.Extime.contains_refl_fails"
   ],
   "note": "false when the end of either period is past 9999-12-31T23:59:59.999999: `in` raises OverflowError (contains_refl_fails); contains_spec gives the exact behaviour in every case"
  },
  {
   "property": "C12",
   "status": "proved",
   "theorems": [
    "Verif.Extime.eq_spec",
    "Verif.Extime.eq_refl",
    "Verif.Extime.eq_symm",
    "Verif.Extime.eq_trans",
    "Verif.Extime.eq_zone"
   ],
   "note": ""
  },
  {
   "property": "C13",
   "status": "partial",
   "theorems": [
    "Verif.Extime.getBounds_fails",
    "Verif.Extime.getBounds_partial"
   ],
   "note": "on Python 3 getBounds always raises (Time has no __lt__); the covering property is proved for the Python 2 semantics; zones other than FixedOffset: C120"
  },
  {
   "property": "C14",
   "status": "partial",
   "theorems": [
    "Verif.Extime.oneDay_spec",
    "Verif.Extime.oneDay_contains_partial",
    "Verif.Extime.oneDay_contains_fails"
   ],
   "note": "everything but containment by the operator `in` on 9999-12-31, where `in` raises"
  },
  {
   "property": "C15",
   "status": "proved",
   "theorems": [
    "Verif.Extime.sanitize_spec",
    "Verif.Extime.sanitize_length",
    "Verif.Extime.sanitize_getElem",
    "Verif.Extime.sanitize_not_a_date"
   ],
   "note": ""
  },
  {
   "property": "C16",
   "status": "partial",
   "theorems": [
    "Verif.Extime.structTime_roundtrip_partial",
    "Verif.Extime.asStructTime_total",
    "Verif.Extime.fromStructTime_timetuple",
    "Verif.Extime.structTime_roundtrip_fails",
    "Verif.Extime.fromStructTime_short"
   ],
   "note": "false for Times of a day or more with a non-zero zone (structTime_roundtrip_fails). Zones other than FixedOffset: C119, C126"
  },
  {
   "property": "C17",
   "status": "partial",
   "theorems": [
    "Verif.Extime.rfc_roundtrip_partial",
    "Verif.Extime.rfc_parse",
    "Verif.Extime.rfc_dayName",
    "Verif.Extime.rfc_errors",
    "Verif.Extime.rfc_roundtrip_fails_year",
    "Verif.Extime.rfc_roundtrip_fails_day",
    "Verif.Extime.rfc_forms",
    "Verif.Extime.rfc_parse_forms",
    "Verif.Extime.rfc_attached",
    "Verif.Extime.rfc_parse_attached",
    "Verif.JuiceDispatch.white_space",
    "Verif.Extime.rfc_day_ignored"
   ],
   "note": "Proved for local years of at least 100 (the parser takes two-digit years for 1969-2068, refuted by rfc_roundtrip_fails_year) and, when a zone is given, resolutions below a day (a whole day is printed unshifted but with the zone, refuted by rfc_roundtrip_fails_day). parsedate_tz is modelled in full."
  },
  {
   "property": "C18",
   "status": "partial",
   "theorems": [
    "Verif.Extime.posix_roundtrip_partial",
    "Verif.Extime.posix_roundtrip_near",
    "Verif.Extime.posix_seconds",
    "Verif.Extime.posix_roundtrip_fails",
    "Verif.Extime.posix_roundtrip_fails_beyond"
   ],
   "note": "Exact within 272 years of 1970; within 16 microseconds everywhere; whole seconds exact everywhere; refuted for the last microsecond of year 9999, which overflows."
  },
  {
   "property": "C19",
   "status": "proved",
   "theorems": [
    "Verif.Extime.human_weekday",
    "Verif.Extime.human_relative",
    "Verif.Extime.human_accepts"
   ],
   "note": ""
  },
  {
   "property": "C20",
   "status": "partial",
   "theorems": [
    "Verif.Extime.human_time_partial",
    "Verif.Extime.human_noon_partial",
    "Verif.Extime.human_noon",
    "Verif.Extime.human_now",
    "Verif.Extime.human_time_refused",
    "Verif.Extime.human_time_fails",
    "Verif.Extime.human_noon_fails",
    "Verif.Extime.human_accepts"
   ],
   "note": "12:mm pm is always refused (human_time_fails); noon and midnight said within the following hour denote the past one (human_noon_fails). Everything else is proved. Zones other than FixedOffset: C119, C126."
  },
  {
   "property": "C21",
   "status": "proved",
   "theorems": [
    "Verif.Extime.humanly_injective",
    "Verif.Extime.humanly_total"
   ],
   "note": "The converse and the errors are proved too; C locale."
  },
  {
   "property": "C22",
   "status": "partial",
   "theorems": [
    "Verif.Juice.box_roundtrip_partial",
    "Verif.Juice.legal_serializes",
    "Verif.Juice.empty_body_fails",
    "Verif.Juice.nonascii_body_fails",
    "Verif.Juice.keyword_key_fails"
   ],
   "note": "For every legal box (canonical ASCII keys, well-formed Unicode values, non-empty ASCII body if any). False of the code otherwise: an empty body is dropped (empty_body_fails), a non-ASCII body is cut short because the announced length counts characters (nonascii_body_fails), and a keyword key arrives capitalised (keyword_key_fails)."
  },
  {
   "property": "C23",
   "status": "proved",
   "theorems": [
    "Verif.Juice.boxes_received"
   ],
   "note": "Any list of legal boxes, any segmentation, any application that only takes boxes."
  },
  {
   "property": "C24",
   "status": "partial",
   "theorems": [
    "Verif.Juice.segmentation_partial",
    "Verif.Juice.between_deliveries",
    "Verif.Juice.segmentation_fails",
    "Verif.ErrorKinds.continuation_first"
   ],
   "note": "Any bytes, any segmentation, any state between deliveries. Missing: applications that drop the connection while handling a box with a body; there it is false (segmentation_fails)."
  },
  {
   "property": "C25",
   "status": "proved",
   "theorems": [
    "Verif.JuiceRpc.answer_matches",
    "Verif.JuiceRpc.answered_produced",
    "Verif.JuiceRpc.handled_once",
    "Verif.JuiceRpc.no_unknown_tag",
    "Verif.JuiceRpc.answers_not_lost",
    "Verif.JuiceRpc.answers_confused_fails",
    "Verif.JuiceRpc.unknown_tag",
    "Verif.JuiceRpc.locked_silent"
   ],
   "note": "Two peers, FIFO channels, arbitrary interleaving, locks and losses, for applications that do not put the protocol's own keys in their boxes (OpOk); without that an application box can be taken for an answer (answers_confused_fails)."
  },
  {
   "property": "C26",
   "status": "proved",
   "theorems": [
    "Verif.JuiceRpc.fired_once",
    "Verif.JuiceRpc.loss_fails_the_rest",
    "Verif.JuiceRpc.lost_all_fired",
    "Verif.JuiceRpc.lost_forever",
    "Verif.JuiceRpc.lost_refuses",
    "Verif.JuiceRpc.fired_once_any",
    "Verif.JuiceRpc.lost_all_fired_any_partial",
    "Verif.JuiceRpc.mute_error_fails"
   ],
   "note": "Two juice peers whose applications leave the protocol's own keys alone (OpOk): all histories. Against an arbitrary remote side and with any boxes: at most once and only with what a received box says about that request (fired_once_any); all fire on loss except requests for which an error without code or description arrived (lost_all_fired_any_partial, mute_error_fails)."
  },
  {
   "property": "C27",
   "status": "proved",
   "theorems": [
    "Verif.JuiceRpc.tags_never_repeat",
    "Verif.JuiceRpc.asked_grows",
    "Verif.JuiceRpc.tags_never_repeat_any"
   ],
   "note": "All histories; tags_never_repeat_any assumes nothing of the remote side nor of the boxes."
  },
  {
   "property": "C28",
   "status": "partial",
   "theorems": [
    "Verif.JuiceArgs.integer_survives",
    "Verif.JuiceArgs.string_survives",
    "Verif.JuiceArgs.boolean_survives",
    "Verif.JuiceArgs.listOf_survives_partial",
    "Verif.JuiceArgs.integers_survive_partial",
    "Verif.JuiceArgs.listOf_refuses",
    "Verif.JuiceArgs.juiceList_survives",
    "Verif.JuiceArgs.listOf_empty_fails",
    "Verif.JuiceArgs.listOf_overlap_fails",
    "Verif.JuiceArgs.integer_coerces",
    "Verif.JuiceArgs.boolean_coerces",
    "Verif.JuiceArgs.boolean_reads",
    "Verif.JuiceArgs.integer_reads",
    "Verif.ErrorKinds.raw_item",
    "Verif.ErrorKinds.not_dict",
    "Verif.ErrorKinds.listOf_bytes",
    "Verif.ErrorKinds.listOf_not_iterable",
    "Verif.ErrorKinds.string_wrong_type",
    "Verif.JuiceArgs.listOf_assertion"
   ],
   "note": "Every Integer, String (well-formed text), Boolean and JuiceList value round-trips, also over the wire. ListOf round-trips every non-empty list whose elements' text avoids the delimiter, for delimiters that do not overlap themselves; the code loses the empty list and is ambiguous for self-overlapping delimiters (proved). The other argument types are C82, Float is C125."
  },
  {
   "property": "C29",
   "status": "proved",
   "theorems": [
    "Verif.JuiceArgs.arguments_survive",
    "Verif.JuiceArgs.extra_keys_ignored",
    "Verif.JuiceArgs.arguments_cross_the_wire",
    "Verif.JuiceArgs.body_crosses_the_wire"
   ],
   "note": "For every argument list with distinct names and every mapping whose objects each survive their own type; the last theorem adds serialisation and parsing."
  },
  {
   "property": "C30",
   "status": "proved",
   "theorems": [
    "Verif.JuiceArgs.commandInit_raises",
    "Verif.JuiceArgs.commandInit_ok",
    "Verif.JuiceArgs.no_box_without_required",
    "Verif.JuiceArgs.unnormalised_name_fails"
   ],
   "note": "Exactly when; plus: do() never makes a box without a required argument. The _fails theorem is a neighbouring defect (names not in normal form pass the constructor and fail in do())."
  },
  {
   "property": "C31",
   "status": "proved",
   "theorems": [
    "Verif.JuiceDispatch.only_in_namespace",
    "Verif.JuiceDispatch.wrong_namespace",
    "Verif.JuiceDispatch.right_namespace",
    "Verif.JuiceDispatch.old_only_unnamespaced",
    "Verif.JuiceDispatch.wire_only_unnamespaced",
    "Verif.JuiceDispatch.unknown_in_namespace_fails",
    "Verif.JuiceDispatch.namespaced_do_fails",
    "Verif.JuiceDispatch.old_answers",
    "Verif.JuiceDispatch.command_name",
    "Verif.JuiceDispatch.white_space",
    "Verif.ErrorKinds.undeclared_command"
   ],
   "note": "For every application object, name, namespace and box. The _fails theorems are neighbouring defects: a namespaced request for a command that does not exist escapes as AssertionError; do(proto, ns) sends 'ns:cmd', which the peer never takes apart."
  },
  {
   "property": "C32",
   "status": "partial",
   "theorems": [
    "Verif.JuiceDispatch.declared_error_partial",
    "Verif.JuiceDispatch.declared_class_partial",
    "Verif.JuiceDispatch.undeclared_error_partial",
    "Verif.JuiceDispatch.undecodable_arguments",
    "Verif.JuiceDispatch.unknown_command",
    "Verif.JuiceDispatch.failure_without_ask",
    "Verif.JuiceDispatch.error_crosses_the_wire",
    "Verif.JuiceDispatch.declared_error_end_to_end_partial",
    "Verif.JuiceDispatch.fatal_error_fails",
    "Verif.JuiceDispatch.shared_code_fails",
    "Verif.JuiceDispatch.remote_error_fails",
    "Verif.JuiceDispatch.base_first_fails"
   ],
   "note": "Declared errors arrive as a declared class (the raised one, if no declared base precedes it) with their text, also over the wire; undeclared ones arrive as UnhandledRemoteJuiceError and drop the connection. False of the code (proved): fatal errors do not close the connection; shared codes and passed-through RemoteJuiceErrors are mistaken for other classes."
  },
  {
   "property": "C33",
   "status": "partial",
   "theorems": [
    "Verif.Juice.switched_bytes",
    "Verif.Juice.switch_partial",
    "Verif.Juice.switch_on_body_fails",
    "Verif.Juice.switch_body_partial"
   ],
   "note": "Every byte after the switch reaches the inner protocol once and in order, after a box without a body (switch_partial) or with one (switch_body_partial). Missing: a switching box with a body connects the inner protocol twice (switch_on_body_fails)."
  },
  {
   "property": "C34",
   "status": "partial",
   "theorems": [
    "Verif.JuiceTls.tls_partial",
    "Verif.JuiceTls.nothing_in_the_clear",
    "Verif.JuiceTls.fifo_partial",
    "Verif.JuiceTls.fifo_once_partial",
    "Verif.JuiceTls.start_empties",
    "Verif.JuiceTls.prepare_twice_fails",
    "Verif.JuiceTls.prepare_after_tls_fails",
    "Verif.JuiceTls.unserialisable_fails",
    "Verif.JuiceTls.tlsbox_delayed_fails",
    "Verif.JuiceTls.locked_sends_nothing",
    "Verif.ErrorKinds.tls_again"
   ],
   "note": "Holds for histories in which prepareTLS is not called while boxes wait, boxes can be serialised and the connection is not locked. False otherwise (proved): a second prepareTLS loses boxes, prepareTLS after TLS blocks forever, an unserialisable box loses those behind it."
  },
  {
   "property": "C35",
   "status": "proved",
   "theorems": [
    "Verif.JuiceDispatch.negotiate_first",
    "Verif.JuiceDispatch.negotiate_none",
    "Verif.JuiceDispatch.commandNegotiate_spec",
    "Verif.JuiceDispatch.negotiation",
    "Verif.ErrorKinds.negotiate_without"
   ],
   "note": "Loop, responder and the whole exchange through the dispatcher, for every VERSIONS list. IncompatibleVersions is not a declared error, so the client sees UNHANDLED."
  },
  {
   "property": "C36",
   "status": "proved",
   "theorems": [
    "Verif.Router.router_delivery",
    "Verif.Router.unbind_after_rebind_fails"
   ],
   "note": "The binding table is computed from the externally visible history; also records that unbinding an older route frees the name of a newer one."
  },
  {
   "property": "C37",
   "status": "proved",
   "theorems": [
    "Verif.Router.router_end_to_end",
    "Verif.Router.router_multiplex",
    "Verif.Router.send_unconnected"
   ],
   "note": "Boxes must not use the reserved key."
  },
  {
   "property": "C38",
   "status": "partial",
   "theorems": [
    "Verif.Router.start_needs_both",
    "Verif.Router.start_at_most",
    "Verif.Router.start_exactly_once_partial",
    "Verif.Router.start_displaced_fails",
    "Verif.Router.start_repeats_fails"
   ],
   "note": "Exactly once holds when connectTo is called once and the name is not taken over before the start; refuted otherwise."
  },
  {
   "property": "C39",
   "status": "proved",
   "theorems": [
    "Verif.Router.stop_notifies",
    "Verif.Router.stopped_forever"
   ],
   "note": ""
  },
  {
   "property": "C40",
   "status": "partial",
   "theorems": [
    "Verif.Router.fresh_identifier_partial",
    "Verif.Router.fresh_identifier_fails"
   ],
   "note": "Refuted when a caller passes an explicit numeral name; proved otherwise."
  },
  {
   "property": "C41",
   "status": "proved",
   "theorems": [
    "Verif.AmpAuth.pads_once",
    "Verif.AmpAuth.attempts_table"
   ],
   "note": ""
  },
  {
   "property": "C42",
   "status": "proved",
   "theorems": [
    "Verif.AmpAuth.right_password",
    "Verif.AmpAuth.wrong_password",
    "Verif.AmpAuth.login_eq",
    "Verif.AmpAuth.surrogate_password",
    "Verif.AmpAuth.rejected_gets_nothing"
   ],
   "note": "The checker is the in-memory user table (looks the user up, calls checkPassword); nobody else uses the connection during the exchange. A wrong password is accepted only if the two texts that are hashed, named in the theorem, have the same hash."
  },
  {
   "property": "C43",
   "status": "proved",
   "theorems": [
    "Verif.AmpAuth.latest_challenge",
    "Verif.AmpAuth.only_responses",
    "Verif.AmpAuth.stale_response",
    "Verif.ErrorKinds.respond_first"
   ],
   "note": "replay_accepted records that a challenge is not used up by a response."
  },
  {
   "property": "C44",
   "status": "partial",
   "theorems": [
    "Verif.AmpAuth.logout_partial",
    "Verif.AmpAuth.logout_prompt",
    "Verif.AmpAuth.overlapping_logins_fails",
    "Verif.AmpAuth.late_login_fails",
    "Verif.AmpAuth.raising_avatar_fails",
    "Verif.AmpAuth.logout_forgotten"
   ],
   "note": "Exact for every interleaving: the last login completed before the loss is logged out, once. The full claim holds for portals that answer at once (logout_prompt) and fails for overlapping logins, logins completing after the loss, and an avatar whose stopReceivingBoxes raises."
  },
  {
   "property": "C45",
   "status": "proved",
   "theorems": [
    "Verif.AmpAuth.message_inj",
    "Verif.AmpAuth.nonce_length_fails"
   ],
   "note": "The length of the nonce is not checked by the server (nonce_length_fails)."
  },
  {
   "property": "C46",
   "status": "proved",
   "theorems": [
    "Verif.Caseless.caseless_eq_iff",
    "Verif.Caseless.caseless_ne_iff",
    "Verif.Caseless.caseless_eq_equivalence",
    "Verif.Caseless.caseless_hash",
    "Verif.Caseless.caseless_hash_faithful",
    "Verif.Caseless.caseless_lt_iff",
    "Verif.Caseless.caseless_order_derived",
    "Verif.Caseless.caseless_trichotomy",
    "Verif.Caseless.caseless_lt_trans",
    "Verif.Caseless.caseless_case_blind"
   ],
   "note": "ASCII text (and bytes); for all of Unicode see C123."
  },
  {
   "property": "C47",
   "status": "partial",
   "theorems": [
    "Verif.Caseless.caseless_find",
    "Verif.Caseless.caseless_rfind",
    "Verif.Caseless.caseless_index",
    "Verif.Caseless.caseless_rindex",
    "Verif.Caseless.caseless_contains",
    "Verif.Caseless.caseless_startswith",
    "Verif.Caseless.caseless_endswith",
    "Verif.Caseless.caseless_affix_tuple",
    "Verif.Caseless.caseless_count",
    "Verif.Caseless.caseless_count_empty",
    "Verif.Caseless.caseless_find_unicode_fails"
   ],
   "note": "Proved for ASCII text; refuted for characters whose lower case has another length. For all of Unicode see C123."
  },
  {
   "property": "C48",
   "status": "proved",
   "theorems": [
    "Verif.View.view_len",
    "Verif.View.view_getitem",
    "Verif.View.view_getslice",
    "Verif.View.view_iter",
    "Verif.View.view_iter_error"
   ],
   "note": "Slices, indexing, nesting and iteration for every sequence, bounds and index."
  },
  {
   "property": "C49",
   "status": "proved",
   "theorems": [
    "Verif.Structlike.init_ok",
    "Verif.Structlike.init_error",
    "Verif.Structlike.record_defaults_length"
   ],
   "note": ""
  },
  {
   "property": "C50",
   "status": "proved",
   "theorems": [
    "Verif.Structlike.record_named",
    "Verif.Structlike.record_unnamed",
    "Verif.Structlike.record_illegal"
   ],
   "note": ""
  },
  {
   "property": "C51",
   "status": "proved",
   "theorems": [
    "Verif.Structlike.repr_terminates",
    "Verif.Structlike.printed_unique",
    "Verif.Structlike.repr_acyclic_full"
   ],
   "note": ""
  },
  {
   "property": "C52",
   "status": "partial",
   "theorems": [
    "Verif.Modal.modal_class",
    "Verif.Modal.modal_dispatch_partial",
    "Verif.Modal.modal_inherited",
    "Verif.Modal.modeOf_history",
    "Verif.Modal.initial_mode",
    "Verif.Modal.nonmodal_unaffected",
    "Verif.Modal.modalNew_error",
    "Verif.Modal.modal_subclass_fails",
    "Verif.Modal.modal_attribute_fails",
    "Verif.Modal.modal_doc_fails",
    "Verif.Modal.nonmodal_getattr",
    "Verif.Modal.inherited_spec",
    "Verif.ErrorKinds.mode_of_mode"
   ],
   "note": "Proved for the mode attribute named 'mode' and methods whose table is the nearest one on the MRO. False otherwise: a subclass that redefines a modal name hides the modes of its base; a mode attribute with another name is never set; the mode classes' __doc__ makes the class's __doc__ modal."
  },
  {
   "property": "C53",
   "status": "proved",
   "theorems": [
    "Verif.Modal.transition_spec",
    "Verif.Modal.transitions_spec",
    "Verif.Modal.transitions_append"
   ],
   "note": "For classes whose mode attribute is 'mode'; what happens when __exit__ or __enter__ is missing or raises is part of the statement."
  },
  {
   "property": "C54",
   "status": "proved",
   "theorems": [
    "Verif.Expose.get_sound",
    "Verif.Expose.get_hidden",
    "Verif.Expose.run_mem",
    "Verif.Expose.expose_refused"
   ],
   "note": ""
  },
  {
   "property": "C55",
   "status": "proved",
   "theorems": [
    "Verif.Expose.get_complete",
    "Verif.Expose.get_subclass",
    "Verif.Expose.get_alias_fails"
   ],
   "note": "For functions bound to one name in their class; with two names, one of them overridden, the method is refused (get_alias_fails)."
  },
  {
   "property": "C56",
   "status": "partial",
   "theorems": [
    "Verif.Remember.remember_once_partial",
    "Verif.Remember.remember_frame",
    "Verif.Remember.remember_none_fails",
    "Verif.Remember.remember_circle_fails",
    "Verif.Remember.remember_clash_fails"
   ],
   "note": "Every history, with creation functions that themselves read remembered attributes, fail, or behave differently each time. Missing: creation functions returning None are called again; functions that read their own attribute run twice; attributes whose functions share a __name__ share the value."
  },
  {
   "property": "C57",
   "status": "proved",
   "theorems": [
    "Verif.Descriptor.attribute_spec",
    "Verif.Descriptor.required_history",
    "Verif.Descriptor.last_unique",
    "Verif.Descriptor.run_last",
    "Verif.Descriptor.required_overridden",
    "Verif.Descriptor.required_read",
    "Verif.Descriptor.required_write",
    "Verif.Descriptor.required_del",
    "Verif.ErrorKinds.no_attribute",
    "Verif.ErrorKinds.plain_member",
    "Verif.ErrorKinds.no_attribute_deleted",
    "Verif.ErrorKinds.no_class_attribute"
   ],
   "note": ""
  },
  {
   "property": "C58",
   "status": "partial",
   "theorems": [
    "Verif.Hotfix.hotfix_once_partial",
    "Verif.Hotfix.hotfix_settled",
    "Verif.Hotfix.hotfix_unknown",
    "Verif.Hotfix.hotfix_installs",
    "Verif.Hotfix.require_spec",
    "Verif.Hotfix.hotfix_retry_fails"
   ],
   "note": "Missing: an install that raises is not remembered, so a later require calls it again (hotfix_retry_fails). Proved for installs that do not raise."
  },
  {
   "property": "C59",
   "status": "proved",
   "theorems": [
    "Verif.Pending.pending_first_event",
    "Verif.Pending.pending_once_in_order",
    "Verif.Pending.pending_waiting",
    "Verif.Pending.pending_requests"
   ],
   "note": ""
  },
  {
   "property": "C60",
   "status": "partial",
   "theorems": [
    "Verif.React.react_stops_partial",
    "Verif.React.react_stops_when_fired",
    "Verif.React.react_logs",
    "Verif.React.react_idle",
    "Verif.React.react_window_fails"
   ],
   "note": "Missing: when the application's own stop() and the firing of main's Deferred happen in one reactor turn, react calls stop a second time (react_window_fails)."
  },
  {
   "property": "C61",
   "status": "partial",
   "theorems": [
    "Verif.Process.spawn_partial",
    "Verif.Process.absent_partial",
    "Verif.Process.spawn_ok_iff",
    "Verif.Process.spawn_frame",
    "Verif.Process.calls_frame",
    "Verif.Process.spawnPython_executable",
    "Verif.Process.absent_fails",
    "Verif.Process.library_fails"
   ],
   "note": "Missing: without PYTHONPATH in the given environment the child's path gets an additional empty entry, which is its working directory (absent_fails); a package in a directory whose name merely begins with the library's, like /usr/libx, is taken to be in the library (library_fails)."
  },
  {
   "property": "C62",
   "status": "partial",
   "theorems": [
    "Verif.Benchmark.device_text",
    "Verif.Benchmark.device_partial",
    "Verif.Benchmark.device_prefix_fails",
    "Verif.Benchmark.device_overmount_fails",
    "Verif.ErrorKinds.short_mount_line"
   ],
   "note": "Missing: ancestors are compared as text, so /home/ab is taken to be below /home/a (device_prefix_fails); of two mounts on the same point the earlier wins (device_overmount_fails)."
  },
  {
   "property": "C63",
   "status": "proved",
   "theorems": [
    "Verif.Benchmark.process_ends_once"
   ],
   "note": "Every event history."
  },
  {
   "property": "C64",
   "status": "proved",
   "theorems": [
    "Verif.Benchmark.diskstat_columns",
    "Verif.Benchmark.diskstat_shape",
    "Verif.Benchmark.captureStats_get",
    "Verif.Benchmark.bytesInt_signed",
    "Verif.ErrorKinds.disk_line_short"
   ],
   "note": "Both layouts; any padding between the columns."
  },
  {
   "property": "C65",
   "status": "partial",
   "theorems": [
    "Verif.Setuphelper.autosetup_partial",
    "Verif.Setuphelper.autosetup_root_fails"
   ],
   "note": "Every directory tree whose names are non-empty, have no slash and are distinct within a directory.  Missing: when the root itself has __init__.py or a plugins directory the package name is empty and os.listdir('') raises (autosetup_root_fails).  Directories at the top with a dot in their name are packages but get no data, as the theorem states."
  },
  {
   "property": "C66",
   "status": "partial",
   "theorems": [
    "Verif.Asplode.splode_partial",
    "Verif.Asplode.splode_refused",
    "Verif.Asplode.splode_python3_fails",
    "Verif.Asplode.splode_headless_fails",
    "Verif.Asplode.line_cases",
    "Verif.Asplode.template_shape",
    "Verif.Asplode.main_partial",
    "Verif.Asplode.readlines_flatten"
   ],
   "note": "What the written files contain is proved for every text under the Python 2 reading; on Python 3 the script cannot run (splode_python3_fails), and a text without a header fails (splode_headless_fails)."
  },
  {
   "property": "C67",
   "status": "proved",
   "theorems": [
    "Verif.Version.version_three",
    "Verif.Version.version_only",
    "Verif.Version.version_numbers"
   ],
   "note": ""
  },
  {
   "property": "C68",
   "status": "partial",
   "theorems": [
    "Verif.Spewer.signals_between",
    "Verif.Spewer.start_ok_iff",
    "Verif.Spewer.signals_restored_partial",
    "Verif.Spewer.signals_foreign_fails",
    "Verif.Spewer.signals_twice_fails",
    "Verif.Spewer.stop_unstarted"
   ],
   "note": "stop() restores the handlers found by start() when these can be passed back to signal.signal; a handler not installed from Python (getsignal gives None) cannot, and a second start() forgets the original handlers."
  },
  {
   "property": "C69",
   "status": "proved",
   "theorems": [
    "Verif.DelayedCall.time_requested",
    "Verif.DelayedCall.owner_told",
    "Verif.DelayedCall.refusals",
    "Verif.DelayedCall.cancel_active",
    "Verif.DelayedCall.heap_not_late",
    "Verif.DelayedCall.activate_time",
    "Verif.DelayedCall.heap_order"
   ],
   "note": "Times are integers; Python uses floats, whose rounding is not modelled here."
  },
  {
   "property": "C70",
   "status": "proved",
   "theorems": [
    "Verif.Timeout.timeout_one_timer",
    "Verif.Timeout.timeout_exactly_when_due",
    "Verif.Timeout.timeout_only_in_turns",
    "Verif.Timeout.timeout_ops",
    "Verif.Timeout.timeout_never_after_none",
    "Verif.Timeout.armed_unique",
    "Verif.Timeout.armed_snoc",
    "Verif.ErrorKinds.not_pending"
   ],
   "note": "For every history of setTimeout, resetTimeout, cancelled periods and clock turns; timeoutConnection is an arbitrary handler."
  },
  {
   "property": "C71",
   "status": "partial",
   "theorems": [
    "Verif.FilePath.child_name",
    "Verif.FilePath.child_partial",
    "Verif.FilePath.child_refuses",
    "Verif.FilePath.child_separator_fails",
    "Verif.FilePath.preauth_exact",
    "Verif.FilePath.preauth_partial",
    "Verif.FilePath.preauth_inside",
    "Verif.FilePath.preauth_escape_fails",
    "Verif.FilePath.child_parent",
    "Verif.FilePath.childSearch_first",
    "Verif.FilePath.filePath_isDir",
    "Verif.FilePath.child_exact"
   ],
   "note": "child yields the directory or a direct child, for every text, but accepts texts with separators that come down to one step; preauthChild compares texts only, so /foo can reach /foobar."
  },
  {
   "property": "C72",
   "status": "partial",
   "theorems": [
    "Verif.FilePath.copyTo_put",
    "Verif.FilePath.copyTo_partial",
    "Verif.FilePath.copyTo_replaces",
    "Verif.FilePath.copyTo_refused",
    "Verif.FilePath.copy_into_itself_fails",
    "Verif.FilePath.copy_self_empties"
   ],
   "note": "Proved for every tree of files and directories, every chunk size and every destination outside the source; copying a directory into itself does not end.  Permissions and full disks are not modelled; for symbolic links see C118."
  },
  {
   "property": "C73",
   "status": "partial",
   "theorems": [
    "Verif.DelayedCall.callLater_partial",
    "Verif.DelayedCall.callLater_distinct",
    "Verif.DelayedCall.callLater_python3_fails"
   ],
   "note": "Proved for Python 2; on Python 3 list.sort with a positional comparison function raises TypeError after the call was appended."
  },
  {
   "property": "C74",
   "status": "partial",
   "theorems": [
    "Verif.DeferredGenerator.deferGenerator_partial",
    "Verif.DeferredGenerator.deferGenerator_order",
    "Verif.DeferredGenerator.deferGenerator_once",
    "Verif.DeferredGenerator.many_flat",
    "Verif.DeferredGenerator.yield_deferred_fails",
    "Verif.DeferredGenerator.yield_deferred_first",
    "Verif.DeferredGenerator.wait_twice_fails",
    "Verif.DeferredGenerator.deferGenerator_python3_fails",
    "Verif.DeferredGenerator.own_deferred"
   ],
   "note": "Proved for generators that end and yield no Deferred itself, under Python 2, for all firing orders. Generators that never end, that start one another or wait again for the same Deferred are treated in C144, whose theorem shallow bounds the recursion for them."
  },
  {
   "property": "C75",
   "status": "proved",
   "theorems": [
    "Verif.PluginPaths.pluginPaths_exact",
    "Verif.PluginPaths.denotes_exists"
   ],
   "note": ""
  },
  {
   "property": "C76",
   "status": "partial",
   "theorems": [
    "Verif.Benchmark.backchannel_partial",
    "Verif.Benchmark.backchannel_fails"
   ],
   "note": "Proved with the Python 2 reading of byte strings.  Missing: on Python 3 iterating the bytes yields integers, which equal neither marker, so every byte ends the child (backchannel_fails)."
  },
  {
   "property": "C77",
   "status": "partial",
   "theorems": [
    "Verif.Spewer.toggle_partial",
    "Verif.Spewer.toggle_fails",
    "Verif.Spewer.trace_returns",
    "Verif.Spewer.depth_nested",
    "Verif.Spewer.indent_matches",
    "Verif.Spewer.depth_nonneg",
    "Verif.Spewer.depth_exception_fails"
   ],
   "note": "The misspelt threading.setttrace makes uninstall raise AttributeError after sys.settrace(None); depth is right for properly nested calls and returns, but exception events count as returns too."
  },
  {
   "property": "C78",
   "status": "proved",
   "theorems": [
    "Verif.FilePath.remove_del",
    "Verif.FilePath.remove_exact",
    "Verif.FilePath.remove_absent",
    "Verif.ErrorKinds.remove_directory"
   ],
   "note": "The model has no symbolic links; C118 has them."
  },
  {
   "property": "C79",
   "status": "proved",
   "theorems": [
    "Verif.FilePath.walk_all",
    "Verif.FilePath.walk_exact",
    "Verif.FilePath.walk_absent"
   ],
   "note": "The model has no symbolic links (C118 has them); the file system does not change during the walk."
  },
  {
   "property": "C80",
   "status": "partial",
   "theorems": [
    "Verif.FilePath.siblingExtension_canon",
    "Verif.FilePath.setContent_before",
    "Verif.FilePath.setContent_partial",
    "Verif.FilePath.setContent_directory_fails",
    "Verif.FilePath.moveTo_partial",
    "Verif.FilePath.moveTo_device_fails",
    "Verif.FilePath.moveTo_refused"
   ],
   "note": "setContent and moveTo within a device are proved; setContent over a directory leaves the sibling behind and moveTo between devices always raises AttributeError."
  },
  {
   "property": "C81",
   "status": "partial",
   "theorems": [
    "Verif.FilePath.stat_partial",
    "Verif.FilePath.stat_after_restat",
    "Verif.FilePath.stat_kind_fresh",
    "Verif.FilePath.stat_stale_fails"
   ],
   "note": "True while the file system does not change and after restat; otherwise answers go stale."
  },
  {
   "property": "C82",
   "status": "partial",
   "theorems": [
    "Verif.JuiceArgs.time_survives",
    "Verif.JuiceArgs.time_truncated",
    "Verif.JuiceArgs.encodedString_partial",
    "Verif.JuiceArgs.unicode_partial",
    "Verif.JuiceArgs.path_partial",
    "Verif.JuiceArgs.encoded_wire_fails",
    "Verif.JuiceArgs.encoded_survives_fails",
    "Verif.JuiceArgs.base64Binary_fails",
    "Verif.JuiceArgs.string_bytes_fails",
    "Verif.JuiceArgs.path_reads",
    "Verif.ErrorKinds.wrong_type",
    "Verif.ErrorKinds.path_dec",
    "Verif.ErrorKinds.base64_fails"
   ],
   "note": "Every Time of the finest resolution survives, also over the wire, and a coarser one survives exactly if it is the beginning of the printed period. Unicode, EncodedString and Path read back what they wrote only if it never crosses the wire: boxes received hold str, which has no decode, so on Python 3 nothing survives them; Base64Binary raises on every value in both directions (all proved)."
  },
  {
   "property": "C83",
   "status": "partial",
   "theorems": [
    "Verif.JuiceSwitch.handover_partial",
    "Verif.JuiceSwitch.started_settled",
    "Verif.JuiceSwitch.switched_not_failed",
    "Verif.JuiceSwitch.switch_completes",
    "Verif.JuiceSwitch.server_pending_fails",
    "Verif.JuiceSwitch.client_pending_fails",
    "Verif.JuiceSwitch.simultaneous_switch_fails",
    "Verif.JuiceSwitch.switch_twice",
    "Verif.JuiceSwitch.lost_switch",
    "Verif.ErrorKinds.command_locked"
   ],
   "note": "Proved for every execution in which no peer uses juice after its inner protocol is in place (handover_partial). The code does not enforce that for the answering peer (server_pending_fails); late answers of the asking peer close the connection; two simultaneous requests never complete."
  },
  {
   "property": "C84",
   "status": "proved",
   "theorems": [
    "Verif.Liner.any_segmentation",
    "Verif.Liner.lines_are_split",
    "Verif.Liner.max_line_length_fails"
   ],
   "note": "Refinement of a byte-at-a-time reader for every application that does not re-enter dataReceived from lineReceived. Beside the property: MAX_LINE_LENGTH is not enforced."
  },
  {
   "property": "C85",
   "status": "partial",
   "theorems": [
    "Verif.Benchmark.measured",
    "Verif.Benchmark.report_differences",
    "Verif.Benchmark.reports_partial",
    "Verif.Benchmark.disk_found",
    "Verif.Benchmark.disk_name_fails",
    "Verif.Benchmark.timeout_fails",
    "Verif.Benchmark.unmeasured_fails",
    "Verif.ErrorKinds.no_statistics_before",
    "Verif.ErrorKinds.no_counter"
   ],
   "note": "Proved for runs that end by themselves, with START and STOP markers, on devices whose statistics are there. A run that timed out is not reported, so the timeout flag is never set; the disk's name is wrong for devices like nvme0n1p1; without markers the second report raises."
  },
  {
   "property": "C86",
   "status": "partial",
   "theorems": [
    "Verif.Extime.rfc1123_partial",
    "Verif.Extime.rfc1123_near",
    "Verif.Extime.httpDate_length",
    "Verif.Extime.httpDate_read",
    "Verif.Extime.rfc1123_fails_second",
    "Verif.Extime.rfc1123_fails_last"
   ],
   "note": "Exact within 2^33 seconds of 1970 and whenever the microsecond is at most 999983; elsewhere false (next second, or ValueError at the end of year 9999). CPython's formatdate/fromtimestamp are modelled."
  },
  {
   "property": "C87",
   "status": "partial",
   "theorems": [
    "Verif.AssertWarns.restored",
    "Verif.AssertWarns.raised",
    "Verif.AssertWarns.warns_iff_partial",
    "Verif.AssertWarns.assertion",
    "Verif.AssertWarns.nested",
    "Verif.AssertWarns.warn_unseen_fails",
    "Verif.AssertWarns.any_file_fails",
    "Verif.AssertWarns.other_file_fails",
    "Verif.AssertWarns.keywords_fails",
    "Verif.AssertWarns.steps_outside",
    "Verif.AssertWarns.after_assertion",
    "Verif.ErrorKinds.warns_no_name"
   ],
   "note": "Restoration and propagation proved for every function; acceptance characterised exactly for calls through warnings.warn_explicit. False as stated: warnings.warn is not seen, file names are compared by prefix and for the first warning only."
  },
  {
   "property": "C88",
   "status": "partial",
   "theorems": [
    "Verif.Spewer.extractArgs_first",
    "Verif.Spewer.extractArgs_partial",
    "Verif.Spewer.kwonly_fails",
    "Verif.ErrorKinds.too_few_names"
   ],
   "note": "Exact for functions without keyword-only parameters; with k of them the last k parameters are missing."
  },
  {
   "property": "C89",
   "status": "partial",
   "theorems": [
    "Verif.PluginCache.pluginModules_partial",
    "Verif.PluginCache.regenerate_partial",
    "Verif.PluginCache.printed_iff",
    "Verif.PluginCache.bare_error_fails",
    "Verif.PluginCache.listing_fails",
    "Verif.PluginCache.close_fails",
    "Verif.ErrorKinds.close_again",
    "Verif.ErrorKinds.no_install"
   ],
   "note": "Exact unless some module fails with an argument-less ValueError (IndexError in the handler). Listing failures stop the loop and closing early raises RuntimeError."
  },
  {
   "property": "C90",
   "status": "partial",
   "theorems": [
    "Verif.FilePath.create_ok",
    "Verif.FilePath.create_entry",
    "Verif.FilePath.create_iff",
    "Verif.FilePath.open_always",
    "Verif.FilePath.open_kept",
    "Verif.FilePath.copyTo_always_partial",
    "Verif.FilePath.copyToF_plain",
    "Verif.FilePath.touch_plain",
    "Verif.FilePath.exclusive",
    "Verif.FilePath.exclusive_first",
    "Verif.FilePath.temporarySibling_place",
    "Verif.FilePath.copyTo_directory_fails",
    "Verif.FilePath.copyTo_source_fails",
    "Verif.FilePath.setContent_always_fails",
    "Verif.FilePath.getContent_always_fails",
    "Verif.FilePath.touch_always_fails",
    "Verif.FilePath.temporarySibling_root_fails",
    "Verif.FilePath.child_always_fails"
   ],
   "note": "open, create, copyTo of a file and exclusion between users for all trees and interleavings; 'no method changes a file that was there' is false for setContent and for copyTo of a directory, because clonePath loses alwaysCreate (shown by the _fails theorems)."
  },
  {
   "property": "C91",
   "status": "partial",
   "theorems": [
    "Verif.FilePath.search_first",
    "Verif.FilePath.search_found",
    "Verif.FilePath.siblingExtension_place",
    "Verif.FilePath.search_star_fails",
    "Verif.FilePath.search_slash_fails"
   ],
   "note": "For extensions without slashes, every listing. The literal path + '*' is also accepted (search_star_fails), so the statement about '*' is proved with that addition; extensions with slashes can lead anywhere (search_slash_fails)."
  },
  {
   "property": "C92",
   "status": "partial",
   "theorems": [
    "Verif.Benchmark.sync_partial",
    "Verif.Benchmark.sync_progress",
    "Verif.Benchmark.sync_advance",
    "Verif.Benchmark.sync_fails"
   ],
   "note": "All schedules on Python 2; on Python 3 start and stop always raise TypeError (sync_fails)."
  },
  {
   "property": "C93",
   "status": "partial",
   "theorems": [
    "Verif.FilePath.getSize_sum",
    "Verif.FilePath.getSize_raises",
    "Verif.FilePath.getSize_absent",
    "Verif.FilePath.getOneSize_spec",
    "Verif.FilePath.islink_fails"
   ],
   "note": "Sizes for all trees without symbolic links to directories (which walk would follow; C145 has them). The claim about islink is false: it is always False (islink_fails)."
  },
  {
   "property": "C94",
   "status": "proved",
   "theorems": [
    "Verif.JuiceBytes.bytes_asked",
    "Verif.JuiceBytes.bytes_answered",
    "Verif.JuiceBytes.bytes_handled",
    "Verif.JuiceBytes.bytes_handled_once",
    "Verif.JuiceBytes.bytes_answer_matches",
    "Verif.JuiceBytes.bytes_fired_once",
    "Verif.JuiceBytes.bytes_lost_all_fired",
    "Verif.JuiceBytes.bytes_intact",
    "Verif.JuiceBytes.bytes_all_answered",
    "Verif.JuiceBytes.bytes_all_answered_fails"
   ],
   "note": "For all boxes and texts the wire format can carry (LocalOk), as the property says; bytes_all_answered_fails shows that this restriction is needed."
  },
  {
   "property": "C95",
   "status": "proved",
   "theorems": [
    "Verif.JuiceRpc.commands_in_order",
    "Verif.JuiceRpc.commands_complete",
    "Verif.JuiceRpc.lineUp_asked",
    "Verif.JuiceRpc.locked_skips_fails",
    "Verif.JuiceBytes.bytes_in_order"
   ],
   "note": "Box level: all calls. Byte level: the requests (the model logs those). locked_skips_fails shows that the exclusion of locks is needed."
  },
  {
   "property": "C96",
   "status": "proved",
   "theorems": [
    "Verif.Renegotiate.version_common",
    "Verif.Renegotiate.gets_what_it_asked",
    "Verif.Renegotiate.finish_in_order",
    "Verif.Renegotiate.turns_agree",
    "Verif.Renegotiate.single_agrees",
    "Verif.Renegotiate.crossing_fails",
    "Verif.Renegotiate.refused_exact"
   ],
   "note": "Agreement holds when the ends take turns or share one version; crossing negotiations with two common versions end in disagreement (crossing_fails)."
  },
  {
   "property": "C97",
   "status": "proved",
   "theorems": [
    "Verif.StructlikeContext.repr_in_context",
    "Verif.StructlikeContext.repr_afresh"
   ],
   "note": ""
  },
  {
   "property": "C98",
   "status": "proved",
   "theorems": [
    "Verif.JuiceRemote.remote_call",
    "Verif.JuiceRemote.remote_calls_complete",
    "Verif.JuiceRemote.one_call"
   ],
   "note": "Byte-level composition of C29, C31, C32 and C94. Assumes declared names that can be box keys and are none of the protocol keys, distinct error classes and codes, no code UNHANDLED, and that replies are the dispatcher output (in text form); a raised RemoteJuiceError that is not declared is left open (see C32)."
  },
  {
   "property": "C99",
   "status": "proved",
   "theorems": [
    "Verif.Loopback.never_nested",
    "Verif.Loopback.never_twice",
    "Verif.Loopback.in_order",
    "Verif.Loopback.no_stall",
    "Verif.Loopback.ends_properly",
    "Verif.Loopback.comes_to_rest"
   ],
   "note": "For every behaviour of the two protocols and every interleaving with the reactor. The two functions of Twisted that the hotfix works with (put, _loopbackAsyncBody) are modelled from Twisted's source and are part of the trusted base; producers are left out."
  },
  {
   "property": "C100",
   "status": "partial",
   "theorems": [
    "Verif.Certcreate.getopt_iff",
    "Verif.Certcreate.main_spec",
    "Verif.Certcreate.main_asks",
    "Verif.Certcreate.main_refuses_partial",
    "Verif.Certcreate.written_only_made",
    "Verif.Certcreate.bad_serial_fails",
    "Verif.Certcreate.table_exact",
    "Verif.ErrorKinds.create_without",
    "Verif.ErrorKinds.subject_without"
   ],
   "note": "Command lines are understood exactly if they are written as the grammar says; the certificate, number, file and display follow the options; help/version and all other unusable command lines make nothing. False of the code: a serial number that is none escapes as ValueError instead of ending with a message (bad_serial_fails)."
  },
  {
   "property": "C101",
   "status": "partial",
   "theorems": [
    "Verif.Router.Reentry.starts_justified",
    "Verif.Router.Reentry.stops_justified",
    "Verif.Router.Reentry.delivered",
    "Verif.Router.Reentry.deliver_received",
    "Verif.Router.Reentry.stopped_for_good",
    "Verif.Router.Reentry.connect_starts",
    "Verif.Router.Reentry.start_tells_partial",
    "Verif.Router.Reentry.stop_tells_partial",
    "Verif.Router.Reentry.load_lt",
    "Verif.Router.Reentry.comes_to_rest",
    "Verif.Router.Reentry.quiet_refines",
    "Verif.Router.Reentry.unbind_in_stop_fails",
    "Verif.Router.Reentry.bind_in_start_fails",
    "Verif.Router.Reentry.connect_in_start_fails",
    "Verif.Router.Reentry.receive_in_start_fails",
    "Verif.Router.Reentry.nested_start_fails",
    "Verif.Router.Reentry.swap_in_stop_fails"
   ],
   "note": "Unconditional: who is started, told and delivered to, silence after the stop, coming to rest, agreement with the sequential model for quiet receivers. The loops tell everybody once as long as receivers neither bind new names, unbind nor restart in the middle; otherwise they do not (five failing executions)."
  },
  {
   "property": "C102",
   "status": "partial",
   "theorems": [
    "Verif.Liner.Reentry.proper",
    "Verif.Liner.Reentry.no_line_left",
    "Verif.Liner.Reentry.silent_after_lose",
    "Verif.Liner.Reentry.every_byte_partial",
    "Verif.Liner.Reentry.data_in_line_fails",
    "Verif.Liner.Reentry.raise_in_line_fails",
    "Verif.Liner.Reentry.lose_in_raw_fails"
   ],
   "note": "Unconditional: lines end at the first delimiter, no complete line stays in the buffer, what was received before a loss is dropped. Each byte once holds if lineReceived neither passes data back nor raises; otherwise it is false of the code, and so is silence after a loss for data handed back."
  },
  {
   "property": "C103",
   "status": "partial",
   "theorems": [
    "Verif.IOSim.nothing_invented",
    "Verif.IOSim.nothing_lost_partial",
    "Verif.IOSim.flushed_partial",
    "Verif.IOSim.lost_once",
    "Verif.IOSim.both_told",
    "Verif.IOSim.flush_ends",
    "Verif.IOSim.too_long",
    "Verif.IOSim.data_after_lost_fails",
    "Verif.IOSim.producer_after_lost_fails",
    "Verif.IOSim.raise_fails",
    "Verif.IOSim.debug_fails",
    "Verif.IOSim.writeSequence_fails",
    "Verif.IOSim.flush_tells",
    "Verif.IOSim.resumed_exact",
    "Verif.IOSim.exception_ends_flush"
   ],
   "note": "In every execution: no byte invented, doubled or reordered; both sides told at most once, and both by the time flush returns; flush ends. Nothing is lost as long as nobody raises and debug is off. False of the code: nothing after connectionLost, data in spite of exceptions, debug mode, writeSequence."
  },
  {
   "property": "C104",
   "status": "partial",
   "theorems": [
    "Verif.Caseless.dict_is_caseless_map",
    "Verif.Caseless.dict_keys_differ",
    "Verif.Caseless.dict_plain_partial",
    "Verif.Caseless.inList_iff",
    "Verif.Caseless.init_again",
    "Verif.Caseless.sorted_perm",
    "Verif.Caseless.sorted_ordered",
    "Verif.Caseless.sorted_stable",
    "Verif.Caseless.sorted_unique",
    "Verif.Caseless.cmp_agrees",
    "Verif.Caseless.dict_plain_fails",
    "Verif.Caseless.eq_transitive_fails",
    "Verif.Caseless.other_fails"
   ],
   "note": "Dictionaries with Caseless keys refine a case-insensitive map for every hash function and probe order, and the sort is characterised completely. Plain strings find Caseless keys only if they have no upper-case letter (dict_plain_partial, dict_plain_fails)."
  },
  {
   "property": "C105",
   "status": "partial",
   "theorems": [
    "Verif.Caseless.case_methods_variant",
    "Verif.Caseless.case_methods_case",
    "Verif.Caseless.title_case",
    "Verif.Caseless.case_methods_agree",
    "Verif.Caseless.swapcase_twice",
    "Verif.Caseless.iter_getItem",
    "Verif.Caseless.found_slice",
    "Verif.Caseless.slice_affix",
    "Verif.Caseless.upper_unicode_fails"
   ],
   "note": "Everything for ASCII text (or bytes); beyond ASCII it is false (upper_unicode_fails)."
  },
  {
   "property": "C106",
   "status": "proved",
   "theorems": [
    "Verif.FilePath.makedirs_makes",
    "Verif.FilePath.makedirs_refuses",
    "Verif.FilePath.createDirectory_iff",
    "Verif.FilePath.createDirectory_ok"
   ],
   "note": "Over trees without symbolic links; permissions are not modelled."
  },
  {
   "property": "C107",
   "status": "partial",
   "theorems": [
    "Verif.FilePath.children_iff",
    "Verif.FilePath.glob_iff_partial",
    "Verif.FilePath.glob_all",
    "Verif.FilePath.glob_raises",
    "Verif.FilePath.glob_ok",
    "Verif.FilePath.glob_once",
    "Verif.FilePath.glob_star_partial",
    "Verif.FilePath.fnmatch_iff",
    "Verif.FilePath.translate_error",
    "Verif.FilePath.glob_escapes_fails"
   ],
   "note": "Partial because false of paths with special characters: globChildren quotes nothing in its own path, so a directory a* also gives files of ab (glob_escapes_fails). Patterns may have brackets; their components are not empty, '.' or '..'. fnmatch and re are modelled as CPython 2.7 has them, because only Python 2 loads the module. glob_all says what is given for any path."
  },
  {
   "property": "C108",
   "status": "partial",
   "theorems": [
    "Verif.Benchmark.Main.bench_stops_partial",
    "Verif.Benchmark.Main.bench_waits",
    "Verif.Benchmark.Main.spawned",
    "Verif.Benchmark.Main.main_cleans_partial",
    "Verif.Benchmark.Main.main_keeps_partial",
    "Verif.Benchmark.Main.main_taken",
    "Verif.Benchmark.Main.absolute_script",
    "Verif.Benchmark.Main.bench_fired_fails",
    "Verif.Benchmark.Main.main_gone_fails",
    "Verif.Benchmark.Main.relative_script_fails"
   ],
   "note": "False for scripts named by relative paths, for a Deferred fired before bench gets it, and for a benchmark that removes its own directory: see the theorems named _fails. Trees without symbolic links."
  },
  {
   "property": "C109",
   "status": "partial",
   "theorems": [
    "Verif.JuiceReentry.fires_once",
    "Verif.JuiceReentry.all_fire_partial",
    "Verif.JuiceReentry.never_called_twice_partial",
    "Verif.JuiceReentry.none_sent_after_loss",
    "Verif.JuiceReentry.refused_after_loss",
    "Verif.JuiceReentry.reply_fires_only",
    "Verif.JuiceReentry.reply_fires_partial",
    "Verif.JuiceReentry.unhandled_drops_partial",
    "Verif.JuiceReentry.own_fire_fails",
    "Verif.JuiceReentry.fires_when_due"
   ],
   "note": "At-most-once, replies by tag and silence after loss hold of every history; exactly-once and the handling of replies hold of every history in which the application does not fire the Deferreds of its requests itself, and fail otherwise (own_fire_fails)."
  },
  {
   "property": "C110",
   "status": "partial",
   "theorems": [
    "Verif.JuiceBoxes.effects_follow_partial",
    "Verif.JuiceBoxes.all_written_partial",
    "Verif.JuiceBoxes.locked_writes_nothing",
    "Verif.JuiceBoxes.at_most_once",
    "Verif.JuiceBoxes.juiceBox_fields",
    "Verif.JuiceBoxes.juiceBox_refuses",
    "Verif.JuiceBoxes.copy_partial",
    "Verif.JuiceBoxes.copy_fails",
    "Verif.JuiceBoxes.body_get_set",
    "Verif.JuiceBoxes.factories",
    "Verif.JuiceBoxes.quit_waiting_fails",
    "Verif.JuiceBoxes.tls_twice_fails",
    "Verif.JuiceBoxes.switch_twice_fails",
    "Verif.JuiceBoxes.no_version_fails",
    "Verif.JuiceBoxes.effects_happen_partial",
    "Verif.JuiceBoxes.waiting_written",
    "Verif.ErrorKinds.no_body"
   ],
   "note": "Order and completeness of effects are proved for connections that do not wait for TLS (no prepareTLS), and fail otherwise (quit_waiting_fails); copying is proved for the classes whose constructors need no arguments, and fails for the others."
  },
  {
   "property": "C111",
   "status": "proved",
   "theorems": [
    "Verif.FilePath.Parts.splitext_exact",
    "Verif.FilePath.Parts.new_isabs",
    "Verif.FilePath.Parts.parent_child",
    "Verif.FilePath.Parts.ancestors",
    "Verif.FilePath.Parts.cmp_exact",
    "Verif.FilePath.Parts.cmp_order",
    "Verif.FilePath.Parts.repr_exact",
    "Verif.FilePath.Parts.get_known",
    "Verif.FilePath.Parts.get_coherent",
    "Verif.FilePath.Parts.get_fresh",
    "Verif.FilePath.Parts.getters",
    "Verif.FilePath.Parts.restat_raises",
    "Verif.FilePath.Parts.pickle_exact",
    "Verif.FilePath.Parts.get_stale_fails"
   ],
   "note": "Parts of a path, order, cached times and sizes and pickling. get_stale_fails records that cached answers go stale, which the claim allows."
  },
  {
   "property": "C112",
   "status": "partial",
   "theorems": [
    "Verif.HotfixInstall.installs_exact",
    "Verif.HotfixInstall.installs_modules",
    "Verif.HotfixInstall.installs_frame",
    "Verif.HotfixInstall.install_succeeds",
    "Verif.HotfixInstall.cured_partial",
    "Verif.HotfixInstall.require_run",
    "Verif.HotfixInstall.require_cures_partial",
    "Verif.HotfixInstall.module_named",
    "Verif.HotfixInstall.deferred_fails",
    "Verif.HotfixInstall.loopback_fails",
    "Verif.HotfixInstall.clock_alone_fails",
    "Verif.HotfixInstall.timeout_module_fails",
    "Verif.HotfixInstall.children_differ_fails",
    "Verif.HotfixInstall.new_style_fails",
    "Verif.ErrorKinds.delayed_without",
    "Verif.ErrorKinds.clock_without",
    "Verif.ErrorKinds.transport_without"
   ],
   "note": "Closed form of everything after any sequence of installations. Missing, because false of the code: the generator's and loopback's fixes do not cure what require looks for, the clock's needs another fix, TimeoutMixin keeps the module of the hotfix, children of fixed paths differ, new-style classes cannot be fixed."
  },
  {
   "property": "C113",
   "status": "partial",
   "theorems": [
    "Verif.AmpServer.conn_is_run",
    "Verif.AmpServer.login_exact",
    "Verif.AmpServer.only_logins",
    "Verif.AmpServer.verdict_exact",
    "Verif.AmpServer.others_exact",
    "Verif.AmpServer.waiting_exact",
    "Verif.AmpServer.late_exact",
    "Verif.AmpServer.pad_once",
    "Verif.AmpServer.as_if_alone",
    "Verif.AmpServer.logged_out",
    "Verif.AmpServer.pad_wasted_fails",
    "Verif.AmpServer.undeclared_fails"
   ],
   "note": "Everything but two clauses is proved without the suffix: a pad is also used up when the realm refuses its avatar or the connection is lost meanwhile, and a response before PasswordLogin costs the client the connection (both refuted). Logging out once is proved for realms that answer at once; the others are C44."
  },
  {
   "property": "C114",
   "status": "partial",
   "theorems": [
    "Verif.RouteSetup.names_distinct",
    "Verif.RouteSetup.client_paired",
    "Verif.RouteSetup.server_paired",
    "Verif.RouteSetup.flow_exact",
    "Verif.RouteSetup.nothing_else",
    "Verif.RouteSetup.started_once",
    "Verif.RouteSetup.raised_only",
    "Verif.RouteSetup.send_exact",
    "Verif.RouteSetup.send_exact_server",
    "Verif.RouteSetup.server_started_first",
    "Verif.RouteSetup.client_started_first_partial",
    "Verif.RouteSetup.client_started_first_fails",
    "Verif.RouteSetup.drained",
    "Verif.RouteSetup.all_connected",
    "Verif.RouteSetup.lose_exact",
    "Verif.RouteSetup.lose_fails",
    "Verif.ErrorKinds.lose_early",
    "Verif.ErrorKinds.answer_unasked"
   ],
   "note": "Proved for every execution. Two clauses are false of the code: a box sent by a server receiver from startReceivingBoxes arrives before the client's receiver was started, and an outstanding connect makes stopReceivingBoxes fail with RuntimeError. Twisted's AMP is described in the model's header."
  },
  {
   "property": "C115",
   "status": "proved",
   "theorems": [
    "Verif.BenchmarkFile.output_exact",
    "Verif.BenchmarkFile.report_parsed",
    "Verif.BenchmarkFile.run_output",
    "Verif.BenchmarkFile.bench_refused",
    "Verif.BenchmarkFile.report_refused",
    "Verif.BenchmarkFile.read_back_fails"
   ],
   "note": "Float arguments are written by an arbitrary function; surroundings (host name, versions) are assumed encodable."
  },
  {
   "property": "C116",
   "status": "proved",
   "theorems": [
    "Verif.Extime.repr_evaluates",
    "Verif.Extime.repr_inj",
    "Verif.Extime.cmp_spec",
    "Verif.Extime.now_spec",
    "Verif.Extime.repr_resolution_fails"
   ],
   "note": "Naive datetimes are shown as CPython does. The resolution is not part of the representation."
  },
  {
   "property": "C117",
   "status": "partial",
   "theorems": [
    "Verif.DelayedCallStr.str_spec",
    "Verif.DelayedCallStr.str_debug",
    "Verif.DelayedCallStr.str_debug_cancelled",
    "Verif.DelayedCallStr.str_due_partial",
    "Verif.DelayedCallStr.str_delay_fails"
   ],
   "note": "Full text proved for all histories; the seconds are those until the time the owner was told, which is the due time only once the owner activated the delay (str_delay_fails)."
  },
  {
   "property": "C118",
   "status": "partial",
   "theorems": [
    "Verif.FileLinks.remove_links_partial",
    "Verif.FileLinks.remove_link_fails",
    "Verif.FileLinks.walk_links_partial",
    "Verif.FileLinks.walk_circle_fails",
    "Verif.FileLinks.copyTo_links_partial",
    "Verif.FileLinks.copy_dangling_fails",
    "Verif.FileLinks.remove_circle_fails",
    "Verif.FileLinks.copy_circle_fails"
   ],
   "note": "Path resolution as on Linux, with link texts as absolute paths. False of the code where links lead to directories (remove), in circles (walk) or nowhere (copyTo): see the theorems named _fails."
  },
  {
   "property": "C119",
   "status": "partial",
   "theorems": [
    "Verif.ExtimeZone.zone_shown",
    "Verif.ExtimeZone.zone_taken",
    "Verif.ExtimeZone.zone_roundtrip_partial",
    "Verif.ExtimeZone.zone_fields",
    "Verif.ExtimeZone.zone_struct_partial",
    "Verif.ExtimeZone.zone_texts_partial",
    "Verif.ExtimeZone.zone_time_partial",
    "Verif.ExtimeZone.zone_noon_partial",
    "Verif.ExtimeZone.zone_roundtrip_fails",
    "Verif.ExtimeZone.zone_texts_fails",
    "Verif.ExtimeZone.zone_time_fails",
    "Verif.ExtimeZone.zone_iso_stated",
    "Verif.ExtimeZone.zone_iso_unstated",
    "Verif.ExtimeZone.zone_iso_argument_partial",
    "Verif.ErrorKinds.noon_midnight",
    "Verif.ErrorKinds.iso_no_match"
   ],
   "note": "asDatetime always agrees with the clocks. The round trips hold exactly when the clocks do not show the same reading again; the failures are proved with New York 2005. Zones looking at fold or overriding fromutc: C126."
  },
  {
   "property": "C120",
   "status": "partial",
   "theorems": [
    "Verif.ExtimeZone.zone_bounds_partial",
    "Verif.ExtimeZone.zone_bounds_fails"
   ],
   "note": "Holds unless midnight at the beginning is shown twice or midnight at the end is skipped; both exceptions are witnessed."
  },
  {
   "property": "C121",
   "status": "partial",
   "theorems": [
    "Verif.Extime.readback_partial",
    "Verif.Extime.readback_fails",
    "Verif.Extime.readback_refused",
    "Verif.ExtimeZone.zone_humanly",
    "Verif.ExtimeZone.zone_readback_partial",
    "Verif.ExtimeZone.zone_readback_refused",
    "Verif.ExtimeZone.zone_readback_fails"
   ],
   "note": "False of the code for times from noon to one (their text, 12:mm pm, is refused: readback_fails, as in C20) and, with daylight saving time, for the first of two instants with the same clock reading (zone_readback_fails). Everything else is proved."
  },
  {
   "property": "C122",
   "status": "partial",
   "theorems": [
    "Verif.FileLinks.create_links",
    "Verif.FileLinks.open_links",
    "Verif.FileLinks.moveTo_links",
    "Verif.FileLinks.moveTo_works",
    "Verif.FileLinks.setContent_links",
    "Verif.FileLinks.setContent_links_partial",
    "Verif.FileLinks.setContent_links_fails",
    "Verif.ErrorKinds.open_circle",
    "Verif.FileLinks.nowhere_links",
    "Verif.FileLinks.setContent_onto_dir"
   ],
   "note": "Proved for create, open and moveTo. For setContent it is proved when the sibling (f.new) is not a symbolic link; it is false otherwise (setContent_links_fails): the file the sibling leads to is overwritten and the path becomes the link. setContent_links says exactly what happens in both cases."
  },
  {
   "property": "C123",
   "status": "partial",
   "theorems": [
    "Verif.CaselessUnicode.reads_iff",
    "Verif.CaselessUnicode.unicode_eq",
    "Verif.CaselessUnicode.unicode_order",
    "Verif.CaselessUnicode.unicode_laws",
    "Verif.CaselessUnicode.unicode_case_blind",
    "Verif.CaselessUnicode.lower_settled",
    "Verif.CaselessUnicode.unicode_find_partial",
    "Verif.CaselessUnicode.unicode_index_partial",
    "Verif.CaselessUnicode.unicode_affix_partial",
    "Verif.CaselessUnicode.unicode_count_partial",
    "Verif.CaselessUnicode.unicode_count_empty_partial",
    "Verif.CaselessUnicode.unicode_contains_all",
    "Verif.CaselessUnicode.ascii_lower",
    "Verif.CaselessUnicode.sigma_fails",
    "Verif.CaselessUnicode.length_fails"
   ],
   "note": "Comparisons are proved for every text and database. Searches are exact in text whose characters each have one character for their lower case and among which there is no capital sigma (the substring may be anything); for others they are refuted (sigma_fails, length_fails)."
  },
  {
   "property": "C124",
   "status": "partial",
   "theorems": [
    "Verif.SpewerTrace.told",
    "Verif.SpewerTrace.tracer_idle",
    "Verif.SpewerTrace.spew_partial",
    "Verif.SpewerTrace.readback",
    "Verif.SpewerTrace.spew_py3_fails",
    "Verif.SpewerTrace.spew_exception_fails"
   ],
   "note": "The events are exact for every tracer that returns None or skip. The print is the tree of calls for programs without exceptions on Python 2; with exceptions and on Python 3 it is not (spew_exception_fails, spew_py3_fails)."
  },
  {
   "property": "C125",
   "status": "partial",
   "theorems": [
    "Verif.JuiceFloat.float_exact",
    "Verif.JuiceFloat.float_survives_partial",
    "Verif.JuiceFloat.floats_survive_partial",
    "Verif.JuiceFloat.float_integer_partial",
    "Verif.JuiceFloat.float_integer_near",
    "Verif.JuiceFloat.float_nan_fails",
    "Verif.JuiceFloat.float_integer_fails",
    "Verif.JuiceFloat.float_anything_fails",
    "Verif.JuiceFloat.float_py2_fails"
   ],
   "note": "Every double arrives bit for bit (Python 3); every double but nan survives in the sense of ==, also in non-empty lists; integers below 2**53 arrive as equal floats, larger ones within one part in 2**53. False, with witnesses: nan, integers from 2**53 + 1 on, objects that are not numbers (refused by the receiver only), Python 2."
  },
  {
   "property": "C126",
   "status": "partial",
   "theorems": [
    "Verif.ExtimeFold.fold_shown",
    "Verif.ExtimeFold.fold_roundtrip",
    "Verif.ExtimeFold.fold_taken",
    "Verif.ExtimeFold.fold_skipped",
    "Verif.ExtimeFold.fold_fields",
    "Verif.ExtimeFold.fold_texts",
    "Verif.ExtimeFold.fold_rfc_partial",
    "Verif.ExtimeFold.fold_iso_partial",
    "Verif.ExtimeFold.fold_iso_argument_partial",
    "Verif.ExtimeFold.fold_struct_partial",
    "Verif.ExtimeFold.fold_time_partial",
    "Verif.ExtimeFold.fold_noon_partial",
    "Verif.ExtimeFold.fold_plain",
    "Verif.ExtimeFold.zone_tells",
    "Verif.ExtimeFold.newYork_tells",
    "Verif.ExtimeFold.oldNewYork_tells",
    "Verif.ExtimeFold.stJohns_tells",
    "Verif.ExtimeFold.fold_struct_fails",
    "Verif.ExtimeFold.fold_rfc_fails",
    "Verif.ExtimeFold.fold_time_fails"
   ],
   "note": "asDatetime, fromDatetime and their round trip are proved in full. False: struct_time and texts without offset of a second showing, offsets with seconds, and fromHumanly near a change of the clocks (proved with New York and St. John's). ISO texts with an offset of hours and minutes west of Greenwich fail as in C02. The fold of a naive datetime given to fromDatetime is taken to be 0."
  },
  {
   "property": "C127",
   "status": "proved",
   "theorems": [
    "Verif.Unrepr.unrepr_repr",
    "Verif.Unrepr.repr_injective",
    "Verif.Unrepr.unrepr_deep_fails",
    "Verif.Unrepr.unrepr_inf_fails",
    "Verif.Unrepr.caseless_repr",
    "Verif.Unrepr.box_repr",
    "Verif.Unrepr.box_repr_injective",
    "Verif.Unrepr.record_repr",
    "Verif.Unrepr.record_rebuilt",
    "Verif.Unrepr.unrepr_parens",
    "Verif.Unrepr.unrepr_equal_keys"
   ],
   "note": "Proved for all plain data; recursive containers, sets and complex numbers are outside the model."
  },
  {
   "property": "C128",
   "status": "proved",
   "theorems": [
    "Verif.FileErrors.mkdir_fails",
    "Verif.FileErrors.createDirectory_fails",
    "Verif.FileErrors.makedirs_ends",
    "Verif.FileErrors.create_fails",
    "Verif.FileErrors.openW_fails",
    "Verif.FileErrors.write_fails",
    "Verif.FileErrors.open_fails",
    "Verif.FileErrors.touch_ends",
    "Verif.FileErrors.getContent_fails",
    "Verif.FileErrors.getContentF_fails",
    "Verif.FileErrors.listdir_fails",
    "Verif.FileErrors.children_fails",
    "Verif.FileErrors.remove_ends",
    "Verif.FileErrors.rename_fails",
    "Verif.FileErrors.setContent_ends",
    "Verif.FileErrors.moveTo_ends",
    "Verif.FileErrors.copyTo_ends",
    "Verif.FileErrors.copyToF_ends",
    "Verif.FileErrors.copyTo_special",
    "Verif.FileErrors.get_fails",
    "Verif.FileErrors.mkdirAt_fails",
    "Verif.FileErrors.removeAt_ends",
    "Verif.FileErrors.copyToAt_ends",
    "Verif.FileErrors.createAt_ends",
    "Verif.FileErrors.openWAt_fails",
    "Verif.FileErrors.openFor_ends",
    "Verif.FileErrors.renameAt_fails",
    "Verif.FileErrors.setContentAt_ends",
    "Verif.FileErrors.moveToAt_ends"
   ],
   "note": "OSError and IOError are one exception in the model. Patterns that glob cannot translate (re.error) are C107."
  },
  {
   "property": "C129",
   "status": "proved",
   "theorems": [
    "Verif.SecureName.secure_safe",
    "Verif.SecureName.secure_same",
    "Verif.SecureName.armored_all",
    "Verif.SecureName.sibling_named",
    "Verif.SecureName.sibling_same",
    "Verif.SecureName.random_bytes"
   ],
   "note": "SHA-1 is computed in the model (Py/Sha1), so nothing about digests is assumed. The random bytes are any bytes; how they are drawn is not modelled."
  },
  {
   "property": "C130",
   "status": "partial",
   "theorems": [
    "Verif.Services.scheduling_passes_on_partial",
    "Verif.Services.plain_running_partial",
    "Verif.Services.iterate_global_partial",
    "Verif.Services.scheduling_running_fails",
    "Verif.Services.standardIO_running_fails",
    "Verif.ErrorKinds.not_scheduling"
   ],
   "note": "False of the code for running: startService of both services does not call the method it overrides. What is asked of the cooperator is proved for every history."
  },
  {
   "property": "C131",
   "status": "partial",
   "theorems": [
    "Verif.Modal.own_partial",
    "Verif.Modal.mode_has_both",
    "Verif.Modal.inherited_fails",
    "Verif.Modal.stranded_fails",
    "Verif.Modal.entered_fails",
    "Verif.Modal.plain_modes_fails"
   ],
   "note": "False of the code: only the __dict__ of a mode class counts. Proved for what a mode class defines itself."
  },
  {
   "property": "C132",
   "status": "partial",
   "theorems": [
    "Verif.CaselessTypes.mixed_partial",
    "Verif.CaselessTypes.same_partial",
    "Verif.CaselessTypes.tuple_partial",
    "Verif.CaselessTypes.affixes_partial",
    "Verif.CaselessTypes.str_text_partial",
    "Verif.CaselessTypes.str_bytes_fails",
    "Verif.CaselessTypes.unicode_fails",
    "Verif.CaselessTypes.items_bytes_fails",
    "Verif.CaselessTypes.items_text_partial"
   ],
   "note": "str() and membership of items are false of bytes; the rest is proved for all values."
  },
  {
   "property": "C133",
   "status": "partial",
   "theorems": [
    "Verif.Router.unhandled_partial",
    "Verif.Router.unhandled_fails",
    "Verif.Router.send_after_stop"
   ],
   "note": "False before the router has started (unhandled_fails); proved for every history with a start."
  },
  {
   "property": "C134",
   "status": "partial",
   "theorems": [
    "Verif.StructlikeText.split_iff",
    "Verif.StructlikeText.record_text",
    "Verif.StructlikeText.record_text_error",
    "Verif.StructlikeText.respelled",
    "Verif.StructlikeText.name_reads_back",
    "Verif.StructlikeText.blank_text",
    "Verif.StructlikeText.named_twice",
    "Verif.StructlikeText.call_partial",
    "Verif.StructlikeText.self_fails"
   ],
   "note": "Everything for all texts but the keyword self, which Python refuses (self_fails)."
  },
  {
   "property": "C135",
   "status": "partial",
   "theorems": [
    "Verif.DelayedCallFloat.due_within",
    "Verif.DelayedCallFloat.due_within_microseconds",
    "Verif.DelayedCallFloat.never_late",
    "Verif.DelayedCallFloat.told_partial",
    "Verif.DelayedCallFloat.told_fails",
    "Verif.DelayedCallFloat.reset_exact",
    "Verif.DelayedCallFloat.reset_fails",
    "Verif.DelayedCallFloat.refuses",
    "Verif.DelayedCallGrid.grid_run",
    "Verif.DelayedCallGrid.grid_step",
    "Verif.DelayedCallGrid.grid_bound_needed"
   ],
   "note": "The error bound, the order and the refusals hold of every history. False: the owner may be told though the time stayed the same (told_fails); a reset to more than twice the scheduled time may be off by a rounding (reset_fails, reset_exact). Finite doubles; overflow is not modelled."
  },
  {
   "property": "C136",
   "status": "proved",
   "theorems": [
    "Verif.JuiceBase64.text_shape",
    "Verif.JuiceBase64.base64_survives",
    "Verif.JuiceBase64.base64_lists",
    "Verif.JuiceBase64.junk_ignored",
    "Verif.JuiceBase64.incomplete_refused",
    "Verif.ErrorKinds.base64_not_string",
    "Verif.JuiceBase64.first_equals",
    "Verif.JuiceBase64.read_value",
    "Verif.JuiceBase64.bytes_unique"
   ],
   "note": "Python 2, byte strings. On Python 3 Base64Binary cannot be used at all (C82)."
  },
  {
   "property": "C137",
   "status": "partial",
   "theorems": [
    "Verif.AmpOverlap.verdict",
    "Verif.AmpOverlap.last_gets_in_partial",
    "Verif.AmpOverlap.others_refused",
    "Verif.AmpOverlap.one_gets_in",
    "Verif.AmpOverlap.late",
    "Verif.AmpOverlap.response_length",
    "Verif.AmpOverlap.right_password_fails"
   ],
   "note": "The last sentence is false: right_password_fails; last_gets_in_partial is what holds of it. others_refused up to a hash collision, for challenges of equal length (secureRandom(16))."
  },
  {
   "property": "C138",
   "status": "partial",
   "theorems": [
    "Verif.DelayedCallOwner.function_until_cancelled",
    "Verif.DelayedCallOwner.final",
    "Verif.DelayedCallOwner.refuses",
    "Verif.DelayedCallOwner.cancel_outcome",
    "Verif.DelayedCallOwner.reset_outcome",
    "Verif.DelayedCallOwner.delay_outcome",
    "Verif.DelayedCallOwner.told",
    "Verif.DelayedCallOwner.listening_owner",
    "Verif.DelayedCallOwner.raise_changes_fails",
    "Verif.DelayedCallOwner.cancel_twice_fails",
    "Verif.DelayedCallOwner.made_and_cancelled_fails"
   ],
   "note": "The last sentence is false (the three _fails theorems); everything before it is proved. told leaves out activate_delay, which is how the owner itself changes the time."
  },
  {
   "property": "C139",
   "status": "partial",
   "theorems": [
    "Verif.JuiceTransact.same_answer",
    "Verif.JuiceTransact.unwrapped_store",
    "Verif.JuiceTransact.old_transaction",
    "Verif.JuiceTransact.not_run",
    "Verif.JuiceTransact.command_kept",
    "Verif.JuiceTransact.rollback_fails"
   ],
   "note": "The last sentence is false: command_kept says what happens instead, for every command, rollback_fails is a witness."
  },
  {
   "property": "C140",
   "status": "partial",
   "theorems": [
    "Verif.ClockRun.story",
    "Verif.ClockRun.at_most_once",
    "Verif.ClockRun.earliest_partial",
    "Verif.ClockRun.advance_partial",
    "Verif.ClockRun.first_come",
    "Verif.ClockRun.overdue_fails",
    "Verif.ClockRun.order_fails"
   ],
   "note": "Which calls may be made, how often, and what is raised hold of every history. The order and completeness fail after reset or delay until the next callLater (overdue_fails, order_fails), and are proved for the other histories. Clock.advance is Twisted's, described in the model."
  },
  {
   "property": "C141",
   "status": "partial",
   "theorems": [
    "Verif.FileLinks.copyTo_keeps",
    "Verif.FileLinks.copyTo_changes",
    "Verif.FileLinks.copyTo_within_partial",
    "Verif.FileLinks.copyTo_merges_partial",
    "Verif.FileLinks.copyTo_returns_partial",
    "Verif.FileLinks.copyTo_escapes_fails",
    "Verif.FileLinks.copyTo_loses_fails",
    "Verif.FileLinks.copyTo_empty_directory_fails"
   ],
   "note": "What stays and which entries can change is proved for every tree, links included, and every outcome. That nothing outside the destination changes, and the exact result, are proved when there are no links in source and destination and neither is in the other; false with links in the destination and for empty directories over files."
  },
  {
   "property": "C142",
   "status": "proved",
   "theorems": [
    "Verif.RouteCount.counted",
    "Verif.RouteCount.all_understood",
    "Verif.RouteCount.client_iff_connected",
    "Verif.RouteCount.all_counted",
    "Verif.RouteCount.eventually_counted"
   ],
   "note": "For every run, also with calls made later than the listing makes them. Each protocol is modelled as an AMP of its own that matches answers by number."
  },
  {
   "property": "C143",
   "status": "proved",
   "theorems": [
    "Verif.AmpAdder.add_exact",
    "Verif.AmpAdder.only_authenticated",
    "Verif.AmpAdder.no_stray",
    "Verif.AmpAdder.accepted_password",
    "Verif.AmpAdder.one_identity",
    "Verif.AmpAdder.client_adds",
    "Verif.AmpAdder.pad_client_adds"
   ],
   "note": "For every portal; one_identity for realms that answer at once, as the documented one does."
  },
  {
   "property": "C144",
   "status": "proved",
   "theorems": [
    "Verif.GenRun.no_fault",
    "Verif.GenRun.one_frame",
    "Verif.GenRun.fired_once",
    "Verif.GenRun.fired_with",
    "Verif.GenRun.end_fires",
    "Verif.GenRun.silent",
    "Verif.GenRun.resumed_with",
    "Verif.GenRun.waits_distinct",
    "Verif.GenRun.no_lost_wakeup",
    "Verif.GenRun.comes_to_rest",
    "Verif.GenRun.abandoned_fails",
    "Verif.GenRun.shared_fails",
    "Verif.GenRun.shallow",
    "Verif.GenRun.abandoned_silent"
   ],
   "note": "Python 2, where generators have next. The parts of Twisted Deferreds that matter (callback, addBoth, _runCallbacks) are modelled from their documented behaviour and are part of the trusted base; the only callbacks are the loop's own gotResult functions."
  },
  {
   "property": "C145",
   "status": "partial",
   "theorems": [
    "Verif.SizeLinks.size_links_partial",
    "Verif.SizeLinks.size_once_partial",
    "Verif.SizeLinks.size_links_raises",
    "Verif.SizeLinks.counted_twice_fails",
    "Verif.SizeLinks.circle_fails"
   ],
   "note": "The sum is over paths, each once, for every tree and all links; it is over what they lead to where no two paths lead to the same (size_once_partial). False otherwise (counted_twice_fails), and a circle raises (circle_fails). Path resolution as on Linux, as in C118."
  }
 ]
}
