{"id": "C01", "title": "ISO 8601 round trip at full precision", "statement": "For a Time of the default (microsecond) resolution, Time.fromISO8601TimeAndDate(t.asISO8601TimeAndDate(...)) with or without delimiters, when no tzinfo is given, returns a Time equal to t.", "quantifier": "every representable instant (years 1-9999, every microsecond), both settings of includeDelimiters", "why_tests_cant": "the set of instants has 3*10^17 members; calendar, zero-padding and trailing-zero stripping interact", "anchors": ["epsilon/extime.py::Time.asISO8601TimeAndDate", "epsilon/extime.py::Time.fromISO8601TimeAndDate"]}
{"id": "C02", "title": "ISO 8601 round trip through an explicit time zone", "statement": "Formatting a Time in any fixed-offset zone with asISO8601TimeAndDate(tzinfo=tz) and parsing it back yields an equal Time.", "quantifier": "every instant and every whole-minute offset strictly between -24h and +24h for which the local time is representable", "why_tests_cant": "sign/minute combinations of the offset times all instants", "anchors": ["epsilon/extime.py::Time.asISO8601TimeAndDate", "epsilon/extime.py::Time.fromISO8601TimeAndDate", "epsilon/extime.py::FixedOffset", "epsilon/extime.py::_timedeltaToSignHrMin"]}
{"id": "C03", "title": "ISO 8601 round trip respects resolution", "statement": "For a Time of any resolution, parsing its ISO 8601 form yields the start of the period printed: the instant truncated to the printed precision, and hence an equal Time exactly when the instant is aligned to that precision.", "quantifier": "every instant and every non-negative resolution", "why_tests_cant": "unbounded resolutions times all instants", "anchors": ["epsilon/extime.py::Time.asISO8601TimeAndDate", "epsilon/extime.py::Time.fromISO8601TimeAndDate"]}
{"id": "C04", "title": "ISO week dates denote the right day, and only existing weeks are accepted", "statement": "fromISO8601TimeAndDate('YYYY-Www-D') succeeds exactly when ISO year YYYY has week ww, and then the result is midnight of the day whose ISO calendar triple is (YYYY, ww, D).", "quantifier": "every year, week number and weekday", "why_tests_cant": "needs the calendar for every year; 52/53-week years follow a 400-year cycle", "anchors": ["epsilon/extime.py::Time.fromISO8601TimeAndDate.calculateDtime"]}
{"id": "C05", "title": "Ordinal dates denote the right day, and only existing days are accepted", "statement": "fromISO8601TimeAndDate('YYYY-DDD') succeeds exactly when year YYYY has a DDD-th day, and denotes the DDD-th day of that year.", "quantifier": "every year and day number", "why_tests_cant": "every year and day of the proleptic Gregorian calendar", "anchors": ["epsilon/extime.py::Time.fromISO8601TimeAndDate.calculateDtime"]}
{"id": "C06", "title": "Calendar dates are accepted exactly when they exist", "statement": "fromISO8601TimeAndDate('YYYY-MM-DD[Thh[:mm[:ss]]]') succeeds exactly when the date exists in the proleptic Gregorian calendar and the time of day is a valid one; otherwise ValueError.", "quantifier": "every combination of digit fields", "why_tests_cant": "10^14 digit combinations", "anchors": ["epsilon/extime.py::Time.fromISO8601TimeAndDate.coerceGroups", "epsilon/extime.py::Time.fromISO8601TimeAndDate.calculateDtime"]}
{"id": "C07", "title": "The resolution of a parsed ISO string is the length of the period it names", "statement": "After parsing, resolution is the exact length of the year, month, week, day, hour, minute, second or decimal fraction named, and t + resolution is the start of the next such period.", "quantifier": "every accepted string of every precision", "why_tests_cant": "leap years, month lengths, number of fraction digits", "anchors": ["epsilon/extime.py::Time.fromISO8601TimeAndDate.determineResolution"]}
{"id": "C08", "title": "Time zone arguments matter exactly when they should", "statement": "A string with no time of day parses to the same Time whatever tzinfo is passed; an explicit zone in the string overrides tzinfo; a time of day with no zone is interpreted in tzinfo (UTC if None).", "quantifier": "every accepted string and every pair of tzinfo arguments", "why_tests_cant": "quantifies over all strings and offsets", "anchors": ["epsilon/extime.py::Time.fromISO8601TimeAndDate.calculateTimezone", "epsilon/extime.py::Time.fromDatetime"]}
{"id": "C09", "title": "Conversion to and from datetime preserves the instant in any zone", "statement": "For a Time finer than a day, Time.fromDatetime(t.asDatetime(tz)) equals t for every tz, and asDatetime results in different zones denote the same instant; for Times of a day or more, asDatetime ignores the zone and keeps the wall-clock fields.", "quantifier": "every instant, resolution and fixed offset", "why_tests_cant": "continuous range of instants and offsets incl. overflow at the ends of the calendar", "anchors": ["epsilon/extime.py::Time.fromDatetime", "epsilon/extime.py::Time.asDatetime", "epsilon/extime.py::Time.asNaiveDatetime"]}
{"id": "C10", "title": "Time arithmetic obeys the laws of an affine line", "statement": "(t + d) - d equals t, (t + d) - t is d, (t + d) + e equals t + (d + e), and t - u is the negation of u - t, whenever the results are representable; otherwise OverflowError.", "quantifier": "every pair of instants and every pair of timedeltas", "why_tests_cant": "infinite domain with range limits", "anchors": ["epsilon/extime.py::Time.__add__", "epsilon/extime.py::Time.__sub__"]}
{"id": "C11", "title": "Containment is inclusion of periods", "statement": "u in t holds exactly when the period addressed by u lies within the period addressed by t; it is reflexive, transitive and (up to equality of period) antisymmetric.", "quantifier": "every pair/triple of instants and resolutions", "why_tests_cant": "orders must hold for all triples", "anchors": ["epsilon/extime.py::Time.__contains__"]}
{"id": "C12", "title": "Equality of Times is an equivalence on instants", "statement": "t == u exactly when both denote the same instant, irrespective of resolution or of the zone they were created in; != is its negation; a Time never equals a non-Time.", "quantifier": "every pair/triple of Times", "why_tests_cant": "equivalence laws over all triples", "anchors": ["epsilon/extime.py::Time.__eq__", "epsilon/extime.py::Time.__ne__", "epsilon/compat.py::_cmp"]}
{"id": "C13", "title": "getBounds covers the addressed period in UTC and in the given zone", "statement": "t.getBounds(tz) returns (lo, hi) such that both the period of t read in UTC and, for day-or-coarser resolutions, the same wall-clock period read in tz lie within [lo, hi].", "quantifier": "every instant, resolution and offset", "why_tests_cant": "all offsets and resolutions; depends on language-level ordering of Time", "anchors": ["epsilon/extime.py::Time.getBounds", "epsilon/extime.py::Time.__cmp__"]}
{"id": "C14", "title": "oneDay is the UTC day containing the start of the period", "statement": "t.oneDay() starts at a UTC midnight, has a resolution of one day, starts no later than t and less than a day before it, is idempotent, and contains every Time whose period lies in that UTC day.", "quantifier": "every Time", "why_tests_cant": "all instants", "anchors": ["epsilon/extime.py::Time.oneDay"]}
{"id": "C15", "title": "sanitizeStructTime clamps every field to its nearest valid value", "statement": "The result agrees with the input in every in-range field and in the tail, every one of the first six fields is brought to the closest value of its range, and the operation is idempotent.", "quantifier": "every tuple of integers", "why_tests_cant": "unbounded integers", "anchors": ["epsilon/extime.py::sanitizeStructTime"]}
{"id": "C16", "title": "struct_time round trip at second precision", "statement": "Time.fromStructTime(t.asStructTime()) equals t truncated to the second; with a tzinfo on both sides likewise.", "quantifier": "every instant and fixed offset", "why_tests_cant": "all instants", "anchors": ["epsilon/extime.py::Time.fromStructTime", "epsilon/extime.py::Time.asStructTime"]}
{"id": "C17", "title": "RFC 2822 round trip at second precision", "statement": "Time.fromRFC2822(t.asRFC2822(tz)) equals t truncated to the second, for every zone, with or without the day of week.", "quantifier": "every instant, every fixed offset, both includeDayOfWeek settings", "why_tests_cant": "string formats over all instants and offsets", "anchors": ["epsilon/extime.py::Time.asRFC2822", "epsilon/extime.py::Time.fromRFC2822"]}
{"id": "C18", "title": "POSIX timestamp round trip", "statement": "Time.fromPOSIXTimestamp(t.asPOSIXTimestamp()) equals t, and whole-second timestamps n satisfy fromPOSIXTimestamp(n).asPOSIXTimestamp() == n with no 2038 limit.", "quantifier": "every instant", "why_tests_cant": "floating-point rounding differs at every magnitude", "anchors": ["epsilon/extime.py::Time.fromPOSIXTimestamp", "epsilon/extime.py::Time.asPOSIXTimestamp", "epsilon/extime.py::_timedeltaToSeconds"]}
{"id": "C19", "title": "fromHumanly on day words", "statement": "A weekday name yields the first such day strictly after the UTC day of now (within seven days); today/tomorrow/yesterday yield the UTC day of now shifted by 0/+1/-1; each is a whole-day Time.", "quantifier": "every 'now', every weekday, letter case", "why_tests_cant": "all instants for now", "anchors": ["epsilon/extime.py::Time.fromHumanly", "epsilon/extime.py::Time._fromWeekday", "epsilon/extime.py::Time._fromTodayOrTomorrow"]}
{"id": "C20", "title": "fromHumanly on clock times", "statement": "h:mm (24-hour or am/pm), noon and midnight yield the next instant, in the given zone, whose wall clock shows that time, not earlier than the minute of now.", "quantifier": "every 'now', zone, hour and minute", "why_tests_cant": "all instants and zones", "anchors": ["epsilon/extime.py::Time._fromTime", "epsilon/extime.py::Time._fromNoonOrMidnight"]}
{"id": "C21", "title": "asHumanly identifies the minute", "statement": "For a fixed zone and now, two Times finer than a day have the same asHumanly text only if they denote the same minute (second, with Precision.SECONDS) of the same local day.", "quantifier": "every pair of Times, every now, zone and precision", "why_tests_cant": "injectivity over all pairs", "anchors": ["epsilon/extime.py::Time.asHumanly"]}
{"id": "C22", "title": "A juice box survives serialisation", "statement": "Parsing box.serialize() yields exactly one box with the same keys and values, whatever the values contain (CR LF, ': ', leading spaces, non-ASCII text, blank lines).", "quantifier": "every box with protocol-legal keys and arbitrary text values", "why_tests_cant": "values are arbitrary strings that may imitate the framing", "anchors": ["epsilon/juice.py::JuiceBox.serialize", "epsilon/juice.py::parseJuiceHeaders", "epsilon/juice.py::Juice.lineReceived", "epsilon/juice.py::Juice.rawDataReceived"]}
{"id": "C23", "title": "A sequence of boxes is received as sent under any segmentation", "statement": "Writing boxes b1..bn to a connection and delivering the bytes in any sequence of chunks makes the receiver handle exactly b1..bn in that order.", "quantifier": "every list of legal boxes (keys as the protocol writes them, well-formed text values, a body, if any, of ASCII text), every way of cutting the byte stream", "why_tests_cant": "exponentially many segmentations", "anchors": ["epsilon/liner.py::LineReceiver.dataReceived", "epsilon/juice.py::Juice.lineReceived", "epsilon/juice.py::Juice.rawDataReceived"]}
{"id": "C24", "title": "Segmentation never matters, even for malformed input", "statement": "For any byte stream at all, the sequence of boxes handled, the error raised (if any) and the protocol state afterwards do not depend on how the stream was cut into chunks.", "quantifier": "every byte string, every segmentation, every initial protocol state", "why_tests_cant": "all byte strings times all cuts", "anchors": ["epsilon/liner.py::LineReceiver.dataReceived", "epsilon/juice.py::Juice.rawDataReceived"]}
{"id": "C25", "title": "Every answer reaches the request it answers", "statement": "Between two juice peers that exchange commands concurrently and answer in any order, a Deferred returned by sendBoxCommand fires with r only if the remote side produced r for that very request; no answer is lost, duplicated or refers to an unknown tag.", "quantifier": "every interleaving of sends, deliveries and (out of order) responses on both sides, any number of requests; application boxes leave the protocol's own keys alone", "why_tests_cant": "concurrent schedules are unbounded", "anchors": ["epsilon/juice.py::JuiceParserBase.sendBoxCommand", "epsilon/juice.py::JuiceParserBase.juiceBoxReceived", "epsilon/juice.py::JuiceParserBase._nextTag"]}
{"id": "C26", "title": "Every request Deferred fires at most once, and connection loss fails all that remain", "statement": "In any history each request's Deferred fires at most once; when the connection is lost every outstanding one fails exactly once with the reason, and later requests fail immediately without being sent.", "quantifier": "every history of two peers whose applications leave the protocol's own keys alone; 'at most once' also for any remote side and any boxes", "why_tests_cant": "unbounded histories", "anchors": ["epsilon/juice.py::JuiceParserBase.failAllOutgoing", "epsilon/juice.py::JuiceParserBase.sendBoxCommand", "epsilon/juice.py::Juice.connectionLost"]}
{"id": "C27", "title": "Request tags never repeat", "statement": "On one connection no two requests carry the same -Ask tag, and tags are never reused even after being answered.", "quantifier": "every history of requests of any length, whatever the boxes contain and the remote side sends", "why_tests_cant": "unbounded counter rendered in hexadecimal", "anchors": ["epsilon/juice.py::JuiceParserBase._nextTag"]}
{"id": "C28", "title": "Argument types decode what they encode", "statement": "For Integer, String, Boolean, ListOf and JuiceList arguments, fromStringProto(toStringProto(x)) == x.", "quantifier": "every value of the argument type", "why_tests_cant": "unbounded integers, strings and nested lists", "anchors": ["epsilon/juice.py::Integer", "epsilon/juice.py::String", "epsilon/juice.py::Boolean", "epsilon/juice.py::ListOf", "epsilon/juice.py::JuiceList"]}
{"id": "C29", "title": "Command arguments and responses survive the box", "statement": "stringsToObjects(objectsToStrings(objs, args, Box()), args) returns the given objects for every declared argument, with None for absent optional ones, and ignores keys that are not declared.", "quantifier": "every argument list and every object mapping", "why_tests_cant": "all argument lists", "anchors": ["epsilon/juice.py::objectsToStrings", "epsilon/juice.py::stringsToObjects", "epsilon/juice.py::Argument"]}
{"id": "C30", "title": "A command missing a required argument is never sent", "statement": "Command(**kw) raises RuntimeError exactly when some non-optional declared argument is absent from kw (up to key normalisation).", "quantifier": "every argument declaration and every keyword set", "why_tests_cant": "all subsets", "anchors": ["epsilon/juice.py::Command.__init__", "epsilon/juice.py::normalizeKey"]}
{"id": "C31", "title": "Commands are only invoked in their namespaces", "statement": "dispatchCommand(proto, cmd, box, ns) invokes a command_ method only when ns is among that command's namespaces; otherwise the caller gets UnhandledCommand and the method does not run.", "quantifier": "every object, command name, namespace and box", "why_tests_cant": "security property over all dispatch tables", "anchors": ["epsilon/juice.py::DispatchMixin._auto", "epsilon/juice.py::DispatchMixin.lookupFunction", "epsilon/juice.py::DispatchMixin.dispatchCommand"]}
{"id": "C32", "title": "Errors travel back as declared", "statement": "If a responder raises an exception declared in errors or fatalErrors the caller's Deferred fails with that exception class and description; any other exception yields UnhandledRemoteJuiceError and closes the connection; declared fatal errors also close the connection.", "quantifier": "every command error table, every exception raised", "why_tests_cant": "all tables and exceptions", "anchors": ["epsilon/juice.py::DispatchMixin._auto", "epsilon/juice.py::_CommandMeta", "epsilon/juice.py::Command.do", "epsilon/juice.py::JuiceParserBase.juiceBoxReceived"]}
{"id": "C33", "title": "After a protocol switch every byte goes to the new protocol", "statement": "Bytes that follow the switching box are delivered to the inner protocol exactly once and in order whatever the segmentation, and are never interpreted as boxes; the inner protocol is connected exactly once.", "quantifier": "every byte string following the switch and every segmentation", "why_tests_cant": "all strings and cuts", "anchors": ["epsilon/juice.py::Juice._switchTo", "epsilon/juice.py::Juice.rawDataReceived", "epsilon/liner.py::LineReceiver.dataReceived"]}
{"id": "C34", "title": "Nothing is sent in the clear while TLS is being negotiated", "statement": "Boxes sent between prepareTLS and startTLS are written only after startTLS, in the order sent, and none is lost or duplicated.", "quantifier": "every sequence of sends, prepareTLS and startTLS", "why_tests_cant": "all histories", "anchors": ["epsilon/juice.py::Juice.sendPacket", "epsilon/juice.py::Juice.prepareTLS", "epsilon/juice.py::Juice.startTLS"]}
{"id": "C35", "title": "Version negotiation picks the first offered version that is supported", "statement": "command_NEGOTIATE(versions) returns the first element of versions contained in VERSIONS and fails with IncompatibleVersions when there is none.", "quantifier": "every list of offered versions", "why_tests_cant": "all lists", "anchors": ["epsilon/juice.py::Juice.command_NEGOTIATE", "epsilon/juice.py::Juice.renegotiateVersion"]}
{"id": "C36", "title": "Boxes are delivered to the receiver bound to their route and to no other", "statement": "A received box is delivered, with its route key removed and otherwise unchanged, exactly to the receiver most recently bound to that route name (None for unrouted boxes); for unbound names no receiver sees it.", "quantifier": "every history of bind/unbind/receive", "why_tests_cant": "all histories", "anchors": ["epsilon/amprouter.py::Router.ampBoxReceived", "epsilon/amprouter.py::Router.bindRoute", "epsilon/amprouter.py::Route.unbind"]}
{"id": "C37", "title": "Boxes sent through a route reach the peer's receiver for that route", "statement": "With two routers connected back to back, a box sent through a connected Route is received, contents intact, by the receiver bound on the other side to its remote route name; sending through an unconnected Route raises RouteNotConnected and sends nothing.", "quantifier": "every configuration of routes and every box", "why_tests_cant": "all configurations", "anchors": ["epsilon/amprouter.py::Route.sendBox", "epsilon/amprouter.py::Router.ampBoxReceived"]}
{"id": "C38", "title": "Receivers are started only when router and route are both ready, and exactly once", "statement": "startReceivingBoxes is called on a receiver only after the router has started and its route has a remote name; if connectTo is called once per route it is called exactly once.", "quantifier": "every interleaving of binds, connects and router start", "why_tests_cant": "ordering over all histories", "anchors": ["epsilon/amprouter.py::Route.connectTo", "epsilon/amprouter.py::Router.startReceivingBoxes"]}
{"id": "C39", "title": "Stopping the router stops every bound receiver once", "statement": "stopReceivingBoxes calls stop on each currently bound route's receiver exactly once with the reason, and afterwards no box is delivered.", "quantifier": "every router state", "why_tests_cant": "all states", "anchors": ["epsilon/amprouter.py::Router.stopReceivingBoxes"]}
{"id": "C40", "title": "Generated route identifiers are fresh", "statement": "createRouteIdentifier (and bindRoute without a name) returns a name not associated with any route of the router.", "quantifier": "every history of binds with explicit or generated names", "why_tests_cant": "all histories", "anchors": ["epsilon/amprouter.py::Router.createRouteIdentifier", "epsilon/amprouter.py::Router.bindRoute"]}
{"id": "C41", "title": "A one-time pad authenticates at most once", "statement": "In any sequence of login attempts each pad yields its avatar id for the first attempt that uses it and UnauthorizedLogin for every later one; unknown pads always fail and never consume a pad.", "quantifier": "every sequence of attempts over every pad table", "why_tests_cant": "unbounded attempt sequences", "anchors": ["epsilon/ampauth.py::OneTimePadChecker.requestAvatarId"]}
{"id": "C42", "title": "The right password always logs in", "statement": "A client following login() against a CredReceiver with the correct password is accepted, for every challenge and nonce; a wrong password is accepted only on a hash collision.", "quantifier": "every challenge, nonce, username, password", "why_tests_cant": "all byte strings; hash abstract", "anchors": ["epsilon/ampauth.py::login", "epsilon/ampauth.py::_calcResponse", "epsilon/ampauth.py::_AMPUsernamePassword.checkPassword", "epsilon/ampauth.py::CredReceiver.passwordChallengeResponse"]}
{"id": "C43", "title": "Only the most recent challenge can be answered", "statement": "Credentials passed to the portal always carry the challenge and username of the latest PasswordLogin on that connection; a response computed for an earlier challenge is rejected (up to hash collision), and a response before any PasswordLogin never reaches the portal.", "quantifier": "every history of commands on a connection", "why_tests_cant": "all histories", "anchors": ["epsilon/ampauth.py::CredReceiver.passwordLogin", "epsilon/ampauth.py::CredReceiver.passwordChallengeResponse"]}
{"id": "C44", "title": "Every login is logged out exactly once", "statement": "Each avatar obtained by a successful login on a connection has its logout called exactly once, when the connection is lost.", "quantifier": "every interleaving of logins (which may complete late) and connection loss", "why_tests_cant": "asynchronous completion order", "anchors": ["epsilon/ampauth.py::CredReceiver._login", "epsilon/ampauth.py::CredReceiver.connectionLost"]}
{"id": "C45", "title": "The one-time pad and password protocols do not confuse messages", "statement": "The hashed text of a response determines challenge, nonce and password when challenge and nonce have their fixed lengths.", "quantifier": "every triple of byte strings", "why_tests_cant": "injectivity over all triples", "anchors": ["epsilon/ampauth.py::_calcResponse", "epsilon/ampauth.py::PasswordChallengeResponse.determineFrom"]}
{"id": "C46", "title": "Caseless equality, ordering and hashing agree", "statement": "Caseless equality is an equivalence, equal values hash equally, <=, <, >, >= form a total preorder consistent with ==, and all are invariant under changing the case of either side.", "quantifier": "every pair/triple of strings", "why_tests_cant": "laws over all triples", "anchors": ["epsilon/caseless.py::Caseless"]}
{"id": "C47", "title": "Caseless searching is case-blind searching", "statement": "in, startswith, endswith, count, find, rfind, index and rindex give the same answer for any case variant of either argument, and the positions returned are the first/last positions where a case-insensitive match occurs in the wrapped string.", "quantifier": "every pair of strings and optional bounds", "why_tests_cant": "all strings", "anchors": ["epsilon/caseless.py::Caseless"]}
{"id": "C48", "title": "A sliced view is the slice", "statement": "SlicedView(seq, s) has len, indexing (also negative, also out of range) and iteration identical to the list seq[s]; slicing a view again equals slicing that list again, to any nesting depth; and it is live with respect to changes of seq.", "quantifier": "every sequence, slice (any start/stop/step incl. negative), index and nesting depth", "why_tests_cant": "all slices", "anchors": ["epsilon/view.py::SlicedView"]}
{"id": "C49", "title": "record initialisers bind arguments like a Python function", "statement": "An instance of record(names, defaults)(*args, **kw) has each attribute bound to its positional, else keyword, else default value, and TypeError is raised exactly for too many positionals, duplicates, missing or unexpected arguments.", "quantifier": "every record definition and every call", "why_tests_cant": "all calls", "anchors": ["epsilon/structlike.py::StructBehavior.__init__", "epsilon/structlike.py::record"]}
{"id": "C50", "title": "record definitions are accepted exactly when defaults are trailing", "statement": "record(names, **defaults) succeeds exactly when names are given or there is at least one default, every default names an attribute, and the attributes with defaults are the last ones, each named once; with no names given the attributes are the sorted default names.", "quantifier": "every list of names and set of defaults", "why_tests_cant": "all definitions", "anchors": ["epsilon/structlike.py::record"]}
{"id": "C51", "title": "repr of records terminates on cyclic data", "statement": "repr of a record terminates for every object graph; each record appears at most once on any nesting path (deeper occurrences print as Name(...)); acyclic data is printed in full; and the bookkeeping is restored afterwards.", "quantifier": "every finite object graph", "why_tests_cant": "all cyclic graphs", "anchors": ["epsilon/structlike.py::_RecursiveReprer", "epsilon/structlike.py::StructBehavior.__repr__"]}
{"id": "C52", "title": "Modal dispatch follows the current mode", "statement": "A modal method call runs the implementation of the instance's current mode and raises AttributeError when that mode has none; non-modal attributes are unaffected; instances start in initialMode.", "quantifier": "every modal class and every history of mode changes", "why_tests_cant": "all classes and histories", "anchors": ["epsilon/modal.py::ModalType", "epsilon/modal.py::ModalMethod"]}
{"id": "C53", "title": "Mode transitions run exit then enter", "statement": "transitionTo(s) runs the current mode's __exit__, then changes the mode, then runs the __enter__ of s, exactly once each; if either is missing AttributeError is raised.", "quantifier": "every sequence of transitions", "why_tests_cant": "all sequences", "anchors": ["epsilon/modal.py::Modal.transitionTo"]}
{"id": "C54", "title": "Only explicitly exposed, non-overridden methods are reachable", "statement": "If exposer.get(obj, key) returns a method then that very function was exposed with that exposer under that key and is what attribute lookup of its name on obj's class finds; otherwise MethodNotExposed.", "quantifier": "every class hierarchy, exposure history and key", "why_tests_cant": "security over all hierarchies", "anchors": ["epsilon/expose.py::Exposer.get", "epsilon/expose.py::Exposer.expose"]}
{"id": "C55", "title": "Exposed methods are reachable from subclasses that do not override them", "statement": "A function exposed under a key unique in the hierarchy and not overridden is returned by get for instances of the class and of all subclasses.", "quantifier": "every hierarchy", "why_tests_cant": "all hierarchies", "anchors": ["epsilon/expose.py::Exposer.get"]}
{"id": "C56", "title": "remembered attributes are computed once", "statement": "Repeated access to a remembered attribute calls the creation function once per instance and always returns the first value; distinct instances and distinct attributes do not interfere.", "quantifier": "every access history over instances and attributes", "why_tests_cant": "all histories", "anchors": ["epsilon/remember.py::remembered"]}
{"id": "C57", "title": "attribute descriptors behave like the three functions given", "statement": "Reading, writing and deleting an attribute-descriptor call the supplied get/set/delete with the instance, default to AttributeError, and requiredAttribute raises until set and then returns the last value set, per instance.", "quantifier": "every history of accesses", "why_tests_cant": "all histories", "anchors": ["epsilon/descriptor.py::attribute", "epsilon/descriptor.py::requiredAttribute"]}
{"id": "C58", "title": "A hotfix is installed at most once", "statement": "hotfix.require(p, f) runs at most one install per (p, f) in the life of the process, only when the problem is detected, and raises NoSuchHotfix exactly for unknown names.", "quantifier": "every sequence of require calls", "why_tests_cant": "all histories", "anchors": ["epsilon/hotfix.py::require"]}
{"id": "C59", "title": "PendingEvent fires every waiter exactly once", "statement": "Every Deferred handed out by PendingEvent.deferred() fires exactly once, with the first callback/errback after it was requested, in order of request; waiters added while firing wait for the next event.", "quantifier": "every history incl. re-entrant requests", "why_tests_cant": "re-entrancy and histories", "anchors": ["epsilon/pending.py::PendingEvent"]}
{"id": "C60", "title": "react stops the reactor exactly once", "statement": "react runs the reactor until main's Deferred fires; the reactor is stopped at most once by react and not at all if it is already stopping; failures of main are logged.", "quantifier": "every order of reactor start, Deferred firing and shutdown", "why_tests_cant": "event orders", "anchors": ["epsilon/react.py::react"]}
{"id": "C61", "title": "spawnProcess composes PYTHONPATH and does not touch the caller's environment", "statement": "The child environment equals the given one except PYTHONPATH, which consists of the (deduplicated) directories of the requested packages outside the system library followed by the original entries; the caller's mapping is unmodified.", "quantifier": "every environment and package list", "why_tests_cant": "all environments", "anchors": ["epsilon/process.py::spawnProcess"]}
{"id": "C62", "title": "The working device is the longest matching mount", "statement": "discoverCurrentWorkingDevice returns the device mounted at the longest mount point that is an ancestor of the current directory, or '<unknown>'.", "quantifier": "every mount table and directory", "why_tests_cant": "all tables", "anchors": ["epsilon/scripts/benchmark.py::discoverCurrentWorkingDevice"]}
{"id": "C63", "title": "A benchmark process reports its end exactly once", "statement": "In any event history of a BasicProcess the completion Deferred fires exactly once at processEnded, with success iff the exit was clean, TimeoutError iff it was killed by the timeout, ProcessDied otherwise, and success carries the output events in order.", "quantifier": "every event history", "why_tests_cant": "all histories", "anchors": ["epsilon/scripts/benchmark.py::BasicProcess"]}
{"id": "C64", "title": "Disk statistics lines parse to their columns", "statement": "parseDiskStatLine of a formatted /proc/diskstats line returns the device and exactly the counters in their order, for both the disk (11 counters) and the partition (4 counters) layouts.", "quantifier": "every device name and counter values", "why_tests_cant": "all numbers", "anchors": ["epsilon/scripts/benchmark.py::parseDiskStatLine"]}
{"id": "C65", "title": "autosetup finds exactly the packages of the tree", "statement": "autosetup lists exactly the directories, not below a dot-directory, that contain __init__.py or a plugins subdirectory, and package data lists exactly the non-module files of top-level packages.", "quantifier": "every directory tree", "why_tests_cant": "all trees", "anchors": ["epsilon/setuphelper.py::autosetup"]}
{"id": "C66", "title": "splode writes each line to the file announced before it", "statement": "splode creates one file per ###file: marker, in order, containing exactly the lines up to the next marker with project placeholders substituted.", "quantifier": "every template", "why_tests_cant": "all templates", "anchors": ["epsilon/asplode.py::splode"]}
{"id": "C67", "title": "asTwistedVersion reads up to three leading numbers", "statement": "For a version string whose leading part is a dotted sequence of at least three numbers, the version has exactly the first three, whatever suffix follows.", "quantifier": "every version string", "why_tests_cant": "all strings", "anchors": ["epsilon/__init__.py::asTwistedVersion"]}
{"id": "C68", "title": "SignalService restores signal handlers", "statement": "After startService then stopService every signal has the handler it had before, for any mapping; in between the mapped ones have the given handlers.", "quantifier": "every signal map and initial handler table", "why_tests_cant": "all maps", "anchors": ["epsilon/spewer.py::SignalService"]}
{"id": "C69", "title": "DelayedCall reports the time most recently requested", "statement": "After any sequence of delay and reset the call's getTime() is the time the last operation asked for, the owner is notified exactly when the scheduled heap time moves earlier, and cancelled or called calls refuse all operations.", "quantifier": "every sequence of operations at any clock readings", "why_tests_cant": "all histories", "anchors": ["epsilon/hotfixes/delayedcall_seconds.py::DelayedCall"]}
{"id": "C70", "title": "TimeoutMixin keeps at most one timer and fires it after exactly one quiet period", "statement": "At most one pending call exists; it fires exactly when the configured period has passed since the last setTimeout or resetTimeout, and never after setTimeout(None).", "quantifier": "every history of set/reset/advance", "why_tests_cant": "all timed histories", "anchors": ["epsilon/hotfixes/timeoutmixin_calllater.py::TimeoutMixin"]}
{"id": "C71", "title": "FilePath.child never escapes its directory", "statement": "child(name) returns the path itself or a direct child of it, and raises InsecurePath for every name containing a separator or leading elsewhere; preauthChild never leaves the directory.", "quantifier": "every absolute path and every name", "why_tests_cant": "security over all strings", "anchors": ["epsilon/hotfixes/filepath_copyTo.py::FilePath.child", "epsilon/hotfixes/filepath_copyTo.py::FilePath.preauthChild"]}
{"id": "C72", "title": "copyTo reproduces the tree", "statement": "copyTo of a file or directory tree to an absent destination creates a tree with the same structure and contents, for files of any size relative to the chunk size.", "quantifier": "every tree of files and directories", "why_tests_cant": "all trees and sizes", "anchors": ["epsilon/hotfixes/filepath_copyTo.py::FilePath.copyTo"]}
{"id": "C73", "title": "Clock.callLater returns the call it schedules and keeps calls in time order", "statement": "The DelayedCall returned by callLater is the one scheduled for now+when, and the pending list remains sorted and otherwise unchanged.", "quantifier": "every clock state and delay", "why_tests_cant": "all states", "anchors": ["epsilon/hotfixes/internet_task_clock.py::callLater"]}
{"id": "C74", "title": "deferredGenerator resumes with the awaited results and finishes once", "statement": "The Deferred of a deferredGenerator fires exactly once, whether the awaited Deferreds fire before or after being yielded, and each getResult returns (or raises) exactly the awaited result; a long run of already-fired Deferreds uses no recursion.", "quantifier": "every generator script and every firing order", "why_tests_cant": "all scripts and schedules", "anchors": ["epsilon/hotfixes/deferredgenerator_tfailure.py::_deferGenerator"]}
{"id": "C75", "title": "Plugin search paths exclude only real packages", "statement": "pluginPackagePaths(name) lists, in sys.path order, exactly the candidate directories of entries where the named package has no __init__.py.", "quantifier": "every sys.path, file system and dotted name", "why_tests_cant": "all file systems", "anchors": ["epsilon/hotfixes/plugin_package_paths.py::pluginPackagePaths"]}
{"id": "C76", "title": "The benchmark back channel times and acknowledges every marker", "statement": "However the bytes that the benchmarked child writes to its back channel are cut into chunks, each START and STOP byte is timed and acknowledged once, in order, and the first other byte makes the parent end the child.", "quantifier": "every byte stream and every way of cutting it into chunks", "why_tests_cant": "all streams and chunkings", "anchors": ["epsilon/scripts/benchmark.py::BenchmarkProcess.childDataReceived"]}
{"id": "C77", "title": "Tracer installs and removes its trace function and the Spewer's depth follows the calls", "statement": "Tracer.toggle (and with it SignalOnOff's two signals) installs the trace function for this and all new threads, and a second toggle removes it from both; the Spewer's indentation equals the number of traced calls in progress, and is back where it was when they have all ended.", "quantifier": "every sequence of toggles and every properly nested sequence of trace events", "why_tests_cant": "all event sequences", "anchors": ["epsilon/spewer.py::Tracer", "epsilon/spewer.py::Spewer"]}
{"id": "C78", "title": "FilePath.remove removes the tree and nothing else", "statement": "remove() of a file, special file or directory tree leaves nothing at or below the path, loses exactly that entry from its directory, and changes nothing else; removing what is not there raises and changes nothing.", "quantifier": "every file system without symbolic links and every path", "why_tests_cant": "all trees", "anchors": ["epsilon/hotfixes/filepath_copyTo.py::FilePath.remove"]}
{"id": "C79", "title": "FilePath.walk yields everything below a path once, parents first", "statement": "walk() yields the path itself first, then every path below it at which there is something, each exactly once and no path after one inside it.", "quantifier": "every file system without symbolic links and every path", "why_tests_cant": "all trees", "anchors": ["epsilon/hotfixes/filepath_copyTo.py::FilePath.walk"]}
{"id": "C80", "title": "setContent replaces the contents atomically and moveTo moves the tree", "statement": "setContent(x) leaves exactly x at the path, no sibling behind, and at every moment before the path holds its old contents; moveTo transfers the tree to the destination, within a device and between devices.", "quantifier": "every file system, contents and paths", "why_tests_cant": "all states and interruption points", "anchors": ["epsilon/hotfixes/filepath_copyTo.py::FilePath.setContent", "epsilon/hotfixes/filepath_copyTo.py::FilePath.moveTo"]}
{"id": "C81", "title": "FilePath's cached stat answers", "statement": "exists(), isdir() and isfile() tell what is at the path.", "quantifier": "every sequence of queries and of changes in between", "why_tests_cant": "all histories", "anchors": ["epsilon/hotfixes/filepath_copyTo.py::FilePath.exists", "epsilon/hotfixes/filepath_copyTo.py::FilePath.isdir", "epsilon/hotfixes/filepath_copyTo.py::FilePath.restat"]}
{"id": "C82", "title": "The remaining argument types decode what they encode", "statement": "For Time, Unicode, EncodedString, Path and Base64Binary arguments, what toString produces, sent in a box, is read back by fromString as an equal object (a Time up to its resolution).", "quantifier": "every value of the argument type", "why_tests_cant": "unbounded strings and all instants; the tests never send these types over the wire on Python 3", "anchors": ["epsilon/juice.py::Time", "epsilon/juice.py::Unicode", "epsilon/juice.py::EncodedString", "epsilon/juice.py::Path", "epsilon/juice.py::Base64Binary"]}
{"id": "C83", "title": "A protocol switch hands the connection over", "statement": "When two connected Juice peers switch protocols with a ProtocolSwitchCommand, each inner protocol receives exactly the bytes the other inner protocol writes, in order; no inner bytes are parsed as juice and no juice traffic reaches an inner protocol; every switch that is started ends with a switched peer or with one clientConnectionFailed; and a switch under way to a peer that agrees makes both peers switch.", "quantifier": "every interleaving of commands, switches, deliveries, late handler completions, inner writes and connection losses at both peers", "why_tests_cant": "the failures depend on which answers are still outstanding when the switch happens; the tests only perform one switch on a quiet connection", "anchors": ["epsilon/juice.py::ProtocolSwitchCommand", "epsilon/juice.py::_SwitchBox", "epsilon/juice.py::Juice._lock", "epsilon/juice.py::Juice._switchTo", "epsilon/juice.py::Juice.juiceBoxReceived", "epsilon/juice.py::Juice.sendPacket"]}
{"id": "C84", "title": "A line receiver delivers the lines of the stream, however it is cut", "statement": "Whatever the (non-empty) delimiter, the application and the way the stream is cut into dataReceived calls, LineReceiver gives lineReceived and rawDataReceived exactly what a reader that sees one byte at a time would deliver, including switches between line and raw mode and disconnection; for an application that stays in line mode the lines are the stream split at the delimiter.", "quantifier": "every delimiter, application state machine, byte stream and segmentation", "why_tests_cant": "delimiters cut by segment borders and mode switches in the middle of a segment give unboundedly many cases", "anchors": ["epsilon/liner.py::LineReceiver.dataReceived", "epsilon/liner.py::LineReceiver.setLineMode", "epsilon/liner.py::LineReceiver.setRawMode"]}
{"id": "C85", "title": "Benchmark reports give the change over the measured period", "statement": "A benchmark's two reports give, for the whole run and for the period between the child's last START and STOP, the differences of the clock, of the directory size and of the counters of the partition and of its disk; the error flag tells whether the run failed and the timeout flag whether it timed out.", "quantifier": "every order of START and STOP markers, every set of statistics and every way the process can end", "why_tests_cant": "the tests never run a benchmark; orders of markers and missing statistics are unbounded", "anchors": ["epsilon/scripts/benchmark.py::Change", "epsilon/scripts/benchmark.py::BenchmarkProcess", "epsilon/scripts/benchmark.py::formatResults", "epsilon/scripts/benchmark.py::_bench"]}
{"id": "C86", "title": "RFC 1123 dates name the second of the time", "statement": "asRFC1123 prints, in the fixed 29-character form 'Sun, 06 Nov 1994 08:49:37 GMT', the UTC second in which the Time lies, and fromRFC2822 reads that text back as that second.", "quantifier": "every representable Time (years 1 to 9999, any microsecond)", "why_tests_cant": "The text goes through a floating-point POSIX timestamp, so whether the right second is printed depends on rounding that differs with the magnitude of the timestamp; no test samples the last microseconds of seconds in distant years.", "anchors": ["epsilon/extime.py:732-740", "epsilon/extime.py:663-670", "epsilon/extime.py:53-81"]}
{"id": "C87", "title": "failUnlessWarns accepts exactly the expected warning and restores the warnings module", "statement": "failUnlessWarns(category, message, filename, f) returns f's result exactly if f gave at least one warning and every warning it gave has that category and message and comes from that file; otherwise it fails; and however f ends, warnings.warn_explicit is afterwards what it was before.", "quantifier": "every function f (any effect on the warnings state, any outcome, nested assertions), every sequence of warnings", "why_tests_cant": "The restoration must hold for every way f can end, and the acceptance condition over all sequences of warnings; a test uses one or two.", "anchors": ["epsilon/hotfixes/trial_assertwarns.py:8-57"]}
{"id": "C88", "title": "extractArgs shows exactly the arguments of the call", "statement": "For a frame of any function, extractArgs returns the function's parameters, each with its current value (or '*** undefined ***' if it has none), and no other local variable.", "quantifier": "every signature (any number of positional and keyword-only parameters, with or without *args and **kwargs), every state of the local variables", "why_tests_cant": "Depends on the layout of co_varnames for every combination of parameter kinds; tests trace a few functions.", "anchors": ["epsilon/spewer.py:55-65"]}
{"id": "C89", "title": "The plugin cache is regenerated for every importable plugin package", "statement": "After an install command, regeneratePluginCache puts the installed library first on sys.path and asks for the plugins of p.plugins for every plugin package p for which that module can be imported, in order, whatever happens to the others; pluginModules yields exactly the importable modules and can be closed at any time; without an install command nothing happens.", "quantifier": "every list of packages, every outcome of every import (module, ImportError, ValueError with any arguments, any other exception), every outcome of listing plugins", "why_tests_cant": "The existing tests import a handful of real modules; the interplay of every kind of failure at every position is a property of all lists.", "anchors": ["epsilon/setuphelper.py:8-34"]}
{"id": "C90", "title": "A FilePath with alwaysCreate touches only what it has itself created", "statement": "Opening a FilePath that has alwaysCreate (by requireCreate, or as the temporarySibling of a path) succeeds exactly if nothing is at the path and its directory exists; an empty file is then there and everything that was there before is unchanged. Of any number of attempts to create one path at most one succeeds. No method of such a FilePath changes a file that was there. temporarySibling names another path in the same directory.", "quantifier": "every tree of files, every path, every interleaving of creations, openings and writings by any number of users, every 16 random characters", "why_tests_cant": "Exclusiveness is about every interleaving with other users and every state of the file system; tests create one file in an empty directory.", "anchors": ["epsilon/hotfixes/filepath_copyTo.py:151-155", "epsilon/hotfixes/filepath_copyTo.py:243-248", "epsilon/hotfixes/filepath_copyTo.py:281-321", "epsilon/hotfixes/filepath_copyTo.py:335-367"]}
{"id": "C91", "title": "siblingExtensionSearch finds the first acceptable sibling", "statement": "FilePath.siblingExtensionSearch(*exts) returns the first path, in the order of the extensions, that is in the directory of the path and whose name is the path's name followed by the extension, where '*' stands for every name that begins with the path's name and a dot, and '' for the path itself; it returns None exactly if there is none. siblingExtension gives the path with the extension in the same directory.", "quantifier": "every path, every directory listing, every list of extensions", "why_tests_cant": "The order of preference must hold for every listing and every combination of extensions; tests look for one extension.", "anchors": ["epsilon/hotfixes/filepath_copyTo.py:123-149"]}
{"id": "C92", "title": "A benchmark is measured between the call and the return of start() and stop()", "statement": "However the benchmark script and the measuring parent are scheduled, the parent takes the snapshot for each start() or stop() after the script called it and before the call returns; the snapshots are taken in the order of the calls, none is lost or doubled; start() and stop() raise only if the parent has ended; and neither process waits for ever while the parent runs.", "quantifier": "every script (any sequence of start, stop and other work), every interleaving, every interrupted read, every moment at which the parent ends", "why_tests_cant": "The order of events in two processes over two pipes depends on the schedule; tests run one schedule.", "anchors": ["epsilon/scripts/benchmark.py:232-277", "epsilon/scripts/benchmark.py:532-561"]}
{"id": "C93", "title": "getSize counts every file below a path exactly once", "statement": "getSize(p) is the sum of the sizes of p and of everything below it, each counted once (a dangling symbolic link with the length of its text); if the size of any of these cannot be told an error is raised; FilePath.islink tells symbolic links.", "quantifier": "every tree of files, every path, every assignment of sizes and errors", "why_tests_cant": "Trees of any depth and width; tests measure one directory.", "anchors": ["epsilon/scripts/benchmark.py:437-460", "epsilon/hotfixes/filepath_copyTo.py:167-172", "epsilon/hotfixes/filepath_copyTo.py:222-229"]}
{"id": "C94", "title": "Requests and answers survive the byte stream", "statement": "Two juice peers exchange serialised boxes over two byte streams cut into arbitrary pieces, while both applications send commands and answer them at any moment, also from inside the handling of a box. Every handler gets exactly the box that was requested; every Deferred fires at most once, with the reply the handler of that very request produced or with the loss of the connection; a lost connection leaves no request waiting; unless someone locks the connection no exception arises anywhere; and once all bytes are received and no handler is running every request has been answered.", "quantifier": "every history of sends, answers, losses and received pieces of any size, every reaction of the applications, every box and text the wire format can carry", "why_tests_cant": "Tests deliver whole boxes over a loopback, one request at a time; the splits, interleavings and re-entrant reactions are unbounded.", "anchors": ["epsilon/juice.py:304-403", "epsilon/juice.py:798-818", "epsilon/juice.py:861-920", "epsilon/liner.py:36-63"]}
{"id": "C95", "title": "Commands are handled in the order they were sent", "statement": "The commands a juice peer handles are, in order and each once, calls of sendBoxCommand at the other end, with the caller's items, the command name and (if an answer is wanted) the tag; as long as neither end locks the connection and the sender has not lost it they are the first calls made, none skipped, and all of them once nothing is in flight. Over byte streams the same holds of the requests.", "quantifier": "every history of sends, answers, deliveries (or received pieces of any size), locks and losses, with reactions from inside handlers", "why_tests_cant": "Order and completeness over unbounded histories and segmentations.", "anchors": ["epsilon/juice.py:329-403", "epsilon/juice.py:798-818", "epsilon/juice.py:861-920"]}
{"id": "C96", "title": "Renegotiating peers agree on a version", "statement": "Whatever two connected Juice peers ask for and however their messages interleave: the protocolVersion of each is 0 or a version both have; a renegotiateVersion succeeds only with the version it asked for, which both have; the renegotiations of one peer finish in the order begun, each once, and all when nothing is in flight. When the peers take turns (none begins while one of the other is going on), or have only one version in common as VERSIONS=[1] gives, they use the same version whenever nothing is in flight. Without these conditions they need not.", "quantifier": "every pair of VERSIONS lists, every sequence of calls and deliveries at both ends", "why_tests_cant": "unboundedly many interleavings of calls and deliveries at two ends", "anchors": ["epsilon/juice.py::Juice.renegotiateVersion", "epsilon/juice.py::Juice.command_NEGOTIATE", "epsilon/juice.py::NegotiateBox.sendTo", "epsilon/juice.py::Juice._setProtocolVersion"]}
{"id": "C97", "title": "Every outermost repr has its own recursion guard, and nested ones share it", "statement": "repr of a record looks its recursion guard up in the execution context and makes one when there is none: it terminates on all data, prints what C51 prescribes for the records the guard in the context is printing (none, outside any repr), is not disturbed by objects whose own repr uses context.call with other keys, and leaves the context and every guard as they were, also when an attribute's repr raises; so a repr after a failed one gives what it would give alone.", "quantifier": "every heap of records, cyclic or not, every value with nested context.calls, every context", "why_tests_cant": "unboundedly many object graphs and contexts, including failures at any depth", "anchors": ["epsilon/structlike.py::_contextualize", "epsilon/structlike.py::_RecursiveReprer.recursiveRepr", "epsilon/structlike.py::StructBehavior.__repr__"]}
{"id": "C98", "title": "A juice remote call behaves as a local call", "statement": "Two juice peers share a connection and a set of sensibly declared commands, each serving all of them. Whatever calls are made in either direction, however they interleave and however the bytes are cut: if the Deferred of Command.do fires, other than because the connection was lost, then the responder for exactly that command at the other end was called with exactly the given arguments (None for optional ones left out, plus the extra ones), and the Deferred gives what that responder did - a dictionary of objects equal to the ones it returned, a failure of a declared class of which the raised exception is an instance, with its text, or UnhandledRemoteJuiceError. When nothing is in flight and no responder is running, every call has its result.", "quantifier": "all histories of two peers (any number of calls both ways, any interleaving, any cutting of the byte streams, connection losses), all protocols (sets of declared commands), all responders, all acceptable arguments and results, all exception hierarchies", "why_tests_cant": "The guarantee joins argument codecs, box serialisation, the incremental parser, request numbering, dispatch, error codes and the callbacks of Command.do; a test fixes one command, one interleaving and one cutting of the bytes, while the property quantifies over all of them together.", "anchors": ["epsilon/juice.py:655-680", "epsilon/juice.py:203-270", "epsilon/juice.py:300-403", "epsilon/juice.py:978-1000"]}
{"id": "C99", "title": "The asynchronous loopback delivers every chunk once, in order and never re-entrantly", "statement": "With the fixed _loopbackAsyncContinue installed, two protocols connected by loopbackAsync receive exactly what the other wrote, in order; no protocol code is ever called while protocol code is running (a write never leads back into dataReceived); the notification Deferred shared by the two queues is never fired twice; nothing is forgotten: whenever nothing runs and nothing is scheduled, everything written has been received or the connection has ended; and the connection ends only after a side asked for it and all it had written was received, each side being told once.", "quantifier": "all protocol behaviours (any writes and closes in any call, including calls made by the reactor at any time), all interleavings with the reactor", "why_tests_cant": "Whether a write re-enters dataReceived or a wake-up is lost depends on when each side writes relative to the pumping loop; the number of interleavings is unbounded and tests see only a few.", "anchors": ["epsilon/hotfixes/loopbackasync_reentrancy.py:9-21"]}
{"id": "C100", "title": "certcreate makes the certificate its command line describes, or none", "statement": "The command line of certcreate may give each option by its name or an unambiguous beginning of it, with its value after `=` or as the next argument, or by its letter, with its value attached or as the next argument, and several letters together; `--`, or the first argument that is no option, ends the options. A command line is understood exactly if it is written so. The certificate is then made for the country, state, city, organization, unit, host and address given last, or else the documented defaults, with the serial number given or 1, and written to the file given or server.pem; it is shown unless `quiet` is given. A command line that cannot be understood ends the program with a message, one that asks for the help or the version shows it, and neither makes or writes anything; a file is written only after the certificate is made.", "quantifier": "All argument lists, all ways to read numbers, sign, and write, failing or not.", "why_tests_cant": "Tests try a few command lines; that exactly the well-written ones are understood, whatever the mix of letters, abbreviations, values and repetitions, and that no failing one leaves a file, concerns all argument lists.", "anchors": ["epsilon/scripts/certcreate.py:9-26", "epsilon/scripts/certcreate.py:29-46", "epsilon/scripts/certcreate.py:50-63"]}
{"id": "C101", "title": "The router works whatever its receivers do when it calls them", "statement": "Receivers may bind, connect, unbind, send and receive from inside the calls the router makes to them. In every such execution a receiver is started only on a connected route of a router that has been started; a box goes exactly to the receiver bound to its route at that moment; once the router has been stopped no box is delivered again; startReceivingBoxes starts every connected route exactly once and stopReceivingBoxes tells every bound receiver exactly once, and both return unless a receiver raises.", "quantifier": "all receivers (any operations in any call, to any depth of nesting, any exceptions), all histories", "why_tests_cant": "The receivers' code runs in the middle of the router's loops over its own dictionary; the ways it can change that dictionary, and the depth of nesting, are unbounded.", "anchors": ["epsilon/amprouter.py:52-101", "epsilon/amprouter.py:134-202"]}
{"id": "C102", "title": "A line receiver delivers every byte once, whatever its subclass does", "statement": "A subclass of LineReceiver may, inside lineReceived and rawDataReceived, change the mode and the delimiter, pass data to setLineMode or dataReceived, lose the connection, and raise. In every such execution each byte passed to dataReceived is delivered exactly once and in order, in a line or as raw data, or is still waiting; lines end at the first delimiter and no complete line is left waiting; after loseConnection nothing more is delivered.", "quantifier": "all subclasses (any actions in any call, to any depth), all data and segmentations", "why_tests_cant": "The subclass runs in the middle of the loop over a local copy of the buffer; the ways it can call back, and the depth of the nesting, are unbounded.", "anchors": ["epsilon/liner.py:6-63"]}
{"id": "C103", "title": "The simulated network is a pair of reliable streams", "statement": "The network that iosim simulates for the protocol tests gives each side exactly the bytes the other side wrote, in order; when one side closes the connection both are told, once each and after all data, and get nothing afterwards; flush returns, at the latest after 1000 rounds, when everything has been delivered and everybody has been told.", "quantifier": "all protocols (anything done to the transports at any moment, any exceptions), all interleavings with pump and flush", "why_tests_cant": "The simulator is what the tests run on; a fault in it hides or invents faults of the protocols, and the protocols' behaviour inside its calls is unbounded.", "anchors": ["epsilon/test/iosim.py:12-92", "epsilon/test/utils.py:7-78"]}
{"id": "C104", "title": "Caseless strings work as keys of dictionaries and of sorts", "statement": "A dictionary whose keys are Caseless behaves as a case-insensitive map, keeping the spelling used first; a plain string finds what its Caseless finds; sorted(l, key=Caseless) is the stable rearrangement of l in alphabetical order up to case; a list contains a Caseless exactly if it contains a case variant.", "quantifier": "every sequence of dictionary operations, every hash function, every order of probing, every list", "why_tests_cant": "hash collisions, probe orders and histories cannot be enumerated", "anchors": ["epsilon/caseless.py::Caseless.__eq__", "epsilon/caseless.py::Caseless.__hash__", "epsilon/caseless.py::Caseless.__lt__", "epsilon/caseless.py::Caseless.__init__", "epsilon/caseless.py::Caseless.__cmp__"]}
{"id": "C105", "title": "Changing case never changes what a Caseless equals, and positions found are positions of the string", "statement": "lower(), upper(), title() and swapcase() of a Caseless give text equal to it up to case and in the case they name; indexing, slicing, iterating and len() refer to the same positions as find() and rfind(): the slice at the position found, as long as the substring, equals the substring up to case.", "quantifier": "every string, substring and search window", "why_tests_cant": "all strings and windows", "anchors": ["epsilon/caseless.py::Caseless.upper", "epsilon/caseless.py::Caseless.title", "epsilon/caseless.py::Caseless.swapcase", "epsilon/caseless.py::Caseless.__getitem__", "epsilon/caseless.py::Caseless.__len__", "epsilon/caseless.py::Caseless.__iter__"]}
{"id": "C106", "title": "makedirs and createDirectory make just the directories asked for, or nothing", "statement": "makedirs() succeeds exactly if nothing is at the path and everything that is on the way to it is a directory; then the path and all that was missing on the way are directories and nothing else has changed; otherwise it raises and nothing has changed. createDirectory() succeeds exactly if nothing is at the path and what is to hold it is a directory; then an empty directory is there and everything else is as before.", "quantifier": "every file system and path", "why_tests_cant": "all trees and paths", "anchors": ["epsilon/hotfixes/filepath_copyTo.py::FilePath.makedirs", "epsilon/hotfixes/filepath_copyTo.py::FilePath.createDirectory"]}
{"id": "C107", "title": "globChildren gives exactly the descendants that match the pattern", "statement": "children() of a directory gives exactly the paths one component below it at which there is something. globChildren(pattern) gives exactly the paths below this one at which there is something and whose components fit those of the pattern (* any text, ? any character, brackets the characters and ranges in them or after ! all others, hidden names only if the component of the pattern begins with a dot), each once. It raises, with re.error, only if a directory is searched for a pattern in which a range ends before it begins.", "quantifier": "every file system, every path, every pattern of any number of components", "why_tests_cant": "all trees and patterns", "anchors": ["epsilon/hotfixes/filepath_copyTo.py::FilePath.globChildren", "epsilon/hotfixes/filepath_copyTo.py::FilePath.children", "epsilon/hotfixes/filepath_copyTo.py::FilePath.listdir"]}
{"id": "C108", "title": "Running a benchmark ends, and cleans up after itself", "statement": "bench() stops the reactor exactly once, when the child has ended, whatever its outcome and whatever goes wrong in reporting it, and returns. main() runs the script named on the command line in a new temporary directory, with the channels of start() and stop() connected; afterwards, whatever the benchmark did and whether or not it raised, that directory is gone and everything else is as the benchmark left it; if the name of the directory is taken, nothing is run, changed or removed.", "quantifier": "every outcome of the child, every order of events, every file system, every effect of the benchmark on it", "why_tests_cant": "all outcomes and all effects on the file system", "anchors": ["epsilon/scripts/benchmark.py::main", "epsilon/scripts/benchmark.py::bench", "epsilon/scripts/benchmark.py::_bench", "epsilon/scripts/benchmark.py::makeBenchmarkRunner", "epsilon/scripts/benchmark.py::BasicProcess.spawn"]}
{"id": "C109", "title": "A juice peer fires every request exactly once, whatever the application does in its callbacks", "statement": "However the callbacks and errbacks of requests send, cancel or fail, to any depth: the Deferred of a request fires at most once; a reply fires only the Deferred of the request it replies to; from the moment the connection is lost no request is sent any more; and, if the application does not fire these Deferreds itself, once the connection is lost and all callbacks have returned every request ever sent has fired exactly once, the rest of connectionLost has run exactly once and no AlreadyCalledError was raised, a reply to a request that has not fired fires it at once, and a failure that the application leaves unhandled drops the connection. (False if the application calls callback or errback on such a Deferred: failAllOutgoing then stops there, and the requests after it never fire.)", "quantifier": "for all histories of an arbitrary application and an arbitrary remote side, with callbacks nested to any depth", "why_tests_cant": "Tests use one handler per request; the claim is about every interleaving of sending, cancelling and losing the connection inside callbacks inside callbacks.", "anchors": ["epsilon/juice.py:307-342", "epsilon/juice.py:382-403", "epsilon/juice.py:868-878"]}
{"id": "C110", "title": "Each kind of juice box does its part directly after it was written, and once", "statement": "Boxes of every class (plain, Quit, Negotiate, _Switch, TLS) are written once, in the order sent, unless they cannot be serialised; the connection is dropped, the protocol switched, the version set or TLS started because of a box only if the box is of that class, directly after it was written; sslstarted is called directly after TLS started; whatever is sent, TLS starts at most once, the connection is handed over at most once, the version is the one set last, and a locked peer never writes again. A box made of keyword arguments and a body has just these fields, bodies that are not text are refused, copies equal their originals, and factories make servers and clients. (False while the peer waits for TLS: a QuitBox then drops the connection unwritten; a second TLSBox or _SwitchBox and a NegotiateBox without version are written before they raise; TLSBox and _SwitchBox cannot be copied.)", "quantifier": "for all sequences of boxes sent, TLS starts and locks on a connection", "why_tests_cant": "Tests send single boxes on fresh connections; the claim is about every sequence of boxes of all classes.", "anchors": ["epsilon/juice.py:31-149", "epsilon/juice.py:747-859", "epsilon/juice.py:922-926", "epsilon/juice.py:996-1008"]}
{"id": "C111", "title": "The parts of a path, the order of FilePaths, and times and sizes through the cached stat", "statement": "Every FilePath is absolute. It is the root, which has an empty base name and is its own parent, or it is the child, by its base name, of its parent, and joining dirname and basename gives the path; going up k times drops the last k components and stays at the root. splitext gives two parts that make up the path, the second empty or a dot followed by neither dots nor slashes after a last component that is not only dots, and it finds that extension whenever there is one. __cmp__ is 0 just for equal paths, -1 just for a path before the other by code points, 1 just for one after, is transitive, and is NotImplemented for other objects; representations are equal just for equal paths. getsize, getmtime, getctime and getatime each answer with their field of the last look at the file, look only if nothing is known, and raise OSError just when nothing is known and nothing is there; answers that follow each other are of the same look. Pickling keeps path and alwaysCreate and forgets what is known.", "quantifier": "all paths given, in all absolute working directories; all numbers of steps up; all pairs and triples of FilePaths; all sequences of restats, getters and pickling with anything happening to the file in between", "why_tests_cant": "The cutting of paths into parts has corner cases (leading dots, dots in directories, double slashes at the front, the root) that are in infinitely many paths, and staleness depends on the interleaving of looks and changes, which are unbounded.", "anchors": ["epsilon/hotfixes/filepath_copyTo.py:76-86", "epsilon/hotfixes/filepath_copyTo.py:159-193", "epsilon/hotfixes/filepath_copyTo.py:231-241", "epsilon/hotfixes/filepath_copyTo.py:272-279", "epsilon/hotfixes/filepath_copyTo.py:291-294"]}
{"id": "C112", "title": "Installing a hotfix changes what it names, nothing else, and cures what require looks for", "statement": "After any sequence of installations of hotfixes, in any order and with repetitions, every attribute of every class, every name in Twisted's modules and every function's __module__ is what it was, except those that the installed fixes name, which have the value of the fix; a class whose dictionary is replaced has the attributes of the class of the hotfix and says it is of Twisted's module. An installation raises just when the classes are new-style where it needs old-style ones, with AttributeError or TypeError, and then changes nothing. After require has returned for a fix, what it looks for to decide is there and stays there whatever else is installed. Paths made by the fixed FilePath compare equal when their paths are.", "quantifier": "all states of Twisted's classes and modules after loading the hotfixes, all kinds of classes, all sequences of installations, all behaviours of the code that is not of the hotfixes", "why_tests_cant": "Which classes are old- or new-style, what they have and in what order fixes are installed depends on the version of Twisted and on the importing program; classes come to share a dictionary, so that effects show up elsewhere.", "anchors": ["epsilon/hotfixes/filepath_copyTo.py:398-404", "epsilon/hotfixes/timeoutmixin_calllater.py:54-60", "epsilon/hotfixes/delayedcall_seconds.py:155-160", "epsilon/hotfixes/deferredgenerator_tfailure.py:54-59", "epsilon/hotfixes/proto_helpers_stringtransport.py:3-11", "epsilon/hotfixes/internet_task_clock.py:21-38", "epsilon/hotfixes/trial_assertwarns.py:59-61", "epsilon/hotfixes/plugin_package_paths.py:40-42", "epsilon/hotfixes/loopbackasync_reentrancy.py:24-26", "epsilon/hotfix.py:15-82"]}
{"id": "C113", "title": "A server treats each of its connections as if it were alone, and a pad lets one of them in", "statement": "Whatever any number of clients of a CredAMPServerFactory do: each connection is in a state that it would reach with its own commands on a server of its own, its verdicts and replies are the same as there (unless others try its pads), and commands on one change no other; the checker for the kind of credentials is asked exactly when a login command reaches a connection that nobody has logged in on, about the pad given or the response to the latest challenge of that connection; a pad in the table is accepted exactly once over all connections, by the first attempt with it, and others never; the avatar gets the connection exactly when checker and realm agree; the client is told UNAUTHORIZED_LOGIN, NOT_IMPLEMENTED_ERROR, success, or is dropped, exactly as the exception says; and each login is logged out once, when its own connection is lost. A pad is used up only by getting in with it, and every refusal is one that the client can handle.", "quantifier": "every table of pads and passwords, realm, hash function, number of connections and interleaving of their commands, answers of the realm and losses", "why_tests_cant": "test_ampauth drives one connection at a time with a fixed portal; the pads are shared by all connections, and interleavings of several of them, with logins pending in the realm, are never tried", "anchors": ["epsilon/ampauth.py:31-37", "epsilon/ampauth.py:150-228", "epsilon/ampauth.py:231-247", "epsilon/ampauth.py:251-270"]}
{"id": "C114", "title": "Routes set up the documented way are connected in pairs", "statement": "With the handshake of doc/listings/amp/route_setup.py (connect / newRoute) between two routers, whatever the number of connects and the order in which boxes arrive: every connected route of the client was asked for with connect and is paired with exactly one route of the server, each naming the other; every connected route of the server was made for exactly one asked-for route of the client; what is sent through a route reaches the receiver of its partner and nobody else, all of it, once, in order; each receiver is started exactly once, when its route is connected, and is given nothing before that; the only exception is RouteNotConnected for a route not yet connected; delivering what is on its way connects every route asked for; when the connection is lost every receiver is told once.", "quantifier": "for all sequences of connects, binds at either end, sends at either end, and deliveries in either direction, with any boxes sent by receivers from startReceivingBoxes", "why_tests_cant": "The listings have no tests at all; the router's own tests use one router and a fake sender. The interleavings of several handshakes with traffic at both ends are unbounded, and the early-box and connection-loss orders need particular timings.", "anchors": ["doc/listings/amp/route_setup.py", "doc/listings/amp/route_client.py", "epsilon/amprouter.py"]}
{"id": "C115", "title": "The benchmark result file holds exactly the reports", "statement": "After any sequence of benchmarks in one directory, parsing the file output gives one box for every report made for a benchmark whose name can be encoded, in the order in which the reports were made; each box has exactly the seventeen items of its report (without the counters where there were no statistics) and the command Result, with the differences of times, sizes and counters as texts. Names may contain line breaks. A benchmark whose name cannot be encoded leaves the file as it was.", "quantifier": "every sequence of benchmarks, names, measurements and outcomes, and every surroundings whose texts can be encoded", "why_tests_cant": "tests parse single reports named frunk; never a file of several, and never names with line breaks or lone surrogates", "anchors": ["epsilon/scripts/benchmark.py:286-413", "epsilon/scripts/benchmark.py:468-501", "epsilon/juice.py:382-403", "epsilon/juice.py:627-680", "epsilon/juice.py:947-976"]}
{"id": "C116", "title": "Times are shown and ordered by their instants", "statement": "Evaluating repr(t) gives a Time equal to t, with the finest resolution; representations are equal just for equal Times; __cmp__ (Python 2) is -1, 0 or 1 just when the instant is earlier, equal or later, so it agrees with ==, and refuses other objects; Time() is the instant of the clock and the phrase now gives its argument's instant, both with the finest resolution.", "quantifier": "every Time and every pair of Times, whatever their resolutions", "why_tests_cant": "all instants; the form of the representation depends on which of the last fields are zero", "anchors": ["epsilon/extime.py::Time.__repr__", "epsilon/extime.py::Time.__cmp__", "epsilon/extime.py::Time.__init__", "epsilon/extime.py::Time._fromNow"]}
{"id": "C117", "title": "The text of a delayed call tells its state", "statement": "After any history of operations, str() of a DelayedCall without debug is '<DelayedCall ID [Ns] called=C cancelled=D', the call written out (function or Class.method, then positional and keyword arguments, comma separated) exactly while it has not been cancelled, and '>'; C and D tell whether the call was made and successfully cancelled, and N is the time until the call is due. With debug the traceback of the creation is there too, and once the call is cancelled the text is for ever the one at the moment of cancelling, with the function still in it.", "quantifier": "for all functions, arguments, clocks, histories of cancel/reset/delay/activation/making at any times, and moments of asking", "why_tests_cant": "The text depends on an unbounded history of operations and on which attributes cancel deletes; tests show one history.", "anchors": ["epsilon/hotfixes/delayedcall_seconds.py:119-152", "epsilon/hotfixes/delayedcall_seconds.py:38-55", "epsilon/hotfixes/delayedcall_seconds.py:19-27"]}
{"id": "C118", "title": "Trees with symbolic links are removed, walked and copied safely", "statement": "With symbolic links in the tree, FilePath.remove() removes the links and leaves what they lead to alone, walk() ends and yields everything once, and copyTo() copies the tree that one sees when the links are followed.", "quantifier": "for all file systems, symbolic links (also dangling and circular ones), limits on the number of links followed, and sources and destinations", "why_tests_cant": "What a link leads to may be anywhere, and links may lead through each other; which of the system calls follows a link matters in every combination.", "anchors": ["epsilon/hotfixes/filepath_copyTo.py:250-257", "epsilon/hotfixes/filepath_copyTo.py:326-331", "epsilon/hotfixes/filepath_copyTo.py:335-367"]}
{"id": "C119", "title": "Times in zones with daylight saving time", "statement": "For a tzinfo with daylight saving time, a Time finer than a day shown in that zone (asDatetime) has the fields the clocks of the place show at that instant; fromDatetime, fromStructTime and the parsers of the RFC 2822 and ISO 8601 texts give back the instant the fields, struct_time or text were made from; and fromHumanly of a clock time gives the next instant, not before the minute of now, at which the clocks show it.", "quantifier": "every instant, resolution finer than a day, winter offset, saving, and division of the time line into summer and winter", "why_tests_cant": "the interesting instants are two hours a year of each zone, and zones and rules are unbounded", "anchors": ["epsilon/extime.py::Time.asDatetime", "epsilon/extime.py::Time.fromDatetime", "epsilon/extime.py::Time.asStructTime", "epsilon/extime.py::Time.fromStructTime", "epsilon/extime.py::Time.asRFC2822", "epsilon/extime.py::Time.asISO8601TimeAndDate", "epsilon/extime.py::Time._fromTime", "epsilon/extime.py::Time._fromNoonOrMidnight"]}
{"id": "C120", "title": "getBounds in zones with daylight saving time", "statement": "For a Time of a day or more, t.getBounds(tz) encloses every instant at which the clocks of the zone show a reading within the period of t, also in zones with daylight saving time (Python 2; on Python 3 getBounds raises, see C13).", "quantifier": "every period of a day or more, winter offset, saving, and division of the time line into summer and winter", "why_tests_cant": "it depends on where summer begins and ends relative to midnight, for all zones and dates", "anchors": ["epsilon/extime.py::Time.getBounds", "epsilon/extime.py::Time.fromDatetime"]}
{"id": "C121", "title": "fromHumanly reads back what asHumanly shows", "statement": "For a Time finer than a day that lies on the local day of now and not before the minute of now, fromHumanly(t.asHumanly(tz, now), tz, now) is the minute of t (a Time with the resolution of one minute); for an earlier Time of that day it is the same a day later; texts shown for other days, for whole days or with seconds are refused with ValueError. In zones with daylight saving time two Times have the same text exactly if the clocks show the same minute (second) at both.", "quantifier": "every Time, now, FixedOffset zone or zone with daylight saving time, and every set of decimal digits", "why_tests_cant": "it relates two functions over all pairs of times and all zones; a test tries a few hours of the day", "anchors": ["epsilon/extime.py::Time.asHumanly", "epsilon/extime.py::Time.fromHumanly", "epsilon/extime.py::Time._fromTime"]}
{"id": "C122", "title": "Creating, writing and moving files with symbolic links around", "statement": "create (and open of a FilePath that is to be created, as temporarySibling gives it) never writes to anything that exists: it makes an empty file exactly where the path names one, changes no other entry, and fails without a change if anything, also a dangling link, is there. moveTo moves the entry that the path names, a link itself and not what it leads to. setContent replaces the entry the path names by a file with the contents and changes nothing else, also not the file a link at the path leads to.", "quantifier": "every tree, every table of links (circles and dangling links included), every path, extension and contents", "why_tests_cant": "the entries of all places after the call are compared with those before it, for all tangles of links; a test has a few files", "anchors": ["epsilon/hotfixes/filepath_copyTo.py::FilePath.create", "epsilon/hotfixes/filepath_copyTo.py::FilePath.open", "epsilon/hotfixes/filepath_copyTo.py::FilePath.setContent", "epsilon/hotfixes/filepath_copyTo.py::FilePath.moveTo", "epsilon/hotfixes/filepath_copyTo.py::FilePath.temporarySibling"]}
{"id": "C123", "title": "Caseless beyond ASCII", "statement": "For text of any characters and any Unicode database: lower() is the lower case of the standard (a character may become several; a capital sigma becomes a final sigma exactly at the end of a word); ==, != and the hash tell whether two texts are the same in lower case, equality is an equivalence, the other comparisons are the order by code points of the lower-case texts, and no operation distinguishes texts that are the same in lower case. find, rfind, index, rindex, count, in, startswith and endswith find exactly the pieces of the text, in the window given, that are the substring up to case, and give their positions in the text.", "quantifier": "every Unicode database (tables of lower cases, cased and case-ignorable characters), every text and substring, every window (start and stop negative, beyond the end or left out), every tuple of affixes", "why_tests_cant": "the rule for the capital sigma looks arbitrarily far in both directions; positions depend on the lengths of all lower cases before them; a test tries a few strings, mostly ASCII", "anchors": ["epsilon/caseless.py::Caseless"]}
{"id": "C124", "title": "Tracing a program tells its calls and does not disturb it", "statement": "A Tracer is told of every call of the program it traces, and of the lines, exceptions and returns of exactly the frames whose calls it did not skip, in their order; unless one of its methods raises, the program runs as it would. A Spewer prints the tree of the calls: each call with its class, name and arguments, indented by the number of calls it is in, and its result after the calls made in it, unless it is None; so the calls can be read back from what is printed.", "quantifier": "every tracer (any methods and state), every program as a tree of calls with lines, exceptions and results, every depth at the start", "why_tests_cant": "nesting is unbounded, exceptions may leave any number of frames, and every combination of skipped frames gives another sequence of events", "anchors": ["epsilon/spewer.py::Tracer", "epsilon/spewer.py::Spewer", "epsilon/spewer.py::formatArgs"]}
{"id": "C125", "title": "Floats survive the box", "statement": "A number given for a Float argument arrives, after str and float, as the same number; so do the elements of a list given for ListOf(Float()).", "quantifier": "every IEEE 754 double (all signs, exponents and fractions, the infinities, nan), every list of them, every integer", "why_tests_cant": "there are 2**64 doubles, and whether the shortest decimal text reads back as the same one depends on all of its digits", "anchors": ["epsilon/juice.py::Float", "epsilon/juice.py::ListOf", "epsilon/juice.py::Argument.toBox", "epsilon/juice.py::Argument.fromBox"]}
{"id": "C126", "title": "Times in zones that tell repeated readings apart by fold", "statement": "For a tzinfo following PEP 495 (such as those of zoneinfo), a Time finer than a day shown in that zone has the fields the clocks show, with fold set exactly when they have shown them before, and fromDatetime gives back the same instant, always; fromDatetime takes other readings for the first or second instant showing them as fold says, and a skipped reading by the clocks before or after the skip; the texts of RFC 2822 and ISO 8601 with offset and the struct_time are read back as the same instant; and fromHumanly of a clock time gives the next instant at which the clocks show it.", "quantifier": "every instant, resolution finer than a day, and place whose clocks show no reading more than twice, with arbitrary changes of offset", "why_tests_cant": "the interesting instants are two hours a year of each zone, and zones and rules are unbounded", "anchors": ["epsilon/extime.py::Time.asDatetime", "epsilon/extime.py::Time.fromDatetime", "epsilon/extime.py::Time.asStructTime", "epsilon/extime.py::Time.fromStructTime", "epsilon/extime.py::Time.asRFC2822", "epsilon/extime.py::Time.asISO8601TimeAndDate", "epsilon/extime.py::Time.fromISO8601TimeAndDate", "epsilon/extime.py::Time._fromTime", "epsilon/extime.py::Time._fromNoonOrMidnight"]}
{"id": "C127", "title": "What repr writes, unrepr and a call of the class read back", "statement": "For plain data v (None, booleans, integers, finite floats, strings, bytes, and tuples, lists and dictionaries of plain data, with dictionary keys that are hashable and pairwise unequal), unrepr(repr(v)) is v, part by part and with dictionaries in their order, exactly if no more than 200 brackets are open at once; beyond that it is an error, as it is for inf and nan. Hence two different values never have the same repr. repr(Caseless(s)) is a call of the class with exactly the wrapped string, in its own case. repr of a TLSBox, QuitBox, _SwitchBox or NegotiateBox is the kind of box and ** of a dictionary display with exactly the keys and values of the box, so different boxes look different. repr of a record is a call of its class with all attributes as keywords in order, and passing these to the initialiser of the class makes a record with the same attributes.", "quantifier": "All plain values of any size and nesting, all characters (whichever are printable), all doubles, all class names and attribute names, all record classes with any defaults.", "why_tests_cant": "The test reads back one value. Quoting depends on every character and on which quotes occur together; floats need the shortest numeral that reads back for each of 2^64 doubles; nesting is unbounded.", "anchors": ["epsilon/unrepr.py:1", "epsilon/caseless.py:46-47", "epsilon/juice.py:98-99", "epsilon/juice.py:118-119", "epsilon/juice.py:127-128", "epsilon/juice.py:142-143", "epsilon/structlike.py:98-114"]}
{"id": "C128", "title": "File operations fail only with errors of the operating system", "statement": "Whatever the file system looks like, with or without symbolic links, every exception that leaves createDirectory, makedirs, create, getContent, setContent, listdir, children, remove, and the getters of the stat fields of a FilePath is an OSError or IOError. For the others the remaining kinds are exactly these: open and touch raise AssertionError when appending with alwaysCreate, and then always; copyTo may raise NotImplementedError, and does so if the source is neither a file nor a directory; moveTo to another file system always raises AttributeError (and changes nothing).", "quantifier": "All file systems (trees of any size and depth, with any symbolic links), paths, contents, modes, chunk sizes and nesting bounds.", "why_tests_cant": "Tests provoke single failures; that no other kind of exception can come from any combination of missing parents, files in place of directories, special files, dangling or circular links needs a case analysis along the recursion over whole trees.", "anchors": ["epsilon/hotfixes/filepath_copyTo.py:151-155", "epsilon/hotfixes/filepath_copyTo.py:234-260", "epsilon/hotfixes/filepath_copyTo.py:281-324", "epsilon/hotfixes/filepath_copyTo.py:335-392"]}
{"id": "C129", "title": "Names of temporary files are safe and lose no randomness", "statement": "Whatever the random bytes are, the string made for the name of a temporary sibling has 16 characters, all of them letters, digits, '-' or '_' (hexadecimal digits with the fallback for old Pythons); two such strings are equal exactly if the first 12 bytes (8 with the fallback) of the SHA-1 digests of the random bytes are, and every string of 16 such characters comes from some digest. So the temporary sibling of every path but the root is a path of the same directory that ends in its name, and two siblings of one path are the same path only if the digests begin alike.", "quantifier": "all random byte strings, all digests, all paths", "why_tests_cant": "tests draw a few random strings; that no draw gives a slash or a short name, and that no two digests that differ in 96 bits share a name, is about all 2^160 digests", "anchors": ["epsilon/hotfixes/filepath_copyTo.py::_secureEnoughString", "epsilon/hotfixes/filepath_copyTo.py::armor", "epsilon/hotfixes/filepath_copyTo.py::randomBytes", "epsilon/hotfixes/filepath_copyTo.py::FilePath.temporarySibling"]}
{"id": "C130", "title": "Services say whether they are running", "statement": "A service is running from startService until stopService. A SchedulingService asks of its cooperator exactly what is asked of it, in order; iterateInReactor uses the global cooperator whatever the delay. (False: neither SchedulingService nor StandardIOService ever sets running, because startService does not call the method it overrides; a StandardIOService connects its protocol again at every start, and stopping disconnects nothing.)", "quantifier": "all sequences of startService, stopService and addIterator", "why_tests_cant": "tests start a service once; the claim is about every history", "anchors": ["epsilon/cooperator.py::SchedulingService", "epsilon/cooperator.py::iterateInReactor", "epsilon/process.py::StandardIOService.startService"]}
{"id": "C131", "title": "Modes inherit from mode", "statement": "A mode has the methods its class has, own or inherited; in particular a mode whose class defines no __enter__ or __exit__ has those of `mode`, which do nothing, and can be entered and left. (False: only what a mode class defines itself counts; inherited names raise AttributeError; a mode without its own __exit__ can never be left, and a transition into one without its own __enter__ raises after the mode has changed.)", "quantifier": "all modal classes, mode classes with any base classes, all instances and sequences of transitions", "why_tests_cant": "the tests' modes define both methods themselves", "anchors": ["epsilon/modal.py::mode.__enter__", "epsilon/modal.py::mode.__exit__", "epsilon/modal.py::ModalType.__new__", "epsilon/modal.py::Modal.transitionTo"]}
{"id": "C132", "title": "Caseless text and caseless bytes", "statement": "On Python 3 a Caseless of text and one of bytes are never equal, and ordering them or searching one in the other raises TypeError; a tuple of affixes raises TypeError exactly if one of the wrong kind comes before any that fits; among their own kind both behave as before. str() of a Caseless is its text and its items are in it. (The last sentence is false of bytes: str() gives their repr, items are integers and asking for them raises AttributeError; __unicode__ raises NameError.)", "quantifier": "all text and bytes, any Unicode database, all tuples of affixes", "why_tests_cant": "tests use one pair of strings per method; mixed types are not tested at all", "anchors": ["epsilon/caseless.py::Caseless"]}
{"id": "C133", "title": "Failures of a route go to the router's sender", "statement": "A failure given to unhandledError of a route is given, unchanged, to the sender of its router, whatever the history, also after the router was stopped; likewise a connected route goes on sending. (False before the router was started: AttributeError.)", "quantifier": "all histories of operations on a router", "why_tests_cant": "a test tries one history", "anchors": ["epsilon/amprouter.py::Route.unhandledError", "epsilon/amprouter.py::Route.sendBox"]}
{"id": "C134", "title": "The text given to record names its attributes", "statement": "record(text, **defaults) makes a class whose attributes are the words of the text, in order, whatever white space (of Unicode) stands around and between them; it is called Record<...> after them, and the text between these brackets makes the same class again. The class can then be called with its attributes by position and by keyword. A text without words makes a record without attributes. A class that names an attribute twice cannot be called. Words that Python does not allow in the name of a class are refused with ValueError or UnicodeEncodeError, defaults that do not fit with TypeError.", "quantifier": "every text, every set of defaults, every call", "why_tests_cant": "all texts and layouts of white space; the tests of the project use ASCII words with single spaces", "anchors": ["epsilon/structlike.py::record", "epsilon/structlike.py::StructBehavior.__init__"]}
{"id": "C135", "title": "A delayed call with floating-point times is due when asked, up to rounding", "statement": "With double-precision times, after any sequence of delay, reset, cancel and activations getTime() differs from the time asked for (computed exactly) by no more than the roundings of the operations made: less than a microsecond per operation for seconds since 1970 until 2106. A reset is exact. The time by which the owner has sorted the call is never after getTime(), and the owner is told exactly when this time becomes earlier. Cancelled and made calls refuse all operations.", "quantifier": "every history, every finite double", "why_tests_cant": "rounding errors depend on all values and add up over histories; tests use small whole numbers", "anchors": ["epsilon/hotfixes/delayedcall_seconds.py::DelayedCall"]}
{"id": "C136", "title": "Base64Binary carries every byte string (Python 2)", "statement": "On Python 2, Base64Binary writes every byte string as letters of the base64 alphabet and '=', four for each three bytes or part of them, without line breaks, and reads it back as the same byte string, alone, over the wire and in ListOf with a delimiter that has some other character. Reading ignores all other characters; a text without '=' is refused with binascii.Error exactly if the number of its letters is not a multiple of four. The first '=' ends the text after three letters of a group of four, or after two if another '=' comes next; anywhere else it is ignored.", "quantifier": "every byte string of any length, every text", "why_tests_cant": "all lengths (lines of 57 bytes, padding) and all texts", "anchors": ["epsilon/juice.py::Base64Binary"]}
{"id": "C137", "title": "A login with the right password gets in, also when logins overlap on a connection", "statement": "However the commands of any number of login() calls on one connection arrive: the verdict on an answer is whether the hash of the latest challenge on the connection, the nonce and the password of whoever asked last equals what the attempt made of its own challenge and password; the one that asked last gets in with the right password; at most one gets in, and later commands are the avatar's. Every response is 20 bytes, and no other length is accepted. An attempt with the right password gets in even if another asked after it.", "quantifier": "all orders of commands of all numbers of attempts, all users, passwords, challenges and nonces; SHA-1 itself for the lengths, any hash otherwise", "why_tests_cant": "the tests make one login per connection; the orders in which commands of several can arrive are unbounded", "anchors": ["epsilon/ampauth.py:62-136", "epsilon/ampauth.py:150-228", "epsilon/ampauth.py:274-300"]}
{"id": "C138", "title": "A delayed call whose owner reacts to being told", "statement": "Whatever the owner of a delayed call does to it when told of a cancellation or a reset, in any nesting, raising or not: the call has its function exactly until it is cancelled; cancelled stays cancelled and made stays made, and then cancel, reset and delay refuse; the owner is told first when a waiting call is cancelled, and afterwards the call is cancelled unless the owner raised; the owner is told whenever the scheduled time changes, and finds the new time in the call; with an owner that only listens everything is as in C69. An operation that raises leaves the call as it was, and no call is both made and cancelled.", "quantifier": "all scripts of operations, nested in any way in what the owner does when told, with exceptions raised anywhere and caught or not", "why_tests_cant": "the tests use owners that do nothing; what owners can do is unbounded", "anchors": ["epsilon/hotfixes/delayedcall_seconds.py:19-105"]}
{"id": "C139", "title": "Juice commands in transactions", "statement": "With a wrapper that runs every function in a transaction of a store (_Transactor): what comes back to the peer is the same as without it; a command that is not run (unknown, in the wrong namespace, with arguments that cannot be read) leaves the store as it was; an old-style method leaves its changes if it returns and none if it raises; without a wrapper the store is as the one call into the application left it. A command that fails leaves the store as it was.", "quantifier": "all applications, stores, commands, boxes and namespaces", "why_tests_cant": "no test uses a wrapper; stores and responders are arbitrary", "anchors": ["epsilon/juice.py:186-195", "epsilon/juice.py:203-270"]}
{"id": "C140", "title": "A Clock with the hotfix makes the calls that are due", "statement": "However calls are scheduled, cancelled, reset, delayed and made on a Clock whose callLater is the hotfix's (also by the functions it calls), it makes a call only when it is pending and due, at most once, and never after it was cancelled; operations on cancelled and made calls raise. Of the calls that are due the earliest is made first, those due at the same time in the order they were scheduled, and after advance() no pending call is due.", "quantifier": "every history of callLater, cancel, reset, delay, advance and turns of its loop (Python 2)", "why_tests_cant": "the order depends on the whole history: a reset does not sort the list again, the next callLater does", "anchors": ["epsilon/hotfixes/internet_task_clock.py:7-19", "epsilon/hotfixes/delayedcall_seconds.py:19-105"]}
{"id": "C141", "title": "copyTo over what is already there", "statement": "copyTo removes nothing and turns nothing into something of another sort, whatever is at the destination, also when it raises; every entry it changes or makes is one that the destination, followed by a path of the source, leads to. When it returns, the destination is what it was with the source laid over it: every file of the source with its contents, every directory of the source, and what the source has not as it was. It returns whenever source and destination fit, and it changes nothing outside the destination.", "quantifier": "all trees with symbolic links, all sources and destinations, existing or not", "why_tests_cant": "the code's own comment says the behaviour of existing destination links needs to be explained; trees and links are unbounded", "anchors": ["epsilon/hotfixes/filepath_copyTo.py:335-367"]}
{"id": "C142", "title": "The documented counters count for each client by itself", "statement": "In the documented counting example (a Counter on every route the server makes, a CountClient on every route the client connects), over one connection and whatever the interleaving: a CountClient exists on exactly the connected routes of the client; what it has been shown are the results of its first calls, in the order it made them, and they are 1, 2, 3, ... however many other clients count at the same time; its other calls are waiting; no protocol is ever given a box that it does not understand. When nothing is on its way, all calls of every client are answered and the counter made for it stands at their number. If after any history only deliveries happen and neither direction is left for good, this state is reached.", "quantifier": "every sequence of connects, bindings of unconnected routes, further calls and deliveries in both directions, every number of calls that each client makes when it is started, every client, every fair sequence of deliveries", "why_tests_cant": "The number of interleavings of the routes' boxes and of the calls is unbounded; a run of the listings shows one of them, with one client count and random numbers of calls.", "anchors": ["doc/listings/amp/route_server.py:16-31", "doc/listings/amp/route_client.py:15-44", "doc/listings/amp/route_setup.py:16-48", "epsilon/amprouter.py:85-189"]}
{"id": "C143", "title": "Only those who have logged in add, as those they have logged in as", "statement": "In the documented servers (auth_server.py, amp_auth_server.py), with any portal and any number of connections: the command Add on a connection nobody has logged in on is answered as unhandled and changes nothing; on a connection with a login it is answered with the sum of its arguments, and done for an avatar id for which credentials had been accepted before on that very connection (with passwords: PasswordLogin for that user, then a response that is the hash of the challenge given, a nonce, and that user's password); Add changes nothing of the server. With a realm that answers at once, everything added on one connection is added for the same avatar. The documented clients get their sums: after the login with the right password, or with a pad that is in the table and was never tried (also when Add is sent without waiting), whatever happens on other connections in between.", "quantifier": "every portal (any hash, any tables of users and pads, any realm), every sequence of operations on every connection, every pair of integers", "why_tests_cant": "The claim is about all interleavings of commands on all connections and about everything a client that has not logged in may send.", "anchors": ["doc/listings/amp/auth_server.py:20-73", "doc/listings/amp/amp_auth_server.py:19-70", "doc/listings/amp/auth_client.py:19-33", "doc/listings/amp/amp_auth_client.py:19-38", "epsilon/ampauth.py:150-300"]}
{"id": "C144", "title": "deferredGenerators that wait for one another are each run by one loop", "statement": "Any number of deferredGenerators, which may never end, start one another, wait for the same Deferreds or for one another's, and fire Deferreds while they run. No generator is called while it is running or after it has ended; its Deferred fires exactly when it ends, once, with the last value it yielded since it last waited, or with what it raised; a generator that waits is called only when the Deferred has fired, and is never forgotten: when nothing is running, no one waits for a Deferred that has fired. The first that ever waited for a Deferred gets its result, all others get None. A generator that yields a Deferred itself is never called again and its own Deferred never fires. However many Deferreds are waited for, the depth of the stack is bounded by the number of generators.", "quantifier": "all generators of any behaviour (also ones that never end), all interleavings of their actions with the firing of Deferreds", "why_tests_cant": "re-entrant firing and waiting orders are unbounded", "anchors": ["epsilon/hotfixes/deferredgenerator_tfailure.py::_deferGenerator"]}
{"id": "C145", "title": "getSize of a tree with symbolic links counts everything once", "statement": "With symbolic links in the tree, also ones that lead to directories, nowhere or in circles, getSize(p) ends and is the sum of the sizes of everything to which the paths below p lead (of its text, for a link that leads to a missing entry), each counted once; if the size of any of these cannot be told, OSError is raised.", "quantifier": "for all file systems, symbolic links, limits on the number of links followed, sizes and link texts", "why_tests_cant": "all trees and link structures, circular ones included", "anchors": ["epsilon/scripts/benchmark.py::getSize", "epsilon/scripts/benchmark.py::getOneSize", "epsilon/hotfixes/filepath_copyTo.py::FilePath.walk"]}
