# Formal model of fail2ban in Lean 4 — design

Everything is read from the text of `/repo` (fail2ban at the pinned commit). Nothing of it is executed.

## Layout

* `lean/Verif/Py/*.lean` – the few Python data types needed (insertion-ordered `dict`, integer rounding, ...).
* `lean/Verif/Model/*.lean` – the model: total, computable functions, one per modelled function/method, each with a
  comment citing file and lines. Objects are records, mutation is a returned value, exceptions are values,
  external effects (commands, DNS, clock, file system, SQL engine, random) are parameters or recorded traces.
* `lean/Verif/Spec/*.lean` – small independent specifications (what the English sentence means), not using the
  helpers of the model.
* `lean/Verif/Lemmas/*.lean` – auxiliary lemmas.
* `lean/Verif/Props/*.lean` – the property theorems (`Cnn_...`), each followed by an `example` showing a concrete case
  that meets its hypotheses.

## Trusted base

* The Lean 4 kernel; axioms at most `propext`, `Classical.choice`, `Quot.sound` (no own axioms, no `sorry`,
  no `native_decide`/`bv_decide`).
* That the model definitions render the cited lines. Global simplifications:
  * Times and ban times are mathematical integers (`Int`). The code accepts floats, too; the arithmetic used
    (`+`, `-`, comparison) is exact for integers below 2^53.  The only division (the rate estimate in
    `FailTicket.adjustTime`) is modelled as exact rational round-half-to-even, i.e. without the error of IEEE
    doubles.
  * Each method that runs under a lock is one atomic step. Python's GIL makes single `dict`/`deque` operations atomic.
  * Logging is not modelled.

## Per property plan

| id | modelled | how proved |
|----|----------|------------|
| C01 | failmanager.py whole, ticket.py | ghost counter of reports per address next to the state, invariant `retry <= ghost` by induction over operations |
| C02 | same | invariant `retry = n` over the report list while inside the window |
| C03 | same | false: concrete counterexample proved (rate estimate); partial: the in-window count is exact as long as the window start never slid; C01 for the rest |
| C04 | `cleanup` | functional characterization by `filter` for the three strategies |
| C05 | `toBan`, `delFailure` | characterization of the result, list decomposition |
| C06 | `addFailure`, `inc`, `setMatches` | invariant over operations with the ghost list of all lines |
| C07 | `failTotal` | induction |
| C08 | `addFailure` | frame lemma of dict update |
| C09 | `adjustTime` | invariant |
| C10 | banmanager.py `addBanTicket` | case analysis, key uniqueness invariant |
| C11 | `unBanList` | loop invariant |
| C12 | `unBanList`, `addBanTicket`, `setBanTime` | invariant `nextUnban <= end of every ban`; counterexample for a lowered default |
| C13 | `unBanList`, `getEndOfBanTime` | from C11 |
| C14,C15 | all BanManager operations | ghost multiset, induction |
| C16 | `getBanList` | merge sort lemmas |
| C17-C20,C22 | actions.py `__checkBan`, `__unBan`, `__flushBan`, `stopActions`, `removeBannedIP`, `run` | model returns the trace of action calls, failing calls are given by an arbitrary oracle; induction over the lists |
| C21 | jail.py queue | refinement to a FIFO history |
| C23,C24 | jail.py `setBanTimeExtra`, observer.py | rational arithmetic |
| C25,C26 | jail.py `restoreCurrentBans`, database.py queries | composition of query semantics and ticket restoring |
| C53 | database.py `getBansMerged` cache | coherence invariant up to removals, witness for staleness |
| C27-C29 | database.py tables as lists of rows | induction over operations; SQL statements modelled by their list semantics |
| C30-C32 | ipdns.py `IPAddr` on naturals/bit vectors | bit level lemmas |
| C33-C36 | filter.py | decision logic, cache refinement |
| C37,C38 | filter.py `FileContainer` on byte lists | invariant relating position and delivered lines |
| C54 | filter.py `seekToTime` | loop invariant for the lower bound; decreasing measure for termination |
| C39 | utils.py `Cache` | refinement, size invariant |
| C40 | action.py `escapeTag`, `replaceTag`, `replaceDynamicTags`, utils.py `buildShellCmd` | noninterference; a small shell semantics (`Spec/Shell`) in which the command line is run |
| C41 | action.py `CommandAction` start/stop/ban/flush state machine | invariant over event sequences with failing commands |
| C55 | same: `unban`, `flush` | invariant "bans that remain are remembered" over event sequences |
| C56 | same: `_processCmd`, `_invariantCheck`, `_executeOperation`, `consistencyCheck` | exact shape of the events of a call |
| C42 | helpers.py `substituteRecursiveTags`, action.py `replaceTag` | fuel is enough (measure); refinement to the relation `Expands`; witnesses for composed tags |
| C43 | `Model/Framing`: asynchat.py (`handle_read`, `push`, `initiate_send`), asyncserver.py `RequestHandler`, csocket.py | reading refines the declarative decomposition `Frames` of a stream (unique, compositional); invariant "sent ++ queued = answers" over event sequences; end to end exchange |
| C44 | `Model/Server`: server.py `addJail`, `delJail`, `startJail`, `reloadJails`, transmitter.py `reload`/`server-stream`, parts of filter.py | simulation of the server by independent per-name views; the commands of a configuration folded per name; outcome per name (kept, new, replaced, removed) |
| C45 | `Model/Config`: configparserinc.py `_expandConfFilesWithLocal`, `_getIncludes`, `__getIncludesUncached`, `read`, `merge_section`, `_map_section_options`, `_interpolate_some`; configreader.py `ConfigReaderUnshared.read` | invariant of merging: value and previous value are the last and last but one of the values assigned so far; include lists as a least fixed point with fuel, a measure for loops, rank for acyclic includes; big-step relation for references |
| C46 | actions.py, all operations of a jail | invariant "last relevant command = ban iff in the ban list" over operation lists |
| C47 | actions.py `add`, `reload` | exact trace and resulting action list |
| C48,C49 | actions.py `run` (start), `_prolongBan` | exact trace |
| C50 | ipdns.py `textToIp`, `searchIP` and the two address regular expressions | string lemmas |
| C51 | ipdns.py `getPTR`, `hexdump`, `__lt__` | digit lemmas |
| C52 | filter.py `processLineAndAdd`, `performBan`, `performSvc`, `addAttempt` | induction over lines (`Filter.lines_induct`) |
| C57 | filter.py `_mergeFailure`, `findFailure` | invariant: the entry of a connection in the cache represents its history (declarative status by recursion over the history); induction over lines |
| C58 | filter.py `findFailure`, `_ignoreLine` | exact decision logic |
| C59 | failregex.py `Regex.search`, filter.py line buffer | partition of the buffer up to permutation, induction over lines |
| C60,C61 | strptime.py `reGroupDictStrptime`, `zone2offset` and the calendar of `datetime` | the calendar is specified by counting days one by one (`DayNo`); ordinals by arithmetic; exact result for every set of fields |
| C62,C63 | datedetector.py `matchTime`, `_reorderTemplate`, `_appendTemplate` | invariant: templates are a permutation, used ones first; the search is characterised by a relation (`Chooses`) |
| C64,C65 | mytime.py `str2seconds`, `seconds2str` | grammar of durations in the spec; each rewriting step is followed on the text of items; what is shown is characterised by a relation (`Shows`) and read again |
| C66,C67,C68 | jailreader.py `getOptions`, `convert`, filterreader.py `_fillStream`, configreader.py `getOptions`, jailsreader.py `convert` | the stream in closed form by induction over options; tables of options written again in the spec; combined with the model of the server (C44) for the running jails |
| C69,C70 | helpers.py `extractOptions`, `splitWithOptions`, jailreader.py 186-195 | the regular expressions as syntax trees, run by a backtracking matcher; grammar of options as inductive relations; equivalence by induction over texts, also for everything outside the grammar |
| C71,C72,C73 | actionreader.py, jailreader.py 185-215, configreader.py `getOptions`, `getCombined`, action.py `__setattr__`, `clearAllParams`, `_properties`, actions.py `add`, transmitter.py 375-409 | sources of values as relation; properties sent as a set, each once; names by what distinguishes them; attributes on the server in closed form; invariant of the cache of properties |
| C74 | filterpoll.py, filter.py `commonError`, `addLogPath`, `delLogPath` | state machine of filter, files and other threads; invariant over all interleavings; passes; futures in which a modification is never read |
| C75,C76 | filterpyinotify.py | invariants of watches, pending paths and delays over all sequences of commands, events and checks; effects as a list; check in closed form; all futures of a starved path |
| C77,C78 | filtersystemd.py (matches, lines) | reader as environment with its documented semantics; invariant over all commands; grammar of words with `+`; line as head and body |
| C79-C81 | filtersystemd.py (run), database.py (journal position) | loop as small steps, interleaved with anything; exact list of processed entries as invariant; position known at any time; lives with kills and restarts; exact switch of operation mode |
| C82-C84 | observer.py (queue, main loop, stop, timer of the purge) | steps of all threads in any order; order as invariant over everything ever queued; rank of the loop for progress; count of purges on their way |
| C85,C86 | failregex.py 28-219 (tags), 140-161, 301-323 (groups), 399-454 (failure id) | tags: expressions as syntax trees with a meaning, scan of their text equals the meaning; fixpoint for all texts. Groups: value as relation over names, sorted lists characterized by order and members |
| C87 | utils.py 148-320 (`executeCmd`, `wait_for`) | the process is a function from signals and time to its code; bounds of time by induction over the looks, for all delays; looks as an independent sequence |
| C88,C89 | transmitter.py 156-512 (`set`, `multi-set`, `get`), server.py 351-593, setters of filter.py 150-446, jail.py 225-273 | frame (which `get` a `set` may change) as a table, lifted to all sequences; round trips; removal by Python index as relation; formula in use versus options shown as invariant |
| C90,C91 | database.py 166-393 (`_connectDB`, `repairDB`, `_createDb`, `updateDb`) | transactions as a list of functions, a crash as a prefix of it; newest ban declaratively (split of the rows), proved of sort and replace by induction; end-to-end with `getCurrentBans`; files with backups for the repair |
| C92 | ipdns.py 740-813 (`FileIPAddrSet`), helpers.py 285-306 | the file as a function of time; invariant over all sequences of questions; comments and entries as relation, proved of the regular expression's scanner via words that are the same in any context; steps of two threads for the refutation |
| C93 | ipdns.py 46-70, 78-129, 154-233, 249-311, 816-922 (`DNSUtils`) | resolver, interfaces and host name as functions of time; invariant that every entry of the caches is right for the time it was stored, parametrized by what holds of the IPv6 setting; ages add up along chains of caches |
| C94 | client/fail2banregex.py 82-89, 194-241, 248-266, 493-563, 620-690, 755-760 (`fail2ban-regex`) | the filter as arbitrary function of state and line; list of tested lines as inductive relation (determined); counts of the run equal those of kinds of lines in the list; buffer of the filter compared before and after each line |
| C95 | server.py 118-131, 640-819; helpers.py 88-90, 246-275 (log of the server) | state with what is shown and what the logger has; relation `Goes` for where a target leads; invariant over histories of commands with the world (files, sockets) at each |
| C96 | server.py 531-569, 610-630; transmitter.py 112-123, 367-374, 445-447 (commands over all jails) | loop equals independent application to each jail; lifted from the theorems for one jail (C18, C20) |
| C97 | server.py 154-235, 257-289; jail.py 329-351; jailthread.py 88-121; filter.py 1280-1308; asyncserver.py 246-315 (end of the server) | events of the thread of `quit` as a list; two rounds in closed form for all failures; stages as a rank that never decreases |
| C98 | asyncserver.py 144-238 (event loop) | counts equal the largest recent excess of errors (reflected walk), by induction over turns; decision to give up from it |
| C99 | fail2banclient.py 74-133, 160-221, 273-455 (commands, reload, start, restart, waiting), fail2bancmdline.py 259-271 (`-t`) | world with any state; events of the client as a list; answers as an independent inductive relation; waiting by induction with a clock that goes on |
| C100 | action.py 74-182 (`CallingMap`), actions.py 370-460, 509-516 (`ActionInfo`) | aliasing of the shared dictionary in the state; simulation between a map after other actions and a fresh one; stored values by induction |
| C101 | datedetector.py 44-66, 256-296 (`_getPatternTemplate`, `appendTemplate`) | declarative meaning of a pattern, equal to the result with an empty cache; invariant of the shared cache over all histories; templates derived from the defaults (`_getAnchoredTemplate`, which uses the same cache under their names) are modelled for C109, without the cache |
| C102 | jail.py 66-145 (`_setBackend`, `_init*`) | modules and constructors of the host arbitrary; case analysis over the order against a declarative first one |
| C103 | server.py 828-853 (`setDatabase`), observer.py 353 | invariant over histories |
| C104 | all sections of locks of fail2ban/server, with the functions called inside; `Jail.stop` (waiting for threads) | each function with the sections it may enter and the functions it may call, in any order and number; order of the locks, invariant of the threads, progress by the thread waiting for the highest lock |
| C105 | `_json_default`, `_json_dumps_safe`, `_json_loads_safe`, the writer and reader of `json`, `getMatches` | reader run on what the writer wrote by mutual induction on the value; a reader that finished does not change with more text |
| C106 | `Beautifier.beautify` | shown text as declarative lines (numbered items), by induction; splitting inverts joining; lengths of the parts of the lines of the table |
| C107 | `Fail2banCmdLine.initCmdLine`, `__getCmdLineOptions`, `getopt.getopt` | grammar of spellings (inductive relation) equivalent to the reader, both directions by induction; last value as last of a filtered list; decision table of test and dump |
| C108 | `_updateTimeRE`, `DateEpoch.getDate` | language of the expression that `grp` builds = the set it is built from (induction); arithmetic of decades; fractions |
| C109 | `appendTemplate`, `addDefaultTemplate`, `_cacheTemplate`, `_getAnchoredTemplate`, `unboundPattern`, `setDatePattern`, `getDatePattern`, names of patterns | list of templates given independently from the constant table of defaults (the table itself is evaluated); additions by induction over lists; replacement of `{DATE}` and names by induction over texts |
| C110 | datetemplate.py 35-50, 86-148 (`DateTemplate.setRegex`) | expressions of the source equivalent to declarative forms, by induction over texts; meaning of the bounds by cases over the two sides of a position |
| C111 | fail2banserver.py 82-146, 154-198 (`startServerAsync`, `getServerPath`, `start`) | composition of the command line, read again by the model of C107; round trip for all texts |
| C112 | fail2banserver.py 47-75, 175-224; fail2banclient.py 181-265, 346-367; server.py 190-234 (`configureServer`, `startServerDirect`, `quit`) | two threads as small steps over the shared `phase`, lists of events; invariants and histories by induction over the events |
| C113 | fail2banreader.py 52-84, configurator.py 69-91, jailsreader.py 57-89, fail2bancmdline.py 283-299, transmitter.py 129-136, 156-213, server.py 818-849 | insertion sort equals a filtered list of names; values by the relation of C67; exact result of the stream on a fresh server |
| C114 | ignorecommands/apache-fakegooglebot 11-49, ipdns.py 506-518, 541-543, filter.py (by C33) | the expression equals a form of names by induction; exact exit codes; safety against any reverse names; composed with C33_decision |
| C115 | action.d/smtp.py 27-240, action.py 139-157 (as a memo) | formatting by pieces (induction); sessions equal to steps done until the first failure; memo of values over all histories |
| C116 | client/fail2banregex.py 499-517, 557-637, action.py 824-896 (with `_escOut`) | substitution as relation on texts; pieces between marks (induction); determinism of the output |
| C117 | client/fail2banregex.py 244-309, 330-487, 764-778, filter.py 172-229, 374-378 | exact result of the loop over commands (first and last value as relations that compose); comparison with the settings of the server; frame of other commands |
| C118 | server.py 110-124, 854-953, utils.py 191-194 | list of all processes with how they go on; lowest free number (pigeonhole); filters of descriptors |
| C119 | fail2banregex.py 330-375, 393-420, configreader.py 205-228, 331-334 | laws of posixpath functions for paths of given shape; search expressions as decompositions of the text |
| C120 | helpers.py 486-530 | small steps of threads with an event list; invariant over mutex, last collection and time gate; measure of remaining steps |
| C121 | filtersystemd.py 54-100 | popping of keys as lookups in the given options; decision table of flags |
| C122 | ticket.py 43-64, 75-87, 139-152, 177-228 | dictionaries as objects with numbers; noninterference by induction over histories with the invariant that a ticket owns its dictionary; last entry of a list |
| C123 | compat/asyncore.py 76-188 | arbitrary handlers; noninterference: value of one number in the map after a loop over distinct numbers, by induction |
| C124 | fail2banclient.py 395-448 | loop over lines against a relation of executed commands, on top of the client of C99 |
| C125 | banmanager.py 132-259, actions.py 720-745, ipdns.py 581-600 | parsing against a relation of parts and values; uniqueness of ascending lists; induction over addresses |
| C126 | helpers.py 179-237 | exact outcome of each call; induction over sequences of calls against a count of broken pipes |
| C127 | filter.py 623-630 | exact condition in terms of earlier warnings by induction over calls; filtering by kind commutes |
| C128 | configreader.py 62-133 | three cases of a read; induction over reads with what is known under a name as invariant |
| C129 | configparserinc.py 113, 128-155, configreader.py 380-395 | expression against a declarative form of names; first place with the option; cache invariant over lookups |
| C130 | filter.py 1164-1178, 1280-1308, jailthread.py 67-79, database.py 513-533 | small steps of two threads; invariant per log over all interleavings |

## Environment of the actions model

Calls of action objects (`start`, `ban`, `unban`, `flush`, ...) are recorded in a trace; their outcome (exception, return
value, invalidation of the ban epoch) is an arbitrary function of the whole trace, so theorems hold for every pattern of
failing commands. Every method of `Actions` is one step; interleavings of the server thread inside a method are not covered.

## Environment of the address model

`inet_pton`/`inet_ntop` are parameters (`NetLib`). Theorems about texts assume `Spec.IP.Lawful` (text made from a number is parsed to
it, characters used, shape of the texts); `Lemmas/NetLibSample.lean` proves the assumptions for a concrete implementation. Name
resolution is an arbitrary function. The object cache of `IPAddr` is not modelled; `\d` is taken as `[0-9]`.

## Environment of the filter model

A line carries what the date detector and `findFailure` return for it (arbitrary, including exceptions). Own addresses, name
resolution, content of ignore files, exit code of the ignore command and the key of the ignore cache are arbitrary at each line
(`IgnoreEnv`). A history is a list of (clock, world, line). Time is in whole seconds.

## Environment of the database, jail and observer models

The sqlite tables are dictionaries keyed by their primary key (`jails`, `logs`, `bips`) and a list (`bans`); each method is one
transaction. JSON encoding, `getBans` order among equal times and database upgrade/repair are not modelled. The clock is a parameter. The
ban time formula is the default one over rationals or the multiplier list; for the observer it is an arbitrary function. The ignore
decision while restoring is an arbitrary function (the filter model instantiates it). The observer queue, its timers and thread are not
modelled: each event is one step.

## Environment of the log file model

A file is its inode and bytes at the moment it is looked at; contents may differ at every `readline`, growth is an assumption of the
theorems (`Grows`), not of the model. Encodings are parameters; `AsciiEnds` says that line ends are the bytes 10 and 13 and is proved for
ISO 8859-1 and UTF-8 (`Lemmas/Codecs`). MD5 is an arbitrary function. The date detector is a function of the line (C54). The foreign key
exception of `addLog` (jail unknown to the database) is modelled as "no position".

## Environment of the tag and command models

Texts are lists of characters; the class `\w` is a parameter. The replacement loops have fuel; C42_ends proves that enough fuel always
exists and more fuel changes nothing. The shell of C40 is a small semantics of the command line: assignments `name=$k` of the header, and
expansion of `$name` in the rest, with double quotes not distinguished; word splitting is looked at in `C40_refuted_words` only. Values of
tickets are an arbitrary function of the tag name; callables are taken to be already called.

## Environment of the model of command actions

The texts of commands are arbitrary functions of the parameters, the family and the ticket (the tag and command models say how they are
made). The exit of every command is an arbitrary function of all earlier events. Observers know only calls, commands and results
(`Spec.CmdAction.watch`). Assumptions of theorems: families have different start (stop, flush) commands where said; `KeepsCommands`:
replacing the tags of the "empty" ticket does not make a command empty.

## Environment of the model of connections

* Serialization is a parameter `Codec` with laws `Lawful` (what was written is read back, also if the end marker follows it: pickle stops at its
  own end code). What `recv` returns, how many bytes `send` takes and when the socket becomes readable or writable is arbitrary.
* The request processor (transmitter) is an arbitrary state transition that always returns an answer (`Transmitter.proceed` catches exceptions).
* Not modelled: errors of the socket other than closing by the peer (`handle_error`), timeouts, and that `CSocket.send` uses `socket.send`
  (which may take only a part of a very large request) instead of `sendall`; requests are taken to arrive completely.

## Environment of the model of the server

A jail is reduced to the parameters that a reload clears or keeps: the lists of its filter, log files, other options (one dictionary of values),
the actions with their ban manager (`Model/Actions`) and whether it runs. Whether a parameter or backend is valid is decided by the environment
(`World`), as are all results of calls of actions. A jail runs until it is stopped; threads that end by themselves are not modelled. A stream is
the sequence of commands made of a configuration, all `start` commands at its end (jailsreader.py). Caches and the `--unban` option of a single
jail are not part of the theorems. What happens to one name does not depend on the others (`Lemmas/ServerView`), which is how the theorems
are proved for all sets of jails.

## Environment of the model of configuration files

What Python's `ConfigParser` reads from a single file (sections, options, values as sequences of text and references, `before` and `after` of
`INCLUDES`), whether a file exists, path arithmetic (`splitext`, `join`, `isabs`) and `glob` are parameters. Python's own interpolation
(`BasicInterpolation`, depth limit 10) is modelled on values already split into text and references. Recursion of includes is bounded by fuel, so
that recursion without end is `none` for every fuel; results do not depend on the fuel otherwise (`C45_determined`). Caches of parsed files and of
include lists are not modelled; the cache of include lists ignores where a file is included, which makes no difference without loops (`C45_seen`).

## Environment of the model of matching

* Regular expressions are arbitrary functions from the searched text to a match (groups, first and last line, skipped lines). Theorems on several lines
  assume that a match does not end before it starts, and that skipped lines occur in the match in that order.
* `checkAllRegex` is off and `ignorePending` is on (the other values are for `fail2ban-regex`). Groups are not named like internal entries
  (`users`, `matches`, ...). `IPAddr(...)` and `DNSUtils.textToIp` are parameters here (modelled for C30-C32, C50).
* The failure kept for a connection and the one reported are the same object; nothing reads a report after the next line (tickets copy the data), except that
  the set of users is shared.

## Environment of the model of dates

* `datetime` (constructor, `toordinal`, `fromordinal`, differences) is modelled by its documented algorithm, `_calc_julian_from_U_or_W` by its source.
* `time.mktime` is an arbitrary function of the local time; `MyTime.now()` is the local time as a number of seconds.
* Numbers (`int(...)`), names of months and days, and AM/PM (by the locale) of a match are given as values; that the regular expressions of
  date patterns match the right part of a line is not modelled.

## Environment of the model of the date detector

* A regular expression is an arbitrary pair of functions: what it finds in a line, and in a part of it. Assumptions on them are hypotheses of the theorems (`Proper`, `Extends`).
* `template.hits`, shared between jails, `time.time()` and `str.isalnum` are arbitrary for each line.
* Weights are compared as fractions, not as floating point numbers.

## Environment of the model of durations

* `eval` is modelled for sums, differences, products and quotients of decimal numbers with signs and spaces, with exact arithmetic; any other expression is `none` in the model
  (the code evaluates any Python expression of the configuration).
* Regular expressions are restricted to ASCII letters, digits and spaces; the alternatives of the units are written out.
* `seconds2str` is modelled for whole seconds that are not negative; `round(float(s)/d)` is taken as exact (true for all durations below some thousand years).

## Environment of the model of readers

* A section of a file is a function from names to what `get` gives after interpolation (`Got`: no section, no option, a value); reading and merging of files is the subject of the model of
  configuration files.
* Existing files (`glob`), `int()`, `shlex.split` and substitution of tags (`subst`) are arbitrary functions.
* Commands of actions are given as a list (`ActionsOk`: they only concern actions of the jail). Log messages are left out.
* White space is ASCII white space. On the server, commands without own meaning in the model (journal matches too) set an option.

## Environment of the model of options in brackets

* The classes `\s` and `\w` are arbitrary, assumed (`Sane`): newline is white space, no character is both, and the characters `=`, quotes, `,`, `[`, `]`, `-`, `_`, `.` are not
  white space, the first six also not letters. `strip` removes the same characters as `\s` (both use `str.isspace`).
* `Model/Regex` is a matcher with backtracking for the constructs that occur; it is trusted to agree with `re`. `finditer` goes one character further after a match of nothing.
* Names of groups are replaced by numbers; the expression for splitting reuses the expression of values with groups, which nobody looks at.

## Environment of the model of actions read

* Files of actions are given by `actionOf`: options of `[Definition]` interpolated with any variables and own options of `[Init]`; substitution of tags is an arbitrary function.
* `os.path.splitext` is taking off `.py`. Options of modules in Python are not looked into. A module has no method `reload`, which is true of those in the distribution.
* What a called method of an action does is left out (only that it is called). Attributes of the class that are no methods are left out of the properties.

## Environment of the models of monitoring

* Polling: the content of a file is a number that grows with each modification; `os.stat` gives what the environment says. Threads are interleaved at the level of checking or reading one file.
  Reading a file reads it to its end or fails. Lines that are processed do not reduce the number of errors.
* Notification: the file system is an argument of each event and check, events are arbitrary. Paths are abstract (`dirname`, below a directory, suffix `-unknown-path`); `posix` are those of POSIX.
  Watch descriptors and errors of `pyinotify` are left out; a watch can always be set. Time does not go on during a check. Times are microseconds instead of floats.

## Environment of the models of the journal

* Conditions of `systemd.journal.Reader` follow the documentation of `sd_journal_add_match` and `sd_journal_add_disjunction`: matches of one field are alternatives, an empty alternative is ignored.
  Which matches are refused is an argument.
* The journal is a list of the entries that fulfil the matches, entries are added at its end; rotation, and changes of matches while reading, are left out. `get_previous` after `seek_realtime(t)`
  gives the last entry that is not after `t`. Times are microseconds instead of floats, so a position is saved exactly.
* Idle is set and reset by anyone at any time (errors that are counted are C36). Waiting for entries is left out.

## Environment of the model of the observer thread

* Steps are single reads and writes of `_paused`, `_notify`, `active`, `idle` and the flag of the `threading.Event`; changes of the queue under its lock are one step. An event being executed that adds
  events or timers is another thread. Time is not modelled: waiting may time out at any step, and time of `stop` may be over at any step (theorems say which they use).
* One call of `stop` at a time (as `Server.quit`), not by an event of the observer. The timer that fires and the `add` it calls are one step. `start()` after `stop()` is left out.
* `add_wn` and `wait_empty` are used by `stop` only (and by tests).

## Environment of the models of tags and groups

* Texts are lists of characters. Module `re` (compiling and matching) is environment: names of groups and their values are arbitrary. Rewriting of global flags (`R_GLOB2LOCFLAGS`) is left out.
* Letters outside of ASCII are not part of tags in the model; such tags are unknown and stay as they are in both.
* The dictionary of groups is a function (unknown names give `None`, as `get`).

## Environment of the model of commands

* Time is counted in units of 10 µs from the first look (`poll`); a sleep takes its time and an arbitrary delay, everything else takes no time.
* The process: what `poll()` says, as function of the signals sent so far and the time (arbitrary; theorems about commands that end assume that the code stays); whether it starts; whether `getpgid`,
  `killpg` raise `OSError`; whether another process holds the pipes when it has ended. The size of pipes is not modelled: a command that writes more than fits into the pipe goes on until the limit.
* The content of the output, the shape of the result (`output`, several codes) and the hints in the log are left out.

## Environment of the model of settings

* Commands are lists of words. Library functions (`int`, `str2seconds`, `lower`, `codecs.lookup`, `validateTimeZone`, compilation of expressions, evaluation of `factor`, `formula`) are arbitrary
  functions that may fail; the list of ignored addresses changes by arbitrary functions (its meaning is C33). Options of the server, log files, the journal, actions and bans are left out: such commands
  have an arbitrary reply and do not change the settings modelled here.
* `bantime.evformula` and `bantime.evmultipliers` are internal but can be set like other options; C89 excludes them.

## Environment of the model of the upgrade

* Transactions are atomic: interruptions are between them. (The code sets `journal_mode = MEMORY` and `synchronous = OFF`, so SQLite itself does not promise that for a crash of the process.)
* What `sqlite3 .dump | sqlite3` makes of a broken file, and whether a statement of the upgrade raises an exception, are arbitrary functions.
* Backups get different names: two starts are not within one second. No ban of an old database has the address NULL (the upgrade would fail: environment `fails`).
* The table `jails` and the indices are left out; log rows have no digest.

## Environment of the model of files of ignored addresses

* The file is an arbitrary function of time giving `stat` and text. `C92_followed` assumes that a modification shows in `stat` (mtime, inode, size) and that a `stat` does not come back, and that the file can be read whenever it
  exists; C92_refuted_unreadable shows what happens otherwise. The clock does not go back.
* White space is that of ASCII. Resolution of names is a parameter, as in the model of addresses.

## Environment of the model of name resolution

* Resolver, list of interfaces, host name and the system's statement about IPv6 are arbitrary functions of time. A question takes no time; if it takes `d` seconds, ages grow by `d`, since an entry is stored when the answer
  arrives. The clock does not go back.
* Calls are executed one after another; the only interleaving considered is that of `C93_refuted_lost`. The caches are those of C39, including eviction.
* A set is a list; the order in which own names are resolved is that of the list.

## Environment of the model of the test tool

* The filter is an arbitrary state machine with its buffer of lines; the models of the filter (C03, C12, C59, …) say what the real one does.
* `KeepsMissed` (only lines that were missed are kept, each once) holds for the real filter unless an `ignoreregex` matches after the line was found to match nothing of the kept ones;
  it is used in `C94_nonnegative` only.
* `--debuggex`, statistics of dates and of `prefregex`, and output other than `--out=id` are not modelled.

## Environment of the model of the log

* Files, sockets, journal module, and facilities are arbitrary functions at each command. The value of `logtarget` is given after `extractOptions` (C69). Case is that of ASCII.
* Python's `logging` is trusted: a message goes to all handlers of the logger if its level is at least the effective one; a rotating file handler without size opens its file again on rollover.
* The lock of logging and messages of other threads during the change of handlers are not modelled.

## Findings (statements that are false of the code, with proved witnesses)

* C03: `FailTicket.adjustTime` estimates the number of failures in the window by a rate, so failures older than
  `findtime` can contribute to a ban (`C03_refuted`).
* C06: setting `maxmatches` from 0 to a positive value resets counters of running tickets (proved in Props/FailManager).
* C12: if the default ban time (or that of a ticket) is lowered, the cached next unban time lags
  (`C12_refuted_when_lowered`).
* C18: flush command raises and the action has a consistency check: bans are forgotten but neither flushed nor unbanned.
* C19: that consistency check raises: no action is stopped at the end of the thread.
* C22: consistency checks raise while banning: bans are not counted and expiry checks are skipped.
* C47: an action added to a jail by a reload is removed at the end of the same reload.
* C30: a larger network counts as being inside a smaller one with the same first address (10.0.0.0/8 inside 10.0.0.0/24), which matters
  for unban of subnets.
* C31: raw identifiers (`CIDR_RAW`) all compare equal; the text of a /0 network has no prefix length (reads back as a single address);
  the text of an IPv6 network with an IPv4-mapped address reads back as an IPv4 address.
* C32: the IPv6 spelling of an IPv4 mask is accepted as mask; a misspelled IPv4 mask (255.255.255.256) silently becomes /0, i.e. an
  ignoreip entry with it matches every address.
* C51: `IPAddr.__lt__` is no order across families.
* C33: `addIgnoreIP` of an address raises an exception if a `file:` entry is already in the list (`C33_refuted_add_after_file`);
  `delIgnoreIP` of a single address needs its canonical text; an ignore command that cannot be executed makes the line fail.
* C34: the ignore cache is consulted before the set of ignored addresses, so adding an address takes effect only after its cached
  decision expired.
* C53: `delBan` does not drop the cached merged information, so `getBansMerged` returns bans that were removed (`C53_refuted`).
* C29: a purge while a jail is disabled and has no bans forgets the positions of its logs (`C29_purged`).
* C23: with `bantime.maxtime` below the base time, or with multipliers, the ban time can be below the base time (`C23_below_base`).
* C24: for known offenders the observer adds the reported ticket a second time, so its lines and failures are stored twice
  (`C24_lines_twice`).
* C37: a filter stopped during a pass loses the line just read (`C37_refuted_stop`); a look at the file between CR and LF delivers an
  extra empty line, or the first line twice (`C37_refuted_cr`, `C37_refuted_cr_first`); a first line completed after the last open
  before a restart is delivered twice (`C37_refuted_restart`); the search for the start time can end inside an incomplete last line,
  the rest of which is then delivered as a line of its own (`C37_refuted_seek`).
* C38: a file rewritten in place within 30 seconds after the last look at its first line is continued at the old position
  (`C38_refuted_30s`); if the first line of the old file was not known, the new file is read from the middle and then a second time
  from its beginning (`C38_refuted_no_hash`).
* C40: from the tenth value that has to be passed as argument, `$10` in the header is read by `sh` as `$1` followed by `0`
  (`C40_refuted_ten`); a tag followed by a letter or digit, or by another tag, makes a reference to another variable
  (`C40_refuted_join`); two tags which differ in non-word characters share one variable (`C40_refuted_names`); a composed tag
  `<F-<x>>` expands a value a second time (`C40_refuted_nested`); blanks are no special characters, so a value in the text of a command
  can add words, hence options, to it (`C40_refuted_words`). None of these lets a value be read as shell syntax.
* C42: a composed tag can stay unreplaced without an error (`C42_refuted_composed`); more than 25 indirect uses of one tag are reported as
  self-reference, depending on the order of the definitions (`C42_refuted_alarm`).
* C41: if families share their start command and the environment of both is found broken, the action is restarted, then stopped for the
  second family and not started again (`C41_refuted_restart`); if they share the stop command, a stop that failed for one family can make
  the next `stop()` execute nothing (`C41_refuted_stop`).
* C55: if families share the flush command, the second `flush()` with bans of both families executes nothing and reports success
  (`C55_refuted_flush`): records of executed flush commands are never dropped. This concerns every action with `actionflush` but without
  family specific sections.
* C43: the end marker `<F2B_END_COMMAND>` is not escaped. A request whose serialization contains it (for example a string argument with this
  text) arrives as two messages (`C43_refuted_mark`).
* C44: an invalid parameter of one jail (a regular expression that does not compile, say) makes a reload stop all jails (`C44_error`); a jail
  set up but not started by such a reload is started and then deleted by the next, valid one (`C44_refuted_after_error`); an action that raises
  at the end of a reload makes the server refuse the next one (`C44_refuted_in_progress`). Options that are no longer configured keep their
  values (`Kept.options`), and only actions defined by commands survive a reload (Python actions have no `reload`, actions.py 137).
* C45: `x.local` whose section `INCLUDES` names `x.conf` makes reading recurse without end (`C45_refuted_local_include`), as a file included is
  always followed by its `.local`, which is not checked against the files seen. `%(known/opt)s` in the last of three files that set the option is
  an error if the second one uses it as well (`C45_refuted_known_twice`): there is only one previous value, which then refers to itself. A file that
  includes itself, or is included twice, is read twice, whereby `known` becomes its own value.
* C58: `ignoreregex` is applied to the whole line if there are at least three more failregexes, but otherwise only to the content selected by `prefregex`
  (jail.conf(5): always the content). A failregex that matches without an identifier hides later ones: these get an empty text. A group of failregex that has
  no value removes the one captured by prefregex.
* C59: with `maxlines` > 1 and a `prefregex` with `<F-CONTENT>` failures are counted twice, with a wrong line, because the lines taken from the buffer are
  computed from the position within the content.
* C57: a failure waiting for its host is lost if its connection is older than 300 seconds, or 100 newer connections appeared (stated as limits).
* C61: a date with a zone but without year (or without date) is compared in UTC with the local time, and the year is the one of the local time. Around the
  turn of the year such times are a year too early if the zone is ahead (`logtimezone` east of the computer), and a day off if the day in UTC differs
  (month and day are reset to the written ones after the conversion to UTC). In operation, the filter treats such dates as now.
* C60: TAI64N labels are taken as Unix times, so they are 10 (clock without leap seconds) or 37 seconds ahead.
* C62: with `datepattern = {NONE}` (or another pattern that may match nothing at the end of a line) each empty line of the log raises IndexError (`line[distance]`, datedetector.py 448);
  100 of them in a row and the jail goes idle (`commonError`).
* C63: if the date of a line has another length than the one before, its template is left out of the search and its match only kept in reserve; then a match of the last
  template of the list ends the search, even if it lies in the text of the message.
* C63: a date at the place of the last date is preferred to a date at the begin of the line.
* C64: a number with a leading zero (`05m`) is a SyntaxError in `eval`, and of several numbers without unit (`1 2 3`) only every second space becomes `+` since matches do not overlap.
* C65: a year is shown as 365 days but read as 365.25 days, so durations copied from the log are longer by six hours a year.
* C66: `maxlines`, `usedns` and `prefregex` of the filter (from `[Init]` or as parameter) win over those of the jail, since these commands are inserted at the front and the one
  of the jail comes first; for `datepattern` the jail wins. So `maxlines` in a jail with filter `mongodb-auth` has no effect.
* C66: `journalmatch` of a jail is added to the one of `[Init]` of its filter instead of replacing it.
* C66: `opt in ('datepattern')` tests for a part of a word: a parameter or option of `[Init]` named `date`, `pattern` or `a` is sent as a command the server does not know.
* C66: if the filter sets `usedns` and the jail `prefregex`, the regular expression is compiled before `usedns` is set.
* C66: a wrong number for `maxretry` is sent as `None` (default of the option) instead of being left out; a wrong `maxlines` of the jail hides that of the filter.
* C66: a name of a log file with a space is taken as file and option (`head`, `tail`).
* C69: white space between a closing quote and `,` or `]` is an error (`p="v" ]`, `p="v" , q=1`), while white space after a bare value is dropped; `splitWithOptions` accepts both.
* C69: a quote that is not closed belongs to a bare value (`a="x, b=2` gives `"x` for `a`), and it may be closed within a later option (`a="x, b=y"`).
* C69: a comma before the closing bracket is accepted, even two of them.
* C70: `name [options]` is one entry, but its name ends with a space, so the file is not found.
* C72: `iptables[name=allports]` and `iptables-allports` in a jail get the same name, and so do `mail[name=ssh-a]` and `mail[name=a]` in jail `ssh`; the second one is an error of the server.
* C73: a reload keeps `norestored`, `actionprolong`, `actionstart_on_demand`, `actionrepair_on_unban` and all own parameters of an action that are not in its new configuration, since
  `clearAllParams` does not reset them.
* C73: `clearAllParams` does not clear the cache of properties, so they are stale until the first property is set.
* C73: a parameter with the name of a method (`ban`, `flush`, `start`, `stop`, `reload` ...) calls this method with the value as JSON while the configuration is loaded.
* C74: the `stat` of a log is remembered before it is read: if it could not be opened, or reading was given up since the filter got idle, it is not read until it is modified again.
* C74: an exception while one log is read loses all other logs found as modified in this pass, until they are modified again.
* C74: with two logs absent at the same time the filter makes 100 errors in 50 passes and gets idle before the logs are given up (51 checks); then no log is read any more.
* C75: the delay of an absent path grows from 51.2 to 102.4 s, but the time of the last check is set anew at least each 60 s, so the path is never looked at again: a directory that was
  absent for about 110 s is not noticed when it comes back, and the logs in it are not read (files are, if the directory is still watched, by the event of their creation).
* C76: modifications notified while the filter is idle are not read when it is not idle any more, until the next modification.
* C76: a directory stays watched if a log in it is removed before another one in a subdirectory; for logs in `/` removing one of them removes the watch of `/` for all.
* C77: a journal match added with `+` is stored as several matches, so `deljournalmatch` with the same words fails; deleting the last match makes the jail read all entries of the journal.
* C78: `formatJournalEntry` raises `TypeError` for an entry of the kernel without any monotonic time.
* C80: the position saved is the time of the source, but `seek_realtime` searches by the time of receipt, so the last entries are processed again after a restart; if the times are equal,
  other entries received in the same microsecond are skipped. A stop directly after an entry that raised an error leaves the position of the entries before it unsaved.
* C81: an `OSError` while old entries are read at start is treated as the end of the journal and switches to operation mode; the remaining old entries are then treated as if they just happened.
* C83: a forced `stop` returns true although queued events were dropped, if the thread is busy for longer than the five seconds.
* C83: `stop(forceQuit=False)` removes `_notify` for the time it waits; an event added then does not wake the thread if it read `_notify` before and sleeps; when `stop` gives up, the event stays
  queued until the time out of 60 s or another event.
* C84: `db_purge` starts its timer only after the purge; if this raises an exception once (e. g. the database is locked), the database is never purged again until the server is restarted.
* C86: parts are ordered by their names as text, so `tuple_id_10` comes before `tuple_id_2` (`C86_textual_order`).
* C86: an expression whose address is only in an alternative (`<F-ALT_IP4>`) is refused, although the alternative would become the address (`C86_alternative_not_enough`).
* C87: a command that handles SIGTERM and then ends with code 0 is reported as success although it ran into the time limit and was stopped (`C87_refuted_polite`).
* C87: the limit does not cover reading of the output: a command that ended with a code of its own (e. g. failed) but left a process in background with its output blocks the call, so the thread
  of the jail, until that process ends (`C87_refuted_background`). This is the only case (`C87_waits`).
* C88: a jail with the name of an option of the server (`loglevel`, `logtarget`, `syslogsocket`, `allowipv6`, `thread`, `dbfile`, `dbmaxmatches`, `dbpurgeage`) can be added but never configured
  (`C88_refuted_reserved`).
* C88: a refused `addignoreip` with several values, and a refused `multi-set`, leave the values before the bad one. There is no `get <jail> idle`. A wrong index for `delfailregex` is not an error.
* C89: a refused value of `bantime.factor` (also of `formula`, `maxtime`, `rndtime`, `multipliers`) is stored and shown although the old formula stays in use, and a refused factor makes all later changes
  of the formula fail until it is replaced (`C89_refuted_factor`).
* C89: `bantime.evformula` can be set as an option; the text then replaces the function, and every ban with increment fails.
* C90: an upgrade to version 4 that is interrupted after `bips` was created and before it was filled (two transactions) leaves version 4 with an empty table: no ban of the old database is restored, now or
  later (`C90_refuted_interrupted`).
* C90: a crash while a new database is made leaves a table `fail2banDb` without a row; every later start raises `TypeError` (`C90_refuted_created`, `C90_refuted_stuck`).
* C91: if the tool `sqlite3` is not installed, the repair of a broken database raises an exception (`os.stat`, then `os.remove`, of a file that does not exist) instead of making a new one; the next start makes it
  (`C91_refuted_tool`).
* C91: after a failed upgrade `updateDb` repairs the database but returns nothing, so `_connectDB` raises "Failed to fully update" although the database is usable (`C91_refuted_upgrade`).
* C91: a broken database of a later version which the tool can restore is replaced by an empty one (`C91_recreated`; the broken file is kept).
* C92: `_isModified` remembers the `stat` of the file before the file is read, so a file that cannot be read (permissions) is not tried again when it can, until it is modified (`C92_refuted_unreadable`).
* C92: the set of a file is shared by all jails without lock. While one thread loads it — first load, or between `clear` and `update` of a reload — the others take it as it is, i. e. empty, and count failures of ignored
  addresses (`C92_refuted_shared`).
* C92: `file:/path` and `file://path` are relative paths, only `file:///path` is absolute (`C92_refuted_path`).
* C93: own addresses may be ten minutes old (names of the host fifteen), since caches are filled from each other: an address that is on an interface for ten minutes less two seconds may be unknown (`C93_refuted_five`). A reload
  of all jails clears the caches (`C93_current`).
* C93: an interface without address (null pointer in the list of `getifaddrs`, as for some tunnels) makes `_NetworkInterfacesAddrs` raise, and all addresses of interfaces are lost (`C93_refuted_null`).
* C93: after `allowipv6` is changed to off, names resolved before still give their IPv6 addresses for up to five minutes (`C93_refuted_switched`).
* C93: `IPv6IsAllowed` sets `_IPv6IsAllowed` to true while it detects and to `None` afterwards; a setting made meanwhile is lost (`C93_refuted_lost`), and other threads see IPv6 as allowed.
* C93: in `getfqdn` the test `if names` is that of a generator and always true, so `None` is returned if there is no canonical name, instead of the fallback (`C93_refuted_fqdn`); `<fq-hostname>` is then "None".
* C94: over several lines, the earlier lines of a match that is ignored (`ignoreregex`) are counted as matched (`C94_refuted_ignored`).
* C94: the number of missed lines can be negative, if a line was ignored but is still kept and then part of a match (`C94_refuted_negative`).
* C94: a line that is kept twice and once part of a match is still counted as missed (`C94_refuted_twice`), as the buffers are compared by membership.
* C94: missed lines are added to the list while there are at most 21; over several lines the number can decrease again, and then the list shown is not complete or empty (`C94_refuted_shown`).
* C94: "multiple regex matched" is set from the third failure in a line only, as `len(ret) > 1` is tested before the failure is appended (`C94_refuted_marked`, `C94_marked`).
* C94: lines that begin with `#` are not tested (`C94_refuted_comment`), though the server processes such lines of a log. `--maxlines` also replaces the limit of lines shown (20).
* C95: `set syslogsocket` with the target `SYSLOG` calls `setLogTarget` with the same target, which returns at once: the new socket is shown but never used, until the target is changed to another one and back (`C95_refuted_socket`).
* C95: options of the target (`SYSLOG[facility=…]`, `format`, `datetime`) cannot be changed while the name is the same, as only the name is compared; the command succeeds (`C95_refuted_options`). This includes a reload.
* C95: at start the result of `setLogTarget` is ignored; the server runs without a log then, until the configuration is sent (`C95_refuted_start`).
* C95: `flushlogs` answers "rolled over" for targets in lower case and for `SYSOUT`, which are not rolled over (`C95_refuted_flush`).
* C96: `unban --all` stops at the first jail where an exception leaves `__flushBan` (failed flush, then a raising consistency check): later jails keep their bans, and in the jail itself the list is emptied without an unban (`C96_refuted_all`).
* C97: `FileFilter.stop` writes pending log positions before it sets `active` to false. If the database refuses one, the filter is never told to stop: `Jail.stop` catches the exception, and the later `join` waits without end (`C97_refuted_hang`); `stop` of a single jail skips the `join` and removes the jail while its filter goes on (`C97_refuted_stop`).
* C97: an error of the database in `delJail` leaves `stopAllJail` and `quit` early: later jails are not waited for, the database stays open and the socket stays; `self.quit` is already replaced, so further signals do nothing, and clients get `SHUTDOWN` only (`C97_refuted_db`). (Called by a signal, the exception is caught by the event loop, which goes on.)
* C97: a second server overwrites the PID file before it notices the socket of the first, and removes it when it gives up (`C97_refuted_pid`). After a start with `-x` the first server removes socket and PID file of the second when it ends (`C97_refuted_force`).
* C98: `e.args[0]` in the handler of errors fails for an exception without arguments, which then leaves the loop (`C98_refuted_args`). Other errors than "too many open files" repeat up to 1000 times, after the 20th without any message (`C98_refuted_silent`).
* C99: `restart` reads the configuration only after the server has been stopped: with a configuration that is not valid the server is stopped and not started again, while `reload`, and `-t restart`, keep it (`C99_refuted_restart`). Interactive mode, start in the foreground, and exceptions of the beautifier are not modelled.
* C100: `hasattr(self, '__mi4ip')` looks for a name that is never set (names in strings are not mangled), so merged bans are not kept: the database is asked for each of `<ipmatches>`, `<ipfailures>`, ... (`C100_asks`), and they may come from different states of it (`C100_refuted_once`). Without a jail (`fail2ban-regex`) the error handler itself fails (`C100_refuted_nojail`). A key that was set but not defined is not among the keys, and deleting it raises `KeyError` although it is gone (`C100_refuted_new`).
* C101: the key of a date pattern without percent sign is its text in upper case, so `^\s*{EPOCH}` of one jail and `^\S*{EPOCH}` of another share a template: the second jail gets the pattern of the first one if it is started within an hour (`C101_refuted_case`). With a percent sign the key keeps its case, and then `{date}` in lower case is not known (`C101_refuted_lower`).
* C102: `_setBackend` goes on to the next backend only after an `ImportError`: with `auto`, a pyinotify that can be imported but not started (for example the limit of inotify instances is reached) makes the jail fail, although polling would work (`C102_refuted_fallback`). Options in brackets make every jail fail unless the backend is systemd (`C102_options`).
* C103: if the jails of the new file cannot be disabled (a file that can be read only), `setDatabase` raises after it has set the database of the server, the observer still uses the old one (`C103_refuted_same`).
* C104: the handler of SIGTERM and SIGINT runs the whole shutdown inside of the interrupted code of the main thread, in which commands are handled too. If the signal arrives while a command is in a section of the (not re-entrant) lock of the jails, for example while a jail is added, the handler waits for this lock for ever (`C104_refuted_signal`); a second signal ends the process without any unban, as `quit` has already restored the default handlers. All commands of actions of all jails are executed under one lock of the process (action.py 1041): none waits for ever, but each may wait for the time limits of all others. `getCurrentBans` (database.py 814-818) executes its query inside of the lock of the database but reads the rows outside of it.
* C105: a single key that is not a text, number, truth value or None, at any depth, makes `json.dumps` raise; the adapter then stores `{}`, so that all data of the ban (matches, number of failures) are lost, with an error in the log only (`C105_refuted_keys`).
* C106: entries with line breaks are not escaped: different lists can look the same (`C106_refuted_lines`). The client decides by the second word alone whether a setting of the server is meant: answers for a jail named like one (`logtarget`, `dbfile`, ...) are labelled as that setting (`C106_refuted_name`). The horizontal lines of the table of statistics are one character longer than the lines of jails.
* C107: no contradiction found. Beginnings of long names that fit several (`--d`, `--s`, `--log`, `--v` fits only `--version`) are refused, as documented by Python. An option that cannot be understood after `-h` is still refused if its name is unknown (all words are read first), but not if only its value is wrong.
* C108: the expression for years is built once, from the clock at the start: a server started while the clock shows 1970 (no battery) does not recognise dates of today until it is restarted (`C108_refuted_clock`); a server started in 2026 does not recognise dates of 2030 (`C108_refuted_uptime`).
* C109: (1) `{DEFAULT}` beside another pattern adds no default at all (`C109_refuted_default`, `C109_default_ignored`), although man/jail.conf.5 (536) says that it can be used to add the default patterns: in datedetector.py 278-279 the conditional is inside of the lambda, so the filter returns None for every template. Alone it works only because an empty detector gets the defaults at the first line. (2) With `{DATE}` inside of a longer pattern, epoch and TAI64N times are not recognised: templates without `pattern` are put in by name, so the literal words `Epoch` and `TAI64N` count as dates instead (`C109_refuted_epoch`). Defaults that begin with `^` are put behind the text before `{DATE}`, where `^` cannot match. (3) `get <jail> datepattern` shows `Default Detectors` for three or more own patterns and only the first of two (`C109_shown`). (4) man/jail.conf.5 (530) names `ISO8601` as a special value; the code knows no such value and looks for the word (`C109_refuted_iso`). (5) Different patterns of one name, as `%U %Y` and `%W %Y`, are refused as duplicates. (6) `\{DATE}` counts as a pattern with `{DATE}` but nothing is replaced, so it is refused as a duplicate.
* C110: an expression without a group that ends with an escaped dollar (`%d\$`) gets brackets that are never closed: RE_GROUP takes the dollar for an anchor and puts the bracket between backslash and dollar (`C110_refuted_dollar`), so the expression cannot be compiled when the first line is read. An alternative with `^` at the begin, as `(^|x)`, counts as an anchor, so then no bound is put there.
* C111: `--pname` given to `fail2ban-client` is not passed to the server it starts in the background, so the process has the default name (`C111_refuted_pname`), although man/fail2ban-client.1 lists the option. The same holds for `-q`: verbosity below one is not passed.
* C112: (1) `phase['ready'] = phase['start'] = …` (fail2banclient.py 252) assigns `ready` first, while `start` is still true; a main thread that looks in between starts the server although the configuration is not valid (`C112_refuted_race`). (2) If reading takes longer than the time out, `start` is still true too, and the server is started before the configuration is known (`C112_refuted_slow`). In both cases the end is not a success. (3) `fail2ban-server` in the background whose configuration is not accepted ends with 255, but the daemon stays: `quit` is called on the object of the parent process (`C112_refuted_daemon`). (4) `quit` works once; called before the server is up it does nothing, and later `stop` has no effect on this server (`C112_refuted_stop`).
* C113: A `dbmaxmatches` that is no number (or a missing section `[Definition]`) is logged as "Using default one: 'None'", and then `None` is sent: `int(None)` raises a TypeError in the server, so the stream ends there, `dbpurgeage` keeps its initial value and no jail is made (`C113_none`, `C113_wrong`). The same for a wrong `stacksize` in `[Thread]`: this is the first command, so nothing at all is set, not even the log target (`C113_stack`).
* C114: Names do not depend on case, but the expression does: a crawler whose name is given with capitals is not accepted (`C114_refuted_case`). A newline at the end of a name is accepted (`$`).
* C115: The default `host="localhost"` (documented as port 25) has no colon, so `self.host.split(':')` cannot be unpacked: every mail raises a ValueError before connecting (`C115_refuted_default`). The example of jail.conf(5), `smtp.py[dest=chris@example.com, …]`, sets no host and so never sends a mail. The mail tells the ban time of the jail instead of the one of the ban (`aInfo.update(self.message_values)` replaces `bantime`), and `message_values` remembers the first value for ever, so it is wrong with `bantime.increment` and after `set <jail> bantime` (`C115_refuted_bantime`). Settings come as texts, so `ssl=False` asks for encryption (`C115_refuted_ssl`). `smtplib.SMTP(host, port)` connects, and `connect` is called once more.
* C116: The comment in `_prepaireOutput` says "not recursive interpolation (use safe escape)", but `_escOut` does not change a `<`, and `replaceDynamicTags` replaces `<F-NAME>` in the result of the first pass: in a format with `<msg>` or `<matches>` a log line that contains the text `<F-USER>` is printed with the user in its place, and any other `<F-NAME>` in a line disappears (`C116_refuted_tag`). The token `msg` is not affected, nor are failures with several lines.
* C117: For a jail, fail2ban-regex may test with other settings than the server: `setMaxLines` and `setDatePattern` keep the first value, while the server keeps the last (`C117_refuted_jail`). With `datepattern` in `[Init]` of the filter (as in `grafana.conf` and `centreon.conf`) and another one in the jail, the server uses that of the jail and fail2ban-regex that of the filter; with `maxlines` in `[Init]` (as in `mongodb-auth.conf`) it is the reverse. Of several `journalmatch` only the last is used, the server takes all of them (`C117_refuted_journal`). `usedns` of jail and filter is not used at all (instance of `C117_others`).
* C118: In the background commands of actions run without standard input (`C118_stdin`): `os.open` of Python gives descriptors that are not inherited, and `Popen` in `executeCmd` does not set `stdin`. Number 0 is closed in the command, so that the first file it opens becomes its standard input. In the foreground they have that of the server. If the second fork fails, the child raises the error and the caller gets the same result as if a server ran (`C118_refuted_fork`). If files cannot be listed and `SC_OPEN_MAX` is -1 (no limit), nothing is closed and the daemon keeps the terminal as output (`C118_refuted_unlimited`).
* C119: What is read is the name without its last extension, not the file that was found. `fail2ban-regex LOG /etc/fail2ban/filter.d/sshd.bak` finds this copy and tests `sshd.conf` (`C119_refuted_copy`); a filter `my.filter.conf` named `my.filter` is found, and `my.conf` is tested, while `web.v2` (a dot in the last six characters) is an expression although there is `web.v2.conf` (`C119_refuted_dot`). As these six characters may be part of the path, `filter.d/nsd` is an expression, while `nsd` and `filter.d/sshd` are filters (`C119_refuted_short`). Outside of a configuration `/tmp/filter` finds `/tmp/filter.conf`, but `/tmp/filter` is read and the filter fails to load (`C119_refuted_foreign`). A file next to `jail.conf` is found, and the one with its name in `filter.d` is tested (`C119_refuted_config`).
* C120: `gc.set_threshold(0)` switches automatic collection of CPython off (the comment below says it should not be disabled), so that garbage is collected only if jails see failures or clean up. As `__init__` runs for every new jail though the object is the same, creating a jail resets the time and garbage may be collected twice in a second (`C120_refuted_new`). The counter is not protected: a thread may write an old value after a collection, and fewer than a hundred calls lead to the next one (`C120_refuted_count`).
* C121: If no file fulfils the patterns of `journalfiles`, the list of files is empty and the flags of the default are added (`C121_refuted_nofile`): nothing is said about the patterns. A value of `F2B_SYSTEMD_DEFAULT_FLAGS` that is no number makes every jail with this backend and without own files, path or flags fail.
* C122: A ticket made from another one shares its dictionary. `setData('city', None)` for the copy deletes the entry there but writes `None` into the data of the original, where `getData('city', default)` gives `None` from then on (`C122_refuted_none`). A `FailTicket` made from a `FailTicket` has no first time (`_firstTime` is no slot, `C122_refuted_first`), so `adjustTime` with a later time would raise a TypeError. Asking for a set of keys of empty data gives the default, not an empty dictionary (`C122_refuted_empty`). The server itself does not make tickets from others, it changes their class (`wrap`).
* C123: Ready numbers are looked up again before each event, but a connection accepted in the same pass may have got the number of one that was closed before in it; it then gets the event of the closed one (`C123_refuted_reused`). With poll, a connection that was closed while reading is written nevertheless, as the object is kept (`C123_refuted_closed`); with select it is not.
* C124: The exit code of an interactive session tells nothing about its commands: 0 after `exit` even if all failed, 255 at the end of input (Ctrl-D, or commands piped in) even if all succeeded, with an empty error message, as EOFError counts as exception (`C124_refuted_code`). `exit` or `help` with a blank before or after it, and lines of blanks, are sent to the server (`C124_refuted_blank`).
* C125: A single failing query (e.g. a timeout or a malformed record) cuts the lists of `status <jail> cymru` for all later addresses; the status does not show the error (`C125_refuted_cut`). The list of addresses and the lists on networks come from two reads of the ban list, so if a ban ends in between, entries stand beside wrong addresses (`C125_refuted_moved`).
* C126: Errors of input and output in a log call, as with a full disk, are raised in the code that logs (`C126_refuted_raise`). At a broken pipe the first handler of the logger is removed, whichever was broken, and flushing ends for the streams of all handlers, also intact ones (`C126_refuted_first`).
* C127: If the clock was in the future at a warning and is set right later, warnings of that kind are missing until the wrong time plus a day is reached (`C127_refuted_clock`), although a wrong clock is what these warnings are about.
* C128: Storage is by name only, so a reader with another directory gets the configuration of the first directory (`C128_refuted_base`), and that files are missing is remembered, even if they exist at the next read (`C128_refuted_late`); both matter only for programs that keep one storage for several directories or a long time.
* C129: The cache of looked up values is not cleared when `getOptions` is called again with other options, so tags asked before keep what was found with the old options (`C129_refuted_stale`, `C129_stays`). This occurs: the reader of a jail calls `getOptions` of its filter twice, first with the few options of the jail read at first, and `getCombined` looks up tags in between (jailreader.py 142, 170-171, 183). So a tag of a filter that is an option of the jail read only the second time stays as it was found (or not found) without it.
* C130: A log read while the filter is being stopped is not saved if the thread then dies by an exception, as `onStop` of the thread is called only when `run` returns (`C130_refuted_dies`); nor is one whose entry was taken when the database failed, as it is not put back (`C130_refuted_taken`), until it is read again. Its lines are then processed again after the next start.
