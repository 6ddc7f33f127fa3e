{"id": "C01", "title": "No ban below maxretry", "statement": "Whenever the failure manager hands an address over for banning, at least `maxretry` (the value in force at that moment) failures were reported for that address since the address was last handed over, expired or deleted.", "quantifier": "for every sequence of failure reports (any addresses, any time stamps, in any order), expirations, deletions, ban requests and runtime changes of maxretry/findtime/maxmatches", "why_tests_cant": "The stored counter is repeatedly rescaled by a rate estimate and reset by several paths; only an induction over all histories excludes an over-count.", "anchors": ["fail2ban/server/failmanager.py:FailManager.addFailure", "fail2ban/server/failmanager.py:FailManager.toBan", "fail2ban/server/failmanager.py:FailManager.cleanup", "fail2ban/server/ticket.py:FailTicket.adjustTime", "fail2ban/server/ticket.py:FailTicket.inc"]}
{"id": "C02", "title": "Prompt ban at maxretry inside findtime", "statement": "If failures of one address arrive with non-decreasing time stamps and every one of them lies within `findtime` of the first, then the n-th report returns exactly n, and as soon as n reaches `maxretry` the next ban request for that address returns its ticket, whatever happened to other addresses in between.", "quantifier": "for every number of failures, every time stamps inside the window, every interleaving with reports of other addresses", "why_tests_cant": "Needs exact counting for unboundedly many interleaved reports; tests pick a handful of counts and times.", "anchors": ["fail2ban/server/failmanager.py:FailManager.addFailure", "fail2ban/server/failmanager.py:FailManager.toBan", "fail2ban/server/ticket.py:FailTicket.adjustTime"]}
{"id": "C03", "title": "Only recent failures count", "statement": "An address is banned only if at least `maxretry` of its failures carry time stamps within the last `findtime` seconds before the newest one.", "quantifier": "for every history of reports of one address", "why_tests_cant": "The code estimates the in-window count from the average rate, so the claim can only be settled over all time-stamp patterns (it is false; the exact guarantee left is a bound by the rate estimate).", "anchors": ["fail2ban/server/ticket.py:FailTicket.adjustTime", "fail2ban/server/failmanager.py:FailManager.addFailure"]}
{"id": "C04", "title": "Expiry removes exactly the stale addresses", "statement": "After expiry at time t the tracked addresses are exactly those whose newest failure is later than t - findtime, with counters, matches and order untouched.", "quantifier": "for every content of the failure list and every time t, whichever of the three deletion strategies (all / few / rebuild) is chosen", "why_tests_cant": "The deletion strategy depends on the ratio of stale to live entries; tests exercise a few ratios only.", "anchors": ["fail2ban/server/failmanager.py:FailManager.cleanup"]}
{"id": "C05", "title": "Hand-over exactly once", "statement": "A ban request returns a ticket that has reached maxretry and removes exactly that ticket; it reports 'nothing to ban' only when no tracked address (or, if the requested address is tracked, not that address) has reached maxretry; hence a counted series of failures is never handed over twice and never silently dropped.", "quantifier": "for every failure list, every maxretry and every requested address (tracked or not, or none)", "why_tests_cant": "Quantifies over all list contents and the fall-through of an unknown requested address to the whole list.", "anchors": ["fail2ban/server/failmanager.py:FailManager.toBan", "fail2ban/server/failmanager.py:FailManager.delFailure"]}
{"id": "C06", "title": "Matched lines are bounded and are the newest ones", "statement": "The matched lines kept for an address never exceed `maxmatches` after a repeated failure, and they are the newest lines, in order, of all lines reported for it.", "quantifier": "for every history of reports with any number of lines per report", "why_tests_cant": "Bound and suffix relation must hold after arbitrarily many truncations.", "anchors": ["fail2ban/server/failmanager.py:FailManager.addFailure", "fail2ban/server/ticket.py:FailTicket.inc", "fail2ban/server/ticket.py:Ticket.setMatches", "fail2ban/server/ticket.py:Ticket.getMatches"]}
{"id": "C07", "title": "Total failure counter", "statement": "The total number of failures shown in the status equals the number of accepted failure reports since start; a report of the observer (or of an already banned ticket) for an untracked address is not counted.", "quantifier": "for every history of operations", "why_tests_cant": "Invariant over unbounded histories.", "anchors": ["fail2ban/server/failmanager.py:FailManager.addFailure", "fail2ban/server/failmanager.py:FailManager.getFailTotal"]}
{"id": "C08", "title": "Addresses do not influence each other", "statement": "A failure report for one address changes neither counter, time stamps nor lines of any other address, and never creates or removes another address.", "quantifier": "for every failure list and every report", "why_tests_cant": "A frame property over all states.", "anchors": ["fail2ban/server/failmanager.py:FailManager.addFailure"]}
{"id": "C09", "title": "Late log lines never move time backwards", "statement": "For a tracked address the recorded time of the newest failure never decreases, the window start never exceeds it, and a report older than the newest one still counts.", "quantifier": "for every order of arrival of time stamps", "why_tests_cant": "Needs all permutations of time stamps.", "anchors": ["fail2ban/server/ticket.py:FailTicket.adjustTime"]}
{"id": "C10", "title": "One active ban per address, never shortened by a second ban", "statement": "An address has at most one active ban; a second ban of a banned address is reported as 'already banned', does not increase the total, and never moves the end of the running ban to an earlier moment; if the second ban would end later, the running ban is extended to end no earlier than the second ban.", "quantifier": "for every ban list, every pair of tickets with any times and ban times, permanent or not, with ticket-specific or jail-default ban time", "why_tests_cant": "Case analysis over permanent/default/explicit ban times and time order that tests sample.", "anchors": ["fail2ban/server/banmanager.py:BanManager.addBanTicket", "fail2ban/server/ticket.py:Ticket.getEndOfBanTime"]}
{"id": "C11", "title": "No early unban", "statement": "Expiry at time t only ever releases bans whose end-of-ban moment is strictly before t.", "quantifier": "for every ban list reachable by any sequence of operations, every time, every limit on the number of released bans", "why_tests_cant": "Universal safety over all histories.", "anchors": ["fail2ban/server/banmanager.py:BanManager.unBanList", "fail2ban/server/actions.py:Actions.__checkUnBan"]}
{"id": "C12", "title": "Due bans are released", "statement": "If a ban's end moment lies before t, then an expiry check at t releases it, and with a limit of n per check, k due bans are all gone after at most ceil(k/n) checks. (Holds as long as the jail-wide default ban time was not lowered while bans relying on the default are active.)", "quantifier": "for every history of bans, prolongations, flushes and checks", "why_tests_cant": "The check is guarded by a cached 'next unban time'; that the cache never lags is an invariant over all histories (and it fails when the default is lowered).", "anchors": ["fail2ban/server/banmanager.py:BanManager.unBanList", "fail2ban/server/banmanager.py:BanManager.addBanTicket", "fail2ban/server/banmanager.py:BanManager.setBanTime"]}
{"id": "C13", "title": "Permanent bans never expire", "statement": "A ban with ban time -1 is never released by an expiry check, at any time up to the largest representable time.", "quantifier": "for every ban list and all times not beyond Ticket.MAX_TIME", "why_tests_cant": "Unbounded time.", "anchors": ["fail2ban/server/banmanager.py:BanManager.unBanList", "fail2ban/server/ticket.py:Ticket.getEndOfBanTime", "fail2ban/server/ticket.py:Ticket.isTimedOut"]}
{"id": "C14", "title": "Bans are conserved", "statement": "Every accepted ban is, at any later moment, either still active or was released exactly once by expiry, explicit unban or flush; nothing else appears in or disappears from the ban list.", "quantifier": "for every finite sequence of ban, expiry, unban and flush operations", "why_tests_cant": "A conservation law over unbounded histories.", "anchors": ["fail2ban/server/banmanager.py:BanManager.addBanTicket", "fail2ban/server/banmanager.py:BanManager.unBanList", "fail2ban/server/banmanager.py:BanManager.flushBanList", "fail2ban/server/banmanager.py:BanManager.getTicketByID"]}
{"id": "C15", "title": "Ban totals", "statement": "'Total banned' equals the number of accepted bans; 'currently banned' equals accepted bans minus released bans.", "quantifier": "for every finite sequence of operations", "why_tests_cant": "Invariant over unbounded histories.", "anchors": ["fail2ban/server/banmanager.py:BanManager.getBanTotal", "fail2ban/server/banmanager.py:BanManager.size", "fail2ban/server/actions.py:Actions.status"]}
{"id": "C16", "title": "Ordered ban list", "statement": "The ban list reported to the user contains every banned address exactly once, ordered by the moment its ban ends.", "quantifier": "for every ban list", "why_tests_cant": "Permutation and order over all lists.", "anchors": ["fail2ban/server/banmanager.py:BanManager.getBanList", "fail2ban/server/actions.py:Actions.getBanList"]}
{"id": "C17", "title": "Every action is executed for a new ban", "statement": "When an address becomes banned, the ban command of every configured action is executed exactly once for it, in configured order, even if some of these commands fail; for a ban restored from the database the actions marked `norestored` are skipped.", "quantifier": "for every list of actions and every pattern of failing actions", "why_tests_cant": "All subsets of failing actions.", "anchors": ["fail2ban/server/actions.py:Actions.__checkBan"]}
{"id": "C18", "title": "Every action is executed for an unban", "statement": "When a ban is released (expiry or explicit unban), the unban command of every configured action is executed exactly once for it, even if some of them fail; on flush, actions that flush successfully get one flush instead of per-address unbans and all others get one unban per address.", "quantifier": "for every list of actions, every pattern of failures and every ban list", "why_tests_cant": "All subsets of failing / flushable actions and all ban lists.", "anchors": ["fail2ban/server/actions.py:Actions.__unBan", "fail2ban/server/actions.py:Actions.__flushBan", "fail2ban/server/actions.py:Actions.__checkUnBan"]}
{"id": "C19", "title": "Stop leaves nothing behind", "statement": "When a jail stops, its ban list is empty afterwards, and every action got its stop executed exactly once, in reverse order of configuration, even if flushing, unbanning or stopping of some action fails.", "quantifier": "for every ban list, action list and failure pattern", "why_tests_cant": "All failure patterns.", "anchors": ["fail2ban/server/actions.py:Actions.run", "fail2ban/server/actions.py:Actions.stopActions", "fail2ban/server/actions.py:Actions.__flushBan"]}
{"id": "C20", "title": "Explicit unban", "statement": "`unbanip` of addresses removes exactly the given banned addresses, returns how many were banned, removes their records from the database even if they were not banned, and with --report-absent reports exactly the addresses that were not banned.", "quantifier": "for every ban list and every list of addresses, with repetitions", "why_tests_cant": "All lists incl. duplicates.", "anchors": ["fail2ban/server/actions.py:Actions.removeBannedIP", "fail2ban/server/server.py:Server.setUnbanIP"]}
{"id": "C21", "title": "Tickets from filter to actions: exactly once, in order", "statement": "Tickets put into a jail are taken out by the ban loop in the same order, each exactly once, whatever the interleaving of producers and the consumer.", "quantifier": "for every interleaving of put and get operations", "why_tests_cant": "All schedules.", "anchors": ["fail2ban/server/jail.py:Jail.putFailTicket", "fail2ban/server/jail.py:Jail.getFailTicket", "fail2ban/server/actions.py:Actions.__getFailTickets"]}
{"id": "C22", "title": "Unbanning is not starved by banning", "statement": "However many tickets are waiting, the ban loop performs an expiry check at the latest after 10 newly banned tickets plus one batch, and one batch never takes more than 10 tickets.", "quantifier": "for every sequence of batches", "why_tests_cant": "Unbounded loop executions.", "anchors": ["fail2ban/server/actions.py:Actions.run", "fail2ban/server/actions.py:Actions.__checkBan"]}
{"id": "C23", "title": "Increased ban time respects its limits", "statement": "With incremental ban time the computed time of a ban is at least the base time for the default formula with factor >= 1, never decreases with the number of earlier bans, and is at most `maxtime` plus `rndtime` if these are set.", "quantifier": "for every base time, ban count, factor, multiplier list, maxtime and random value", "why_tests_cant": "Arithmetic over unbounded integers.", "anchors": ["fail2ban/server/jail.py:Jail.setBanTimeExtra", "fail2ban/server/observer.py:ObserverThread.calcBanTime", "fail2ban/server/observer.py:ObserverThread.incrBanTime"]}
{"id": "C24", "title": "Known offenders get fewer attempts", "statement": "For an address banned n times before, each failure counts as min(2^(n-1)+1, maxretry) failures (n capped at 20), never less than 1 and never more than maxretry, and the ban limit is unaffected for other addresses.", "quantifier": "for every number of earlier bans and every maxretry", "why_tests_cant": "Unbounded arithmetic.", "anchors": ["fail2ban/server/observer.py:ObserverThread.failureFound"]}
{"id": "C25", "title": "Bans survive a restart with the same end", "statement": "A ban that was recorded in the database and is still running at restart is put back with the same address, start and end moment (end capped by the new jail's ban time limit where increments are disabled or a maximum is set); a ban that already ended, was removed by unban, or whose address is now ignored is not put back.", "quantifier": "for every database content and every restart moment (crash point)", "why_tests_cant": "All crash points and database contents.", "anchors": ["fail2ban/server/jail.py:Jail.restoreCurrentBans", "fail2ban/server/database.py:Fail2BanDb.getCurrentBans", "fail2ban/server/database.py:Fail2BanDb._getCurrentBans"]}
{"id": "C26", "title": "Restored bans are not recorded again", "statement": "Putting back a ban from the database never adds a further record of it, so that restarts do not change the number of recorded bans of an address.", "quantifier": "for every sequence of restarts", "why_tests_cant": "Unbounded number of restarts.", "anchors": ["fail2ban/server/observer.py:ObserverThread.banFound", "fail2ban/server/actions.py:Actions.__checkBan", "fail2ban/server/jail.py:Jail.restoreCurrentBans"]}
{"id": "C27", "title": "The current-ban table holds the latest ban per address and jail", "statement": "After any history of ban records and removals there is at most one current record per (address, jail), and it is the latest recorded one since the last removal; the history table only ever grows by recorded bans (until purged).", "quantifier": "for every sequence of addBan and delBan", "why_tests_cant": "Unbounded histories.", "anchors": ["fail2ban/server/database.py:Fail2BanDb.addBan", "fail2ban/server/database.py:Fail2BanDb.delBan"]}
{"id": "C28", "title": "Purge keeps what is still needed", "statement": "Purging never removes from the table of current bans a permanent ban, a ban that has not ended, or a record younger than the purge age; everything purged (also from the history) is older than the purge age, and a jail is only forgotten if it is disabled and has no records left.", "quantifier": "for every database content and moment", "why_tests_cant": "All contents.", "anchors": ["fail2ban/server/database.py:Fail2BanDb.purge", "fail2ban/server/database.py:Fail2BanDb._purge_bips", "fail2ban/server/database.py:Fail2BanDb._cleanjails"]}
{"id": "C29", "title": "Log position resume", "statement": "On restart a log file is continued at the stored position exactly if its first line is unchanged since the position was stored; otherwise it is read from the beginning.", "quantifier": "for every stored log state and file content", "why_tests_cant": "All combinations of stored and current states.", "anchors": ["fail2ban/server/database.py:Fail2BanDb._addLog", "fail2ban/server/database.py:Fail2BanDb.updateLog", "fail2ban/server/filter.py:FileFilter.addLogPath"]}
{"id": "C30", "title": "Network membership", "statement": "An address is reported to be inside a network a/n exactly if both are of the same family and the first n bits agree.", "quantifier": "for all 32-bit and 128-bit addresses and all prefix lengths", "why_tests_cant": "2^256 pairs.", "anchors": ["fail2ban/server/ipdns.py:IPAddr.isInNet", "fail2ban/server/ipdns.py:IPAddr.contains", "fail2ban/server/ipdns.py:IPAddr.__init"]}
{"id": "C31", "title": "Address normalization", "statement": "An IPv4-mapped IPv6 address denotes the same address as its IPv4 form, a network is identified by its masked address and prefix only, and equal addresses have equal text (hence equal hash).", "quantifier": "for all addresses and prefix lengths", "why_tests_cant": "2^128 inputs.", "anchors": ["fail2ban/server/ipdns.py:IPAddr.__init", "fail2ban/server/ipdns.py:IPAddr.__eq__", "fail2ban/server/ipdns.py:IPAddr.__hash__", "fail2ban/server/ipdns.py:IPAddr.ntoa"]}
{"id": "C32", "title": "Netmasks", "statement": "A netmask is accepted exactly if it is a contiguous prefix mask of its family, and it is then equivalent to the prefix length equal to its number of leading one bits.", "quantifier": "for all 32-bit and 128-bit masks", "why_tests_cant": "2^128 inputs.", "anchors": ["fail2ban/server/ipdns.py:IPAddr.masktoplen", "fail2ban/server/ipdns.py:IPAddr.maskplen"]}
{"id": "C33", "title": "Ignored addresses are never counted", "statement": "A log line for an address that is in the ignore list (address, network, own address, or accepted by the ignore command) neither counts as failure nor leads to a ban or an observer event.", "quantifier": "for every ignore configuration, every address and every line", "why_tests_cant": "All configurations.", "anchors": ["fail2ban/server/filter.py:Filter.inIgnoreIPList", "fail2ban/server/filter.py:Filter._inIgnoreIPList", "fail2ban/server/filter.py:Filter.processLineAndAdd"]}
{"id": "C34", "title": "Ignore decision does not depend on the cache", "statement": "With the ignore cache enabled the decision for an address is the same as without it, as long as the configuration did not change during the life time of the cached entry.", "quantifier": "for every sequence of queries", "why_tests_cant": "Unbounded histories, cache eviction.", "anchors": ["fail2ban/server/filter.py:Filter._inIgnoreIPList", "fail2ban/server/utils.py:Utils.Cache"]}
{"id": "C35", "title": "Old log lines are not counted, future ones are clamped", "statement": "While catching up, a line older than findtime yields no failure; every failure handed to the failure manager has a time stamp not in the future of the current time.", "quantifier": "for every line date, current time and findtime, in and out of operation mode", "why_tests_cant": "Unbounded integers.", "anchors": ["fail2ban/server/filter.py:Filter.processLine", "fail2ban/server/filter.py:Filter.processLineAndAdd"]}
{"id": "C36", "title": "A broken jail goes idle instead of spinning", "statement": "The jail is put to idle as soon as 100 errors accumulated without enough successful lines in between, and never with fewer than 100 errors since start; each successful line halves the error count.", "quantifier": "for every sequence of errors and successes", "why_tests_cant": "Unbounded sequences.", "anchors": ["fail2ban/server/filter.py:Filter.commonError", "fail2ban/server/filter.py:Filter.processLineAndAdd"]}
{"id": "C37", "title": "Each complete log line is processed exactly once and in order", "statement": "Reading a growing log file in any number of passes, with any amount of data appended between and during passes, delivers exactly the complete lines of the file, each once, in order; an incomplete last line is delivered only after it is completed.", "quantifier": "for every file content and every way the content arrives over time", "why_tests_cant": "All splits of all contents.", "anchors": ["fail2ban/server/filter.py:FileContainer.open", "fail2ban/server/filter.py:FileContainer.readline", "fail2ban/server/filter.py:FileContainer.close"]}
{"id": "C38", "title": "Rotation and truncation are noticed", "statement": "If the file was replaced or truncated between two passes (another inode, shorter, or different first line), reading restarts at the beginning; otherwise it continues at the last position.", "quantifier": "for every pair of file states between passes", "why_tests_cant": "All pairs.", "anchors": ["fail2ban/server/filter.py:FileContainer.open"]}
{"id": "C39", "title": "Caches are bounded and never return stale entries", "statement": "A cache never holds more than maxCount entries (maxCount >= 1), never returns an entry older than maxTime, and a lookup returns the value stored last under that key or nothing.", "quantifier": "for every sequence of set/get/unset/clear with any clock", "why_tests_cant": "Unbounded histories.", "anchors": ["fail2ban/server/utils.py:Utils.Cache"]}
{"id": "C40", "title": "Attacker-controlled values cannot inject shell syntax", "statement": "In a command built for an action, a dynamic value that contains any shell-special character is never part of the command text: it is passed as positional argument and referenced through a variable; values part of the text contain no special characters, and values are never expanded for tags again.", "quantifier": "for every command template and all values", "why_tests_cant": "All strings.", "anchors": ["fail2ban/server/action.py:CommandAction.replaceDynamicTags", "fail2ban/server/action.py:CommandAction.escapeTag", "fail2ban/server/utils.py:Utils.buildShellCmd"]}
{"id": "C41", "title": "Start on demand", "statement": "For an action started on demand, the start command for a family is executed before the first ban of that family and not again until it was stopped or found broken; stop is executed only for families that were started.", "quantifier": "for every sequence of bans, unbans, flushes, stops and command failures", "why_tests_cant": "All schedules and failures.", "anchors": ["fail2ban/server/action.py:CommandAction.ban", "fail2ban/server/action.py:CommandAction._start", "fail2ban/server/action.py:CommandAction.stop", "fail2ban/server/action.py:CommandAction.flush"]}
{"id": "C42", "title": "Tag interpolation terminates and is complete", "statement": "Recursive substitution of tags in action definitions always terminates; it either reports self-reference or yields values in which no known, non-ignored tag is left.", "quantifier": "for every dictionary of definitions", "why_tests_cant": "All dictionaries; termination.", "anchors": ["fail2ban/helpers.py:substituteRecursiveTags"]}
{"id": "C43", "title": "Messages between client and server", "statement": "However the transport splits the bytes of a connection, the server gets exactly the messages sent (provided an encoded message does not contain the end marker), answers every one of them once and in order, an undecodable one by an error without effect on the others, sends these answers completely whatever number of bytes the socket takes at a time, also before it closes the connection on request; and the client gets exactly the result of its request, or an error if the connection was closed before the end of the answer.", "quantifier": "for every list of messages, every way of splitting into chunks, every interleaving of reading and writing, every behaviour of the socket, every request processor", "why_tests_cant": "All splits and interleavings.", "anchors": ["fail2ban/server/asyncserver.py:RequestHandler", "fail2ban/client/csocket.py:CSocket.receive", "fail2ban/compat/asynchat.py:async_chat.handle_read", "fail2ban/compat/asynchat.py:async_chat.initiate_send"]}
{"id": "C44", "title": "Reload converges to the new configuration", "statement": "After a reload that raised no exception, of a server on which all jails run, exactly the jails of the new configuration run, and the database knows it. Each has the regular expressions, ignored addresses, log files and options of the configuration. Jails with the same backend stay: their bans are unchanged and the actions that stay get no other call than one reload. Jails with another backend are stopped and set up anew, jails that are no longer configured are stopped and deleted. The same holds at the start, for a restart (where all jails are new) and for one jail (where all others stay as they are). If a command raises an exception before the first jail is started again, no jail runs afterwards.", "quantifier": "for every server whose jails run, every new configuration and all results of the actions", "why_tests_cant": "All pairs of configurations and all results of actions; tests reload a handful of sample configurations.", "anchors": ["fail2ban/server/server.py:Server.reloadJails", "fail2ban/server/server.py:Server.addJail", "fail2ban/server/server.py:Server.startJail", "fail2ban/server/server.py:Server.delJail", "fail2ban/server/transmitter.py:Transmitter.__commandHandler"]}
{"id": "C45", "title": "Later configuration files override earlier ones", "statement": "The effective value of an option is the one of the last read file that sets it (.conf, .d/*.conf, .local, .d/*.local; includes 'before' earlier, 'after' later), and the value it had before stays available as known/option. References in values are replaced by the values they stand for.", "quantifier": "for every set of files, sections, includes without endless recursion, options and values", "why_tests_cant": "All configurations: any number of files, sections and nested includes in any order.", "anchors": ["fail2ban/client/configparserinc.py:SafeConfigParserWithIncludes.read", "fail2ban/client/configreader.py:ConfigReaderUnshared.read"]}
{"id": "C46", "title": "Executed commands match the ban list", "statement": "For each action, an address is banned according to the ban, unban and flush commands executed so far exactly if it is in the ban list of the jail (restored bans are not required for actions marked `norestored`).", "quantifier": "for every sequence of bans, re-bans, expiry checks, explicit unbans, flushes, prolongations and every pattern of failing commands (consistency checks not raising)", "why_tests_cant": "Invariant over unbounded histories and all failure patterns.", "anchors": ["fail2ban/server/actions.py:Actions.__checkBan", "fail2ban/server/actions.py:Actions.__unBan", "fail2ban/server/actions.py:Actions.__flushBan", "fail2ban/server/actions.py:Actions.removeBannedIP"]}
{"id": "C47", "title": "Actions on reload", "statement": "At the end of a reload of a jail exactly the actions contained in the new configuration stay, each kept one is reloaded once, every removed one gets its bans removed and is then stopped, and the bans of the jail do not change.", "quantifier": "for every set of actions, new configuration, ban list and failure pattern", "why_tests_cant": "All configurations and failure patterns.", "anchors": ["fail2ban/server/actions.py:Actions.reload", "fail2ban/server/actions.py:Actions.add", "fail2ban/server/actions.py:Actions.__flushBan"]}
{"id": "C48", "title": "Every action is started", "statement": "When the actions of a jail start, every configured action gets exactly one start command, in configured order, whether or not other actions fail to start, and no ban is touched.", "quantifier": "for every set of actions, ban list and failure pattern of start commands", "why_tests_cant": "All sets of actions and failure patterns.", "anchors": ["fail2ban/server/actions.py:Actions.run"]}
{"id": "C49", "title": "Prolongation reaches the right actions", "statement": "When a ban is prolonged, exactly the actions which support prolongation (and, for a restored ban, are not excluded from restored bans) are told once each, in order; if the address is no longer banned nothing is done. The ban list does not change.", "quantifier": "for every actions state, ticket and failure pattern", "why_tests_cant": "All states, tickets and failure patterns.", "anchors": ["fail2ban/server/actions.py:Actions._prolongBan"]}
{"id": "C50", "title": "Text to addresses", "statement": "A text that is a plain IPv4 or IPv6 address (also in brackets) yields exactly that address, without any name resolution, whatever the setting of usedns; any other text is resolved if and only if usedns is enabled, and with usedns=no yields nothing.", "quantifier": "for every 32 bit and 128 bit address, every text, every resolver and every usedns setting", "why_tests_cant": "All addresses, texts and answers of the resolver.", "anchors": ["fail2ban/server/ipdns.py:DNSUtils.textToIp", "fail2ban/server/ipdns.py:IPAddr.searchIP", "fail2ban/server/filter.py:Filter.findFailure"]}
{"id": "C51", "title": "Reverse DNS name, hexadecimal form and order of addresses", "statement": "The reverse DNS name of an IPv4 address is its parts in reversed order followed by in-addr.arpa., that of an IPv6 address its 32 hexadecimal digits from the least significant on followed by ip6.arpa.; the hexadecimal form has 8 or 32 digits; comparing two addresses orders them by family and number.", "quantifier": "for every address of either family", "why_tests_cant": "2^32 and 2^128 addresses.", "anchors": ["fail2ban/server/ipdns.py:IPAddr.getPTR", "fail2ban/server/ipdns.py:IPAddr.hexdump", "fail2ban/server/ipdns.py:IPAddr.__lt__"]}
{"id": "C52", "title": "From log lines to bans", "statement": "Every ticket a filter hands over to be banned has at least maxretry failures, and n bans of an address consume at least n*maxretry distinct, not ignored failures found in the log; after every line no tracked address is at or above maxretry; an address with maxretry failures inside findtime is handed over while the line with the last of them is processed.", "quantifier": "for every history of log lines (any dates, any addresses, any ignore configuration, failing searches and commands in between), every maxretry and findtime", "why_tests_cant": "Unbounded histories with interleaved addresses, expiry and errors.", "anchors": ["fail2ban/server/filter.py:Filter.processLineAndAdd", "fail2ban/server/filter.py:Filter.performBan", "fail2ban/server/filter.py:Filter.performSvc", "fail2ban/server/failmanager.py:FailManager.toBan", "fail2ban/server/filter.py:Filter.addAttempt"]}
{"id": "C53", "title": "Merged ban information is right", "statement": "The information handed to actions about all earlier bans of an address (sum of failures, newest lines, time of the last ban) equals the one computed from the recorded bans at that moment, whatever was asked, recorded or removed before.", "quantifier": "for every history of bans, removals and queries", "why_tests_cant": "The result is cached; staleness depends on the interleaving of queries and changes, of which tests sample a few.", "anchors": ["fail2ban/server/database.py:Fail2BanDb.getBansMerged", "fail2ban/server/database.py:Fail2BanDb.addBan", "fail2ban/server/database.py:Fail2BanDb.delBan"]}
{"id": "C54", "title": "The initial search for the start time skips nothing recent", "statement": "When a log file is read the first time, the search for the line to start at always ends, moves the position only forward and to the start of a line (or the end of the file), and never behind the end of all lines older than the find time; so if the times of the lines never decrease, no line within the find time is skipped.", "quantifier": "for every file content, every assignment of times to lines, every start position and find time", "why_tests_cant": "All contents and interleavings of dated and undated lines; a half-interval search with several heuristics.", "anchors": ["fail2ban/server/filter.py:FileFilter.seekToTime", "fail2ban/server/filter.py:FileFilter.getFailures", "fail2ban/server/filter.py:FileContainer.seek"]}
{"id": "C55", "title": "Bans of an action are removed", "statement": "As long as a successful ban of a family was not followed by a flush, a stop or a loss of the environment, an unban of the family executes the unban command, and a flush executes the flush command of that family; a flush reports success only if all its commands succeeded.", "quantifier": "for every configuration of an action, every sequence of calls and change of parameters and every pattern of failing commands", "why_tests_cant": "All sequences of calls and failures of two families.", "anchors": ["fail2ban/server/action.py:CommandAction.unban", "fail2ban/server/action.py:CommandAction.flush", "fail2ban/server/action.py:CommandAction._executeOperation", "fail2ban/server/action.py:CommandAction._operationExecuted"]}
{"id": "C56", "title": "Failing commands are retried once in a sane environment", "statement": "A ban, re-ban, unban or prolong command that fails is executed once more and not more often; before that the environment is checked and, if broken, repaired or restarted, in that order; if it stays broken the command is not executed again. The call succeeds exactly if the last execution succeeded. Restoring the environment starts a new epoch of bans. A failing unban does not restore the environment unless configured. Stop, flush and reload succeed exactly if all commands they executed succeeded.", "quantifier": "for every state and configuration of an action and every pattern of failing commands", "why_tests_cant": "All patterns of failing commands.", "anchors": ["fail2ban/server/action.py:CommandAction._processCmd", "fail2ban/server/action.py:CommandAction._invariantCheck", "fail2ban/server/action.py:CommandAction._executeOperation", "fail2ban/server/action.py:CommandAction.consistencyCheck"]}
{"id": "C57", "title": "Lines of one connection are put together", "statement": "Log lines that carry the identifier of a connection (<F-MLFID>) are answered as the whole remembered history of that connection requires: a failure is reported as soon as the host is known, with all lines since the last report, the last known values and all users; lines marked as no failure are not, unless several users were tried or a failure is still waiting for its host; a log in of the only user drops waiting failures. Each line is reported at most once, in order. Other connections do not matter, a closed connection is forgotten, and memory is limited only by the age (300 s) and the number (100) of connections.", "quantifier": "for every filter, every history of log lines of any number of interleaved connections and every time", "why_tests_cant": "Unbounded interleavings of connections with flags that interact (nofail, gained, forget, pending, users).", "anchors": ["fail2ban/server/filter.py:Filter._mergeFailure", "fail2ban/server/filter.py:Filter.findFailure", "fail2ban/server/filter.py:Filter._updateUsers"]}
{"id": "C58", "title": "What a log line amounts to", "statement": "A line is a failure exactly if the prefix expression matches, an expression for failures matches the content, and no expression for lines to be ignored does; the first matching one counts, its values replace the ones of the prefix, and the failure is reported for the captured id, address or every address of the host name.", "quantifier": "for every set of expressions (as functions of the text), every line and every state", "why_tests_cant": "All combinations of expressions, lines and captured groups.", "anchors": ["fail2ban/server/filter.py:Filter.findFailure", "fail2ban/server/filter.py:Filter._ignoreLine"]}
{"id": "C59", "title": "Matches over several lines", "statement": "With maxlines > 1 the last maxlines lines are searched together. A match takes exactly its lines apart from the skipped ones, the others stay for later searches in order, so every line is part of at most one reported failure; never more than maxlines lines are kept.", "quantifier": "for every sequence of lines, every maxlines and every set of expressions", "why_tests_cant": "All buffers, spans and positions of skipped lines.", "anchors": ["fail2ban/server/failregex.py:Regex.search", "fail2ban/server/filter.py:Filter.findFailure"]}
{"id": "C60", "title": "A date is understood as it is written", "statement": "A complete date of a log line (year, month, day or day of the year or week and weekday, time on a 24 or 12 hour clock) is converted to the Unix time of exactly this moment of the Gregorian calendar in the written time zone, else in the configured one, else in the one of the computer; the current time is irrelevant. A day or time that does not exist and an unknown zone give no time. Labels TAI64N are taken as seconds since 1970 (the offset of TAI to UTC is not considered).", "quantifier": "for every date of the years 2 to 9998, every set and order of fields, every zone and every current time", "why_tests_cant": "All dates, leap years, zones and combinations of fields.", "anchors": ["fail2ban/server/strptime.py:reGroupDictStrptime", "fail2ban/server/strptime.py:zone2offset", "fail2ban/server/strptime.py:validateTimeZone", "fail2ban/server/datetemplate.py:DateTai64n.getDate"]}
{"id": "C61", "title": "What is missing in a date is taken from the current time", "statement": "A time of the day without date means the last 24 hours. A date without year means the moment that is not in the future: every moment of the last 300 days is recovered from its month, day and time, in particular across the turn of the year and leap days; so is one up to a day ahead. This holds for local times and for times with a zone.", "quantifier": "for every current time, every moment before it and every zone", "why_tests_cant": "All pairs of current time and log time, including turns of day and year.", "anchors": ["fail2ban/server/strptime.py:reGroupDictStrptime"]}
{"id": "C62", "title": "The date of a line is found whatever the lines before were", "statement": "The search for the date of a line finds a date exactly if one of the date patterns of the jail (or the default ones, if none is given) finds one in this line; it does not depend on which lines came before, although the patterns are reordered by use. The date returned is one found by the returned pattern. Patterns are never lost or duplicated; a pattern is moved forward only, past patterns of less weight or not used for five minutes; patterns that found no date yet come last, in the given order. The search never fails with an exception.", "quantifier": "for every list of patterns, every sequence of lines before, every line and all current times", "why_tests_cant": "All sequences of lines and the states of order and counters they lead to.", "anchors": ["fail2ban/server/datedetector.py:DateDetector.matchTime", "fail2ban/server/datedetector.py:DateDetector._reorderTemplate", "fail2ban/server/datedetector.py:DateDetector._appendTemplate", "fail2ban/server/datedetector.py:DateDetectorTemplate.weight"]}
{"id": "C63", "title": "Text of a message does not change which date of a line is used", "statement": "While lines have their date at the same place between the same characters, or a date of the anchored pattern used last, this date is used whatever else the lines contain. Otherwise the first date in the order of patterns that ends the search is used, else the one nearest to the begin of the line. A date at the begin of a line has precedence over dates within its text.", "quantifier": "for every list of patterns, every sequence of lines and every text around the dates", "why_tests_cant": "All texts an attacker may put in a line, and all states of the detector.", "anchors": ["fail2ban/server/datedetector.py:DateDetector.matchTime"]}
{"id": "C64", "title": "Durations are read as the sum of their items", "statement": "A duration written as numbers with units (any documented spelling, upper or lower case, with or without spaces between number and unit), one after the other with or without spaces or joined with + and -, is read as the sum or difference of number times seconds of the unit; a month is a twelfth of a year, a year has 365.25 days. A plain number is a number of seconds; -1 is read as -1. Numbers have no superfluous zero at their begin.", "quantifier": "for every number of items, all decimal numbers, spellings, separators and spaces", "why_tests_cant": "The text is rewritten by nine regular expressions one after the other; tests try a dozen of durations, not all texts they may interfere in.", "anchors": ["fail2ban/server/mytime.py:MyTime.str2seconds"]}
{"id": "C65", "title": "Durations shown in the log are right and can be entered again", "statement": "The text shown for a duration consists of its groups (each less than the unit of the group before, groups of zero left out), rounded half to even to days from a year of 365 days, to hours from a week, to minutes from a day, to ten seconds of which the minutes are shown from an hour less five seconds, and exact below. Entered in the configuration, the text is read as the duration within the precision shown.", "quantifier": "for every number of seconds", "why_tests_cant": "All durations, with the limits where rounding carries over to the next group.", "anchors": ["fail2ban/server/mytime.py:MyTime.seconds2str", "fail2ban/server/mytime.py:MyTime.str2seconds"]}
{"id": "C66", "title": "A jail gets the settings of its configuration", "statement": "A jail that is converted runs on the server with exactly what its configuration says: the regular expressions of the filter followed by those of the jail (each non-empty line one expression), the options of the jail with their own values, ignored addresses as the words of ignoreip, all files that exist for the lines of logpath, and its actions; options that only concern the client are not sent. usedns, maxlines and prefregex are set before any regular expression, log files after all parameters, actions last. A value given in the jail takes precedence over the one of the filter.", "quantifier": "for every list of jails, every filter, every set of options and files, and every start of a server", "why_tests_cant": "Options combine with those of the filter in any order and number; tests compare streams of a few shipped configurations.", "anchors": ["fail2ban/client/jailreader.py:JailReader.convert", "fail2ban/client/filterreader.py:FilterReader._fillStream", "fail2ban/client/filterreader.py:FilterReader.convert", "fail2ban/client/jailsreader.py:JailsReader.convert", "fail2ban/helpers.py:splitwords"]}
{"id": "C67", "title": "Where the value of an option comes from", "statement": "Each option of a jail is read from its section, converted to its type, with the default if it is missing or wrong, and nothing else is read. Options of its filter are those given as parameters in the jail, else those of [Init], else nothing if the jail has the option itself, else those of [Definition]. The log type is told to the filter by the backend unless it is given. A jail is left out exactly if it is not enabled and not asked for.", "quantifier": "for every content of the configuration files, every parameter list and backend", "why_tests_cant": "There are four places a value may come from, in every combination, for every option.", "anchors": ["fail2ban/client/configreader.py:ConfigReaderUnshared.getOptions", "fail2ban/client/configreader.py:DefinitionInitConfigReader.getOptions", "fail2ban/client/configreader.py:DefinitionInitConfigReader.getCombined", "fail2ban/client/configreader.py:DefinitionInitConfigReader.convertOptions", "fail2ban/client/filterreader.py:FilterReader.applyAutoOptions", "fail2ban/client/jailreader.py:JailReader.getOptions"]}
{"id": "C68", "title": "Jails are all set up before the first starts, and broken jails are skipped or reported", "statement": "The stream for the server has the commands of all jails in order and then one start for each jail that is not skipped. A jail is skipped, with an error in place of its commands, only if its configuration could not be read or it may be skipped and has no log file. Without any log file and without permission to skip, reading the configuration fails; it fails only if some jail fails.", "quantifier": "for every list of jails and every set of existing files", "why_tests_cant": "Any number of jails, each of them good, broken or without files, in any order.", "anchors": ["fail2ban/client/jailsreader.py:JailsReader.convert", "fail2ban/client/jailreader.py:JailReader.convert"]}
{"id": "C69", "title": "Options in brackets mean what the grammar says", "statement": "extractOptions accepts exactly the texts that consist of a name without '[', optionally followed by groups of options in brackets: keys, '=', values in quotes or bare up to ',' or ']', separated by ',' or '][' (white space allowed between). For these it gives the name and for each key the last value given, without white space around it. A value in quotes is taken as it is, whatever it contains, and does not influence the other options. Every other text is a ValueError, never a part of the options.", "quantifier": "for all texts, and all classes of white space and letters in which the characters with a meaning are neither", "why_tests_cant": "The syntax is given by two regular expressions with backtracking, lazy interplay of quotes, commas and brackets; examples cannot show that each text outside the grammar is an error and that each text within has only this meaning.", "anchors": ["fail2ban/helpers.py:extractOptions"]}
{"id": "C70", "title": "A list of actions is split into its entries", "statement": "A list of names with options, separated by white space, is read entry by entry and in order, even if values in quotes contain newlines, brackets, commas and what looks like further entries; splitting loses nothing but white space; the list is rejected exactly if one of its parts is not a name with options.", "quantifier": "for all texts, all lists of entries and all ways to write them, all classes of characters as in C69", "why_tests_cant": "Splitting works by a regular expression that has to find the end of each entry by backtracking over quotes and brackets; only a proof covers nested quotes and brackets of any length and number.", "anchors": ["fail2ban/helpers.py:splitWithOptions", "fail2ban/client/jailreader.py:JailReader.getOptions"]}
{"id": "C71", "title": "An action gets the settings of its file and parameters", "statement": "For each action of a jail the client sends that it is added and then its properties, each once: the settings (commands and switches), taken from the parameters in the jail, else from [Init], else from [Definition] of the file, after substitution of tags and with switches as booleans; and all other parameters and options of [Init] as they are. name and actname are always among them. Modules in Python get their options with the command that adds them. The actions of a jail are rejected exactly if their list is malformed or a file is missing.", "quantifier": "for all lists of actions, contents of files, options of jails, names of jails, and substitutions of tags", "why_tests_cant": "Values go through merging of three sources, two dictionaries with different treatment and conversion; tests look at some files of the distribution, while users write their own actions and parameters.", "anchors": ["fail2ban/client/actionreader.py:ActionReader.__init__", "fail2ban/client/actionreader.py:ActionReader.convert", "fail2ban/client/configreader.py:DefinitionInitConfigReader.getOptions", "fail2ban/client/configreader.py:DefinitionInitConfigReader.getCombined", "fail2ban/client/jailreader.py:JailReader.getOptions"]}
{"id": "C72", "title": "Actions of a jail have different names", "statement": "All actions of a jail are added to it, in the order of the configuration, each with its own name: actname if given, else the file and what distinguishes parameter name from the name of the jail. Actions of different files, or of the same file with different parameters name, get different names.", "quantifier": "for all lists of actions with or without parameters, and all names of jails", "why_tests_cant": "Whether names made of a file and a suffix may coincide is a question about all pairs of texts.", "anchors": ["fail2ban/client/actionreader.py:ActionReader.__init__", "fail2ban/server/actions.py:Actions.add", "fail2ban/server/transmitter.py:Transmitter.__commandSet"]}
{"id": "C73", "title": "An action on the server has the properties sent for it", "statement": "After the commands for an action it has the properties sent, and the defaults for all others, also if it existed before and is reloaded; other actions are not touched. The properties used to substitute tags are always the current ones, although they are remembered.", "quantifier": "for all states of the server, lists of properties, names of methods and conversions of durations", "why_tests_cant": "Properties that remain from an earlier configuration, or stale values in the cache, depend on the sequence of configurations and commands; tests run a few of them.", "anchors": ["fail2ban/server/action.py:CommandAction.__setattr__", "fail2ban/server/action.py:CommandAction.clearAllParams", "fail2ban/server/action.py:CommandAction._properties", "fail2ban/server/actions.py:Actions.add", "fail2ban/server/transmitter.py:Transmitter.__commandSet"]}
{"id": "C74", "title": "Polling reads each modification of a log", "statement": "If a log file is modified, it is read up to its end in the next pass of the polling filter, whatever other threads, other logs and earlier passes do, and nothing that was read is missed later. A file that is absent for 51 checks in a row is removed from the logs, other files are not touched by this; the hundredth error in a row makes the filter idle.", "quantifier": "for all interleavings of modifications, commands, passes and errors, and all results of stat", "why_tests_cant": "Whether a modification between looking at a file and reading it is lost depends on the interleaving with the writer; tests write a file and wait.", "anchors": ["fail2ban/server/filterpoll.py:FilterPoll.isModified", "fail2ban/server/filterpoll.py:FilterPoll.getModified", "fail2ban/server/filterpoll.py:FilterPoll.run", "fail2ban/server/filter.py:FileFilter.getFailures", "fail2ban/server/filter.py:Filter.commonError"]}
{"id": "C75", "title": "Files and directories that come back are noticed", "statement": "With notification (pyinotify), a log file or directory that disappeared is looked for with growing delay; as soon as it is there again after its delay, its watch is renewed, and the file, or each log in the directory, is read then; logs that are missing in the directory are looked for in turn. Nothing else is read by this. A single file with a delay of at most a minute is read within two delays.", "quantifier": "for all sequences of commands, events and checks, states of the file system and times", "why_tests_cant": "The delays and the time of the next check of all paths that are waited for interact over hours; tests wait seconds.", "anchors": ["fail2ban/server/filterpyinotify.py:FilterPyinotify._checkPending", "fail2ban/server/filterpyinotify.py:FilterPyinotify._addPending", "fail2ban/server/filterpyinotify.py:FilterPyinotify._delPending", "fail2ban/server/filterpyinotify.py:FilterPyinotify._refreshWatcher"]}
{"id": "C76", "title": "Watches are those of the logs", "statement": "At any time exactly the logs are watched, each once, and their directories; watches set and removed are those the filter knows. An event for a log that is there is answered by reading it (with renewed watch if it was created), for a path that is gone by waiting for it; events for other paths do nothing. Adding and removing a log sets and removes its watches and that of the directory if there is no other log in it.", "quantifier": "for all sequences of commands, events and checks and states of the file system", "why_tests_cant": "Watches get lost or left over by particular sequences of rotations and commands in several directories; tests try a few.", "anchors": ["fail2ban/server/filterpyinotify.py:FilterPyinotify.callback", "fail2ban/server/filterpyinotify.py:FilterPyinotify._addLogPath", "fail2ban/server/filterpyinotify.py:FilterPyinotify._delLogPath", "fail2ban/server/filterpyinotify.py:FilterPyinotify._addFileWatcher", "fail2ban/server/filterpyinotify.py:FilterPyinotify._delDirWatcher"]}
{"id": "C77", "title": "Journal matches select what is shown", "statement": "After any sequence of commands adding, deleting and clearing journal matches, also refused ones, the journal reader of a jail gives exactly the entries wanted by the list of matches that is shown: those that fulfil one of them, or all if there are none. A command with several matches joined by + adds all of them or, if one element is refused, none and reports an error; deleting removes one match and keeps the others in order.", "quantifier": "for all sequences of commands, all matches, all sets of refused elements and all entries", "why_tests_cant": "The reader has its own state that is built up by calls and can differ from the list of matches after errors and deletions; tests add and delete one match.", "anchors": ["fail2ban/server/filtersystemd.py:FilterSystemd._addJournalMatches", "fail2ban/server/filtersystemd.py:FilterSystemd.addJournalMatch", "fail2ban/server/filtersystemd.py:FilterSystemd.resetJournalMatches", "fail2ban/server/filtersystemd.py:FilterSystemd.delJournalMatch"]}
{"id": "C78", "title": "A journal entry becomes one log line", "statement": "The line of a journal entry is host name, program with process in brackets and colon (and for the kernel its time), and the message, each end of a line in it written as \\n, so it is always a single line. The message, that may be controlled by an attacker, has no influence on what is before it. The time is that of the source if there is one, else that of receipt. Different messages give different lines.", "quantifier": "for all entries", "why_tests_cant": "Lines are built from many optional fields and from messages with any content; tests use a few entries.", "anchors": ["fail2ban/server/filtersystemd.py:FilterSystemd.formatJournalEntry", "fail2ban/server/filtersystemd.py:FilterSystemd.getJrnEntTime"]}
{"id": "C79", "title": "Each journal entry is processed once and in order", "statement": "From its start on, a jail with the systemd backend processes each entry of the journal that is given to it exactly once and in order, whatever happens in between: new entries, errors of reading, being idle, being stopped. It starts with the first entry after the position known from before, but not with entries older than the find time. If it is active and not idle, it reads to the end of the journal.", "quantifier": "for all journals, positions, times and interleavings of steps of the loop with new entries, errors and commands", "why_tests_cant": "Loss or repetition of entries depends on interleavings and on errors at particular moments; tests write some entries and wait.", "anchors": ["fail2ban/server/filtersystemd.py:FilterSystemd.run", "fail2ban/server/filtersystemd.py:FilterSystemd.seekToTime"]}
{"id": "C80", "title": "The position in the journal survives restarts", "statement": "After a stop the position of the last processed journal entry is in the database, and after a new start reading continues with the next entry: no entry is processed twice and none is skipped. Also if the server is killed at any moment no entry is lost that is younger than the find time.", "quantifier": "for all journals, all sequences of steps, stops, kills and restarts", "why_tests_cant": "The position is saved with delay and at several places; whether it is right after a stop or kill at any moment can not be enumerated.", "anchors": ["fail2ban/server/filtersystemd.py:FilterSystemd.run", "fail2ban/server/filtersystemd.py:FilterSystemd._updateDBPending", "fail2ban/server/filtersystemd.py:FilterSystemd.onStop", "fail2ban/server/database.py:Fail2BanDb.getJournalPos", "fail2ban/server/database.py:Fail2BanDb.updateJournal"]}
{"id": "C81", "title": "Old journal entries are not taken as new ones", "statement": "Entries that are in the journal at start and are old are not processed in operation mode, in which entries with odd times are treated as if they just happened; the jail gets into operation mode at the latest when it reaches the end of the journal, and stays in it.", "quantifier": "for all journals, times and interleavings of steps of the loop with other events", "why_tests_cant": "The moment of the switch depends on times of entries, the clock and the speed of reading; tests use a few entries.", "anchors": ["fail2ban/server/filtersystemd.py:FilterSystemd.run", "fail2ban/server/filtersystemd.py:FilterSystemd.inOperationMode"]}
{"id": "C82", "title": "The observer executes each event once and in order", "statement": "Events added to the observer (failures and bans found, by any thread at any time) are executed one after the other in the order they were added, each once; an exception of one event does not affect the others. Until the thread ends no event is lost. If it is not paused, every event is executed without waiting for a time out: no wake-up is missed, in whatever order the steps of the threads happen. While it is paused at most one more event is executed.", "quantifier": "for all sequences of steps of the observer, of threads adding events, pausing and stopping, of timers, and all events that raise exceptions", "why_tests_cant": "A missed wake-up needs a certain order of steps of several threads; tests run one order.", "anchors": ["fail2ban/server/observer.py:ObserverThread.run", "fail2ban/server/observer.py:ObserverThread.add", "fail2ban/server/observer.py:ObserverThread.pulse_notify", "fail2ban/server/observer.py:ObserverThread.paused"]}
{"id": "C83", "title": "Stopping the observer", "statement": "If stop without force returns true (as used first when the server ends), all events added before the call are executed. After a forced stop the thread ends after at most one more event, within a fixed number of its steps; afterwards nothing is executed. A stop that returns true, or that is not forced, loses no event, and a stop that gives up leaves the observer as it was.", "quantifier": "for all sequences of steps of all threads before, during and after the call", "why_tests_cant": "Whether events are dropped depends on the moment of the stop relative to the steps of the main loop.", "anchors": ["fail2ban/server/observer.py:ObserverThread.stop", "fail2ban/server/observer.py:ObserverThread.wait_empty", "fail2ban/server/observer.py:ObserverThread.wait_idle", "fail2ban/server/observer.py:ObserverThread.run", "fail2ban/server/server.py:Server.quit"]}
{"id": "C84", "title": "The database is purged again and again", "statement": "From the start of the observer until its end exactly one purge of the database is on its way at any time: the timer is running, or the event is queued, or it is being executed. So purges never stop, and never get more frequent.", "quantifier": "for all sequences of steps of all threads", "why_tests_cant": "The purge happens once per hour, and each purge sets up the next one; tests execute a single purge.", "anchors": ["fail2ban/server/observer.py:ObserverThread.add_named_timer", "fail2ban/server/observer.py:ObserverThread.db_purge", "fail2ban/server/observer.py:ObserverThread.run"]}
{"id": "C85", "title": "Tags in failregex become the expressions they stand for", "statement": "A regular expression of a filter, built of text, address tags (HOST, ADDR, IP4, IP6, DNS, CIDR, SUBNET), SKIPLINES, closed tags (F-ID/, F-PORT/, ...) and groups F-NAME ... /F-NAME nested in any way, becomes exactly the expression it means: every tag its expression, groups named in small letters (with ID and PORT as fid and fport), parts for skipped lines numbered from 0. With usedns = no HOST takes addresses only. Unknown tags, the end of a group that was not begun, and text without tags stay as they are. An expression as it is shown by the server can be given again and means the same: resolving it once more changes nothing.", "quantifier": "for all expressions built of text, tags and groups, nested to any depth; the last part for all texts at all", "why_tests_cant": "Tags can be combined and nested without bound, and the result of one replacement contains characters of tags again.", "anchors": ["fail2ban/server/failregex.py:Regex._resolveHostTag", "fail2ban/server/failregex.py:mapTag2Opt", "fail2ban/server/failregex.py:FTAG_CRE", "fail2ban/server/failregex.py:FCUSTNAME_CRE"]}
{"id": "C86", "title": "Groups of a match: alternatives, parts and the identifier of a failure", "statement": "After a match every group has its own text; if it has none, that of the first group (in the order of names) named alt_<name> or alt_<name>_<number> that has text; and if there are groups tuple_<name> or tuple_<name>_<number>, the value is the tuple of this value and those of all these groups in the order of their names. All other groups are unchanged. The identifier of a failure is the value of the first of fid, ip4, ip6, dns that took part in the match, and it is an error only if none did. An expression is accepted if and only if it or prefregex has one of these groups or mlfid.", "quantifier": "for all sets of names of groups whose alternatives and parts belong to ordinary names, all matches, all names", "why_tests_cant": "There are unboundedly many combinations of alternatives and parts, and of groups that took part in a match.", "anchors": ["fail2ban/server/failregex.py:Regex.__init__", "fail2ban/server/failregex.py:Regex._getGroupsWithAlt", "fail2ban/server/failregex.py:FailRegex.__init__", "fail2ban/server/failregex.py:FailRegex.getFailID"]}
{"id": "C87", "title": "Commands have a time limit", "statement": "A command that ends within its time limit gets no signal, is judged by its own code only (success if and only if the code is one of the accepted ones) and its end is noticed within two seconds, at the first look after it. No signal is ever sent before the limit. A command that goes on gets SIGTERM soon after the limit (at most two seconds and the delay of one sleep later), 0.2 seconds later SIGKILL for its whole group, and the call returns 0.2 seconds after that; such a command failed, and the call does not wait for its output, if it dies of the signals. A command that cannot be started failed. Without tout_kill_tree SIGKILL is sent only if SIGTERM was not enough.", "quantifier": "for all behaviours of the process (what poll says at each time, depending on the signals), all time limits, accepted codes, levels of the log and all delays of sleeps", "why_tests_cant": "When a process ends relative to the limit and the looks at it, and how it reacts to signals, has unboundedly many cases; tests use one or two time outs.", "anchors": ["fail2ban/server/utils.py:Utils.executeCmd", "fail2ban/server/utils.py:Utils.wait_for"]}
{"id": "C88", "title": "Settings changed at run time are shown, kept, and separate", "statement": "After `set <jail> <option> <value>` is accepted, its reply is what `get` shows, the value in the form of the option (number, seconds, mode, list with the expression at its end ...), and it is shown until another command for this option of this jail; no command changes any other option or jail. Wrong values are refused and change nothing. Expressions are removed by Python index, and several expressions at once are all added or those before the first bad one. What the filter works with (time window of failures, time zone of the detector, idle flags) is always what is shown.", "quantifier": "for all sequences of set, multi-set and get commands, all jails, options and values, and whatever the library accepts", "why_tests_cant": "Unboundedly many sequences of commands and values; tests try single commands on one jail.", "anchors": ["fail2ban/server/transmitter.py:Transmitter.__commandSet", "fail2ban/server/transmitter.py:Transmitter.__commandGet", "fail2ban/server/server.py:Server", "fail2ban/server/filter.py:Filter"]}
{"id": "C89", "title": "The formula of the ban time is that of the options shown", "statement": "After any accepted changes of bantime.* the formula in use consists of exactly the multipliers, factor, formula, maxtime and rndtime shown by get (or their defaults). A value is shown as given, converted to a truth value (increment) or seconds (maxtime, rndtime), an empty value removes the option. A refused change leaves options and formula as they were.", "quantifier": "for all sequences of options and values, and whatever can be evaluated", "why_tests_cant": "The formula depends on the order and history of all options set before.", "anchors": ["fail2ban/server/jail.py:Jail.setBanTimeExtra", "fail2ban/server/jail.py:Jail.getBanTimeExtra"]}
{"id": "C90", "title": "The database is upgraded without loss", "statement": "Opening a database of an older version leaves a database of the current version with the same log positions and the same bans in the same order; bans without ban time become first bans with unknown ban time. For each address and jail exactly the newest ban is restored later, with the ban time the jail has then, and only if it is not over by that time. A current database is not changed, one of a later version is refused and not changed, a new one is complete; opening again changes nothing. An upgrade interrupted between any two transactions, and a creation interrupted anywhere, is completed by the next start with the same result.", "quantifier": "for all contents of older databases, all jails, ban times and times, and all points of interruption between transactions", "why_tests_cant": "Tests upgrade two sample files; contents and points of interruption are unbounded.", "anchors": ["fail2ban/server/database.py:Fail2BanDb.updateDb", "fail2ban/server/database.py:Fail2BanDb._connectDB", "fail2ban/server/database.py:Fail2BanDb._createDb"]}
{"id": "C91", "title": "A broken database is set aside, not lost", "statement": "Whatever is in the database file at start, afterwards it is still there unchanged or in a backup file, and older backups stay. A start without exception leaves a database of the current version. From a broken file what the sqlite3 tool can restore is used; if that is nothing, or cannot be opened either, a new empty database is made and the start goes on.", "quantifier": "for all contents of the file, all results of the tool and all failures of the upgrade", "why_tests_cant": "Results of the external tool and nested failures of repair cannot be enumerated.", "anchors": ["fail2ban/server/database.py:Fail2BanDb.repairDB", "fail2ban/server/database.py:Fail2BanDb._connectDB", "fail2ban/server/database.py:Fail2BanDb.updateDb"]}
{"id": "C92", "title": "Ignored addresses from a file follow the file", "statement": "With ignoreip = file:... an address is ignored exactly if an entry of the file (words of the lines, without comments) is or contains it, as the file has been for at least one second (61 seconds if it was missing at times), whatever was asked before and however often the file changed. While the file is missing, unreadable or faulty, the last good content stays in force. The file is looked at no more than once a second. This holds for all jails that use the file, and when a file becomes readable it is read.", "quantifier": "for all histories of the file, all sequences of questions and all addresses", "why_tests_cant": "Times of changes, of checks and of reading interleave without bound; a file can have any text.", "anchors": ["fail2ban/server/ipdns.py:FileIPAddrSet", "fail2ban/server/ipdns.py:DNSUtils.getIPsFromFile", "fail2ban/helpers.py:splitwords", "fail2ban/helpers.py:removeComments"]}
{"id": "C93", "title": "Names and own addresses are not older than the caches allow", "statement": "The addresses fail2ban uses for a host name, and the name it shows for an address, are what the resolver said less than five minutes ago, nothing added and nothing lost, also when the resolver found nothing. The own names and addresses (ignoreself) are those of the interfaces and of localhost and the host's names less than ten (names: fifteen) minutes ago: an address that belongs to the host that long is recognized as own, and no other address is. After a reload they are the current ones. A name is not asked for twice within five minutes. With IPv6 switched on or off names are resolved accordingly; otherwise what was detected less than five minutes ago counts.", "quantifier": "for all resolvers, interfaces and host names changing over time, all histories of calls in any order, all names and addresses", "why_tests_cant": "Entries of several caches are computed from each other at arbitrary times; the age of the result adds up along chains, and the answers change with time without bound.", "anchors": ["fail2ban/server/ipdns.py:DNSUtils", "fail2ban/server/ipdns.py:getfqdn", "fail2ban/server/ipdns.py:_NetworkInterfacesAddrs", "fail2ban/server/server.py:Server.clearCaches"]}
{"id": "C94", "title": "fail2ban-regex counts every line once and shows the lines it counts", "statement": "Every line given to fail2ban-regex that is neither empty nor a comment is counted exactly once, so that ignored, matched and missed lines add up to the lines tested. With a filter for single lines the numbers are exactly those of the lines with an ignored expression or a match that is no failure (ignored), of the other lines with a failure (matched) and of the lines with neither (missed), and the lists printed contain exactly these lines in order, or their number if there are too many. With a filter over several lines the earlier lines that take part in a match count as matched instead of missed. Hits of every expression are the matches by it, and --out=id prints exactly the identifiers of the failures in order.", "quantifier": "for all filters (what they find in each line depending on all lines before), all options for what is shown and all logs of any length", "why_tests_cant": "Lines move from missed to matched by comparing the buffer of the filter before and after each line; whether the sums and lists stay consistent depends on the whole history of an arbitrary filter.", "anchors": ["fail2ban/client/fail2banregex.py:Fail2banRegex.testRegex", "fail2ban/client/fail2banregex.py:Fail2banRegex.process", "fail2ban/client/fail2banregex.py:Fail2banRegex.printLines", "fail2ban/client/fail2banregex.py:LineStats"]}
{"id": "C95", "title": "The log goes to the target and in the level that are shown", "statement": "After any sequence of commands (loglevel, logtarget, syslogsocket, flushlogs) each message of the server goes to exactly the target shown by 'get logtarget', and exactly if its level is at least the one shown by 'get loglevel'. A new target that can be used replaces the old one, in the format of its options; one that cannot be used (file not writable, no socket) is refused, and the log goes on as before. After flushlogs messages are written to the file that is then at the path (rotation). Socket and options of syslog are used as set.", "quantifier": "for all histories of commands, all states of files and sockets at each of them, all names, options and levels of messages", "why_tests_cant": "Whether shown settings and real handlers agree is an invariant over unbounded histories of successful and failing changes, with files and sockets that change meanwhile.", "anchors": ["fail2ban/server/server.py:Server.setLogTarget", "fail2ban/server/server.py:Server.setLogLevel", "fail2ban/server/server.py:Server.setSyslogSocket", "fail2ban/server/server.py:Server.flushLogs", "fail2ban/server/server.py:Server.start", "fail2ban/helpers.py:str2LogLevel"]}
{"id": "C96", "title": "Commands over all jails do the same as in each of them", "statement": "'unban' with addresses never fails and does in each jail what it does there alone: afterwards none of the addresses is banned in any jail, every other ban is unchanged, each removed ban was handed to all actions of its jail, and the number returned is the number of bans removed in all jails. 'unban --all' leaves no ban in any jail. The command for one jail changes no other, and fails for a jail that does not exist; with --report-absent it fails exactly if an address is not banned, naming those, and unbans the others. 'banned' names for each address exactly the jails where it is banned; 'status' shows each jail once, sorted.", "quantifier": "for all numbers of jails with all ban lists and actions, all lists of addresses, all outcomes of commands of actions", "why_tests_cant": "Tests use one or two jails with actions that succeed; the statement is about any number of jails, overlapping bans, and failing actions in any of them.", "anchors": ["fail2ban/server/server.py:Server.setUnbanIP", "fail2ban/server/server.py:Server.banned", "fail2ban/server/server.py:Server.status", "fail2ban/server/transmitter.py:Transmitter.__commandHandler", "fail2ban/server/actions.py:Actions.removeBannedIP", "fail2ban/server/actions.py:Actions.getBanned"]}
{"id": "C97", "title": "The server ends completely and in order", "statement": "A shutdown goes through its stages in order, whatever fails: communication is stopped, every running jail is told to stop, only then threads are waited for, then jails are disabled in the database, the database is closed after its last use and after every thread has ended, and the socket is removed last. The actions of every running jail are told to stop even if other things fail. The shutdown is complete exactly if every filter can be stopped and the database takes the changes; then no jail is left. A second signal or command to quit does nothing. 'stop' of one jail ends its threads and removes only it. A server leaves no PID file and no socket, and does not touch those of another one.", "quantifier": "for all numbers of jails with threads in any state, all failures of writes to the database, all repetitions of quit", "why_tests_cant": "The order must hold for any number of jails and any combination of failures; tests stop one or two jails with a database that works.", "anchors": ["fail2ban/server/server.py:Server.quit", "fail2ban/server/server.py:Server.stopAllJail", "fail2ban/server/server.py:Server.delJail", "fail2ban/server/server.py:Server.start", "fail2ban/server/jail.py:Jail.stop", "fail2ban/server/filter.py:FileFilter.stop", "fail2ban/server/jailthread.py:JailThread.join", "fail2ban/server/asyncserver.py:AsyncServer.close"]}
{"id": "C98", "title": "Errors of connections do not end the server", "statement": "The event loop goes on through errors of sockets as long as in no stretch of time errors exceed successes by more than 100; it gives up exactly if the excess is larger and the process has too many open files, or all errors together exceed 1000. When it is told to stop it ends with the current turn, whatever that gave. Errors that continue write at most 22 messages to the log.", "quantifier": "for all histories of connections, accepted or failed, of results of poll, and of requests to stop", "why_tests_cant": "The counts are reflected walks over unbounded histories; tests provoke a few errors in a row.", "anchors": ["fail2ban/server/asyncserver.py:loop", "fail2ban/server/asyncserver.py:AsyncServer.handle_accept", "fail2ban/server/asyncserver.py:AsyncServer.start"]}
{"id": "C99", "title": "What the client sends, shows and returns", "statement": "The client sends commands in order, each after the answer to the one before, and stops at the first without an answer. Its exit code is 0 if and only if everything was sent and the server has done it. 'reload' with unexpected arguments sends nothing; otherwise the configuration is read only if the server answers, and sent, once, only if it is valid. 'start' starts a server at most once, and only if none answers, the configuration is valid and there is no socket (or it may be removed); the configuration sent is the one read. Waiting ends only when the server was seen as wanted, or after the time given, and always ends. With -t nothing is sent or started if the configuration is not valid. 'restart' keeps the server running if the configuration is not valid.", "quantifier": "for all servers (any answers, any failures at any time), files, clocks, configurations and arguments", "why_tests_cant": "The other side is arbitrary: each answer may be missing or wrong at any point; tests use a server that works, or none.", "anchors": ["fail2ban/client/fail2banclient.py:Fail2banClient.__processCmd", "fail2ban/client/fail2banclient.py:Fail2banClient.__startServer", "fail2ban/client/fail2banclient.py:Fail2banClient.__processCommand", "fail2ban/client/fail2banclient.py:Fail2banClient.__waitOnServer", "fail2ban/client/fail2bancmdline.py:Fail2banCmdLine.initCmdLine"]}
{"id": "C100", "title": "Information about a ban is the same for every action", "statement": "Each action sees exactly the information it would see if it were the only one, whatever the actions before it have read, set or deleted in the mapping; it sees its own changes; and nothing an action does changes the definitions used for later bans. Once a value was computed it stays the same while the action uses it, and for following actions as long as none has changed the mapping, even if ticket or jail change meanwhile. Merged information of an address never makes an action of a jail fail: it is what the database returns, or that of the ticket itself.", "quantifier": "for all numbers of actions, all sequences of reads, assignments and deletions, all results and exceptions of the computed values at any time, all answers of the database", "why_tests_cant": "The mapping copies on write, caches and resets; independence must hold for every interleaving of operations of any number of actions, tests do a few fixed ones.", "anchors": ["fail2ban/server/action.py:CallingMap", "fail2ban/server/actions.py:Actions.ActionInfo", "fail2ban/server/actions.py:Actions.__checkBan"]}
{"id": "C101", "title": "A date pattern means what is written in it", "statement": "What a date pattern of a jail is (defaults, defaults within a pattern, epoch, TAI64N, or a format) is determined by its text alone, as long as no other pattern with the same key was used within the last hour; patterns of other jails with other keys never change it, whatever was used before and in whatever order. The key is the text itself if it contains a percent sign, so formats are always what is written; else it is the text in upper case. The defaults and patterns with {DATE} are never taken from another jail. An invalid pattern leaves no trace. At most 1000 templates are kept.", "quantifier": "for all histories of patterns over all jails and all times, all texts, any notion of upper case and of valid format", "why_tests_cant": "The cache is shared by all jails of the server and entries are dropped by time and number; what a pattern is must not depend on any earlier history of any length.", "anchors": ["fail2ban/server/datedetector.py:_getPatternTemplate", "fail2ban/server/datedetector.py:DateDetector.appendTemplate"]}
{"id": "C102", "title": "A jail uses the first backend that is there", "statement": "With 'auto' a jail uses the first of pyinotify, polling and systemd whose module can be imported; with a name (in any case) that one or, if it cannot be imported, the next one after it, never one before it, and this is logged as a warning. A jail has no backend (an error) only if none of these can be imported; unknown names and malformed texts are refused. If a backend can be imported but does not start, its exception is reported and no other is used. Options in brackets are only accepted for systemd.", "quantifier": "for all texts of the option, all sets of importable modules, all failures of constructors", "why_tests_cant": "Depends on what is installed on the host; tests see one host.", "anchors": ["fail2ban/server/jail.py:Jail._setBackend", "fail2ban/server/jail.py:Jail._initPolling", "fail2ban/server/filterpoll.py:FilterPoll.__init__"]}
{"id": "C103", "title": "The database does not change under running jails", "statement": "As long as there are jails, the database of server and observer stays the same; only the file already in use is accepted. A file accepted is the one in use afterwards (none for 'none'), entering it again changes nothing, and a file that cannot be opened changes nothing. Server and observer use the same database after any history in which no file was opened whose jails could not be disabled.", "quantifier": "for all histories of commands, jails coming and going, all file names and all failures of files", "why_tests_cant": "Invariant over all histories with failures at any point.", "anchors": ["fail2ban/server/server.py:Server.setDatabase", "fail2ban/server/observer.py:ObserverThread.db_set"]}
{"id": "C104", "title": "The threads of the server never wait for each other for ever", "statement": "Whatever jails there are, whatever commands, filters, actions, observer events and timers are running, and in whatever order the threads take their turns: as long as something is left to do, some thread can go on, so that under any schedule every command is answered, every stop of a jail returns and every thread gives back all its locks. No lock is held by two threads. The threads of jails and the observer take neither the lock of the server nor that of the jails, so that a command may wait for them. This includes a shutdown by a signal, unless the main thread is interrupted inside of a section of a lock other than that of the server.", "quantifier": "for any number of threads, all runs of the functions of the server in them, and all schedules", "why_tests_cant": "A deadlock appears only for certain interleavings of several threads.", "anchors": ["fail2ban/server/server.py:Server.stopJail", "fail2ban/server/server.py:Server.reloadJails", "fail2ban/server/server.py:Server.quit", "fail2ban/server/jails.py:Jails.add", "fail2ban/server/jail.py:Jail.stop", "fail2ban/server/database.py:commitandrollback", "fail2ban/server/banmanager.py:BanManager", "fail2ban/server/failmanager.py:FailManager", "fail2ban/server/action.py:CommandAction.executeCmd", "fail2ban/server/datedetector.py:DateDetectorCache.templates", "fail2ban/server/observer.py:ObserverThread"]}
{"id": "C105", "title": "Data of a ban come back from the database as they were stored", "statement": "Any data of a ticket (texts, numbers, truth values, None, lists and dictionaries in any nesting) are, after they were stored and read again, equal to what was stored, whatever quotes, backslashes, control characters or other characters the texts contain, for every encoding that has ASCII. In general tuples come back as lists, other objects as their text, keys as texts (the last value of a name wins) and a character the encoding lacks as `?`; the matches shown for a restored ban are those of the ban up to such characters. A dictionary somewhere with a key JSON does not know makes all the data be stored as empty. Text that was cut off anywhere is read as no data, never as other data. Neither storing nor reading raises.", "quantifier": "for all Python data, all encodings that have ASCII, and all places to cut", "why_tests_cant": "Tests store a few sample tickets; data nest without bound and consist of text that attackers choose.", "anchors": ["fail2ban/server/database.py:_json_dumps_safe", "fail2ban/server/database.py:_json_loads_safe", "fail2ban/server/database.py:_json_default", "fail2ban/server/ticket.py:Ticket.getMatches"]}
{"id": "C106", "title": "What the client shows is what the server answered", "statement": "For every answer of the server: log files, ignored addresses and regular expressions are shown one per line, all of them, in order and regular expressions with the number by which they can be deleted; they and the banned addresses can be read back from what is shown (if they contain no separator). The status shows every group and every value under its name, for one jail, for the server and for all jails; only the last of each level has the closing sign. The table of statistics has a line for each jail in order, no cell is cut or shifted: the separators stand at the same places in all lines whatever the names and numbers. Answers to commands without a message of their own are shown unchanged.", "quantifier": "for all commands, all answers (lists of any length, texts of any content), both character sets", "why_tests_cant": "Tests compare a few sample answers; lists, names and numbers of jails are unbounded.", "anchors": ["fail2ban/client/beautifier.py:Beautifier.beautify"]}
{"id": "C107", "title": "The command line means what its words say", "statement": "For every list of words: exactly the words that spell options (letters together or apart, values joined or apart, long names in full or as a beginning that fits one only) are read as these options in their order; the words after them, however they look, are the command, unchanged; anything else shows the usage and does nothing. Of options given several times the last counts; verbosity is the number of -v less the number of -q; the first of the options for help, version and conversion of times ends the program, whatever follows. Socket, pid file and log settings given on the command line are used; the configuration provides only those missing and is read only then. A test without a command never does more than to tell whether the configuration is good; a test with a command executes it only if it is; a dump without a test never executes a command.", "quantifier": "for all lists of words of any length and content, all configurations, all earlier settings", "why_tests_cant": "Lists of words and their contents are unbounded; tests use a few command lines.", "anchors": ["fail2ban/client/fail2bancmdline.py:Fail2banCmdLine.initCmdLine", "fail2ban/client/fail2bancmdline.py:Fail2banCmdLine.__getCmdLineOptions", "fail2ban/client/fail2bancmdline.py:CONFIG_PARAMS"]}
{"id": "C108", "title": "Years and numbers of seconds are recognised as what they are", "statement": "If the clock shows 2001 or later when the server starts: a text is recognised as a year with century by the default date patterns exactly if it is four digits that are a year of a decade from 2000 on up to the decade of the third year after the start; so all years from 2000 until three years after the start are recognised, and no number below 2000 or more than twelve years ahead is taken for a year. A time given as a number is the number of seconds with its fraction; in the long form the three digits behind the ten or eleven of the seconds are milliseconds, and the three behind those, or the digits behind a dot, are fractions of them.", "quantifier": "for all years of the start up to 9996, all texts, all numbers", "why_tests_cant": "Tests run with the clock of the machine or one alternate time; the expression is built from the clock, for every year differently.", "anchors": ["fail2ban/server/strptime.py:_updateTimeRE", "fail2ban/server/datetemplate.py:DateEpoch.getDate"]}
{"id": "C109", "title": "Date patterns of a jail give exactly the templates they stand for", "statement": "Without patterns, or with {DEFAULT} alone, all defaults are tried: first every default bound to the begin of the line, with weight 100, then every default, each once and in the order of the source. {^LN-BEG} adds exactly the defaults bound to the begin of a line, apart from those of a name already there. {DEFAULT} beside other patterns adds nothing. A pattern with {DATE} alone gives exactly one template for each default, in order, with the default (without marks and bounds) in the place of {DATE}; for times in seconds it is the word Epoch that is put there. Ordinary patterns with distinct names give exactly their templates, in order; two of one name are refused, and then the setting stays as it was. No detector ever has a name twice. A setting of one or two templates is shown by the first of them, any other as the defaults.", "quantifier": "for all lists of patterns, all earlier settings, all detectors, all texts around {DATE} and every upper-casing that treats ASCII as usual", "why_tests_cant": "Lists of patterns and the texts around {DATE} are unbounded; tests use a few patterns, and none of them uses {DEFAULT}.", "anchors": ["fail2ban/server/datedetector.py:DateDetector.appendTemplate", "fail2ban/server/datedetector.py:DateDetector.addDefaultTemplate", "fail2ban/server/datedetector.py:DateDetectorCache._cacheTemplate", "fail2ban/server/datedetector.py:_getAnchoredTemplate", "fail2ban/server/datetemplate.py:DateTemplate.unboundPattern", "fail2ban/server/filter.py:Filter.setDatePattern", "fail2ban/server/filter.py:Filter.getDatePattern"]}
{"id": "C110", "title": "A date found is never a part of a longer word", "statement": "For every expression of a date pattern without own bounds, what is found begins and ends anywhere but inside of a word (word characters on both sides), and everything the expression matches there is found. With the mark for the begin of a line it begins after at most two characters, none of which belongs to a word. The bound at the begin is left out exactly if the expression begins with an anchor or with two stars (brackets and flags may stand before them), the bound at the end exactly if it ends with $, $), \\b, \\s or two stars that are not escaped. Between the bounds the expression stays as it is; brackets are put around it exactly if it has no group. Stars disappear.", "quantifier": "for all expressions, all lines, all positions, any notion of word character (a newline is none) and of space", "why_tests_cant": "Expressions and lines are unbounded; tests use a few patterns and lines.", "anchors": ["fail2ban/server/datetemplate.py:DateTemplate.setRegex", "fail2ban/server/datetemplate.py:RE_NO_WRD_BOUND_BEG", "fail2ban/server/datetemplate.py:RE_NO_WRD_BOUND_END", "fail2ban/server/datetemplate.py:RE_GROUPED"]}
{"id": "C111", "title": "The server started by the client has the settings of the client", "statement": "The command line the client composes for the server exists exactly if socket, pid file, log level, log target and syslog socket are known. Read by the server, it gives exactly these texts, the force flag and the verbosity of the client (at least one), background and asynchronous mode, and no command, whatever characters the texts have (also leading dashes); nothing is read from the configuration. Such a server serves in the background and leaves its configuration to the client. The first server file found is executed, and if it cannot be executed, that of PATH with the same words. A server process serves itself exactly if it is not interactive and has no command or only start; otherwise it acts as the client.", "quantifier": "for all settings, texts, environments, command lines and files", "why_tests_cant": "Settings are arbitrary texts, and the composition must fit the reading of options for all of them; tests start servers with a few paths.", "anchors": ["fail2ban/client/fail2banserver.py:Fail2banServer.startServerAsync", "fail2ban/client/fail2banserver.py:Fail2banServer.getServerPath", "fail2ban/client/fail2banserver.py:Fail2banServer.start", "fail2ban/client/fail2bancmdline.py:Fail2banCmdLine.initCmdLine"]}
{"id": "C112", "title": "Start of the server and its configuration by two threads", "statement": "For every interleaving of the thread that starts the server and the one that reads and sends the configuration: the program ends with success only if the configuration is valid and a running server has accepted all of it; with a configuration that is not valid nothing is sent. A failure of fail2ban-server has a reason: configuration not valid or not accepted, server not started, or time over. A server with a configuration that is not valid is started only if the time to wait was over before it was read, or in a race between two assignments of one line. In the foreground no server is left when the program ends, and it is stopped if its configuration is not accepted unless it is not up yet. Each wait of the main thread ends. What is shared between the threads tells at each time where the second one is.", "quantifier": "for all interleavings of steps, time outs, failures, answers and stops of any length; for start from server or client, in foreground or background, with any configuration", "why_tests_cant": "Interleavings of two threads and a server process are unbounded; a test sees a few of them, and the race is a single instruction wide.", "anchors": ["fail2ban/client/fail2banserver.py:Fail2banServer.start", "fail2ban/client/fail2banserver.py:Fail2banServer.startServerDirect", "fail2ban/client/fail2banclient.py:Fail2banClient.configureServer", "fail2ban/client/fail2banclient.py:Fail2banClient.__processStartStreamAfterWait", "fail2ban/server/server.py:Server.quit"]}
{"id": "C113", "title": "Settings of the server reach it in an order in which they work", "statement": "The commands made of fail2ban.conf contain each setting that has a value exactly once and nothing else, in the order thread options, syslog socket, log level, log target, IPv6, database, settings of the database. A value is that of the command line, else that of the file, else the default; a wrong number counts as no value but is still sent. Only a wrong log level is an error. On a server that has just started the commands succeed exactly if each value is accepted, and then the database is the one asked for (none if it is called none), with number of matches and age as set, 10 and one day if not set. Jails are all sections that are enabled or wrong; reading succeeds exactly if none is wrong, or if wrong ones are to be ignored and one is right. Commands of the server come before those of jails.", "quantifier": "for all files, command lines, environments, settings and sections", "why_tests_cant": "The order of commands depends on sorting of any subset of settings, their effect on the values of all of them; tests compare the stream of the shipped configuration.", "anchors": ["fail2ban/client/fail2banreader.py:Fail2banReader.getOptions", "fail2ban/client/fail2banreader.py:Fail2banReader.convert", "fail2ban/client/jailsreader.py:JailsReader.getOptions", "fail2ban/client/configurator.py:Configurator.getConfigStream", "fail2ban/client/fail2bancmdline.py:Fail2banCmdLine.readConfig", "fail2ban/server/transmitter.py:Transmitter.__commandSet", "fail2ban/server/server.py:Server.setDatabase"]}
{"id": "C114", "title": "Only crawlers confirmed by the name service are ignored", "statement": "The ignore command apache-fakegooglebot exits with 0 exactly if it is given one address and at most a time limit, the address has (within the limit, if there is one) a name that ends with .google.com or .googlebot.com, and this name has the address. If names of Google only have addresses of Google, no other address is accepted, whatever names other addresses claim. It exits with 2 exactly if the arguments are wrong or, without a limit, asking for the name raises a ValueError, and with 1 otherwise. A filter with this command and without a cache ignores exactly the listed and the confirmed addresses, and the question never fails.", "quantifier": "for all arguments, addresses, answers of the name service and filters", "why_tests_cant": "The test asks for a few real addresses of a live name service; names chosen by an attacker, late answers and all hosts are not covered.", "anchors": ["config/filter.d/ignorecommands/apache-fakegooglebot:is_googlebot", "config/filter.d/ignorecommands/apache-fakegooglebot:process_args", "fail2ban/server/filter.py:Filter.inIgnoreIPList", "fail2ban/server/ipdns.py:IPAddr.__eq__", "fail2ban/server/ipdns.py:IPAddr.__hash__"]}
{"id": "C115", "title": "Mails about bans say what happened and go only where they should", "statement": "The mail of action smtp about a ban names address, failures and jail, and the matches of the chosen kind exactly as they are in the log, whatever characters they contain; restored bans are not mailed. Its recipients are exactly the parts of the setting between comma and space. With a host of the form host:port a call is a session: connect, encryption if asked for, login if user and password are set, mail, each only if all before went well, and one goodbye at the end of every connection made. With encryption asked for, neither password nor mail is sent before the server agreed. A call returns normally exactly if the mail was handed over and the goodbye did not fail otherwise than by a lost connection. A host of another form sends nothing. The ban time in all mails of an action is that of the jail at the first ban mailed.", "quantifier": "for all settings, values of the ban, results of the mail library, and all sequences of calls of an action with settings changing in between", "why_tests_cant": "Tests send to one local server that accepts everything and compare parts of a few texts; failures at each step, texts with percent signs and later changes of the ban time are not covered.", "anchors": ["config/action.d/smtp.py:SMTPAction._sendMessage", "config/action.d/smtp.py:SMTPAction.ban", "config/action.d/smtp.py:SMTPAction.start", "config/action.d/smtp.py:SMTPAction.stop", "fail2ban/server/action.py:CallingMap.__getitem__"]}
{"id": "C116", "title": "Formatted output of fail2ban-regex shows the failures as they are", "statement": "With --out, fail2ban-regex prints for each line tested that is neither a comment nor empty, in order, exactly the failures found in it: for a token the value named by it, for a format with tags the format with each tag replaced by what it stands for, once for each matched line if the message is asked for, else once. In this a message is the matched line unchanged, whatever it contains, if the failure has several of them; else, and for other values, provided no text replaced contains a <. A NUL in any other value is written as \\x00, so no value can be taken for a message. In general tags captured by the filter are replaced in the text that results from replacing the others.", "quantifier": "for all formats, inputs, failures with any captured values and matched lines, whatever the filter finds", "why_tests_cant": "Matched lines and captured values are controlled by attackers, and the interplay of escaping, the mark put in place of a message and two passes of substitution depends on every combination of them; tests use a few formats, none with special characters in values.", "anchors": ["fail2ban/client/fail2banregex.py:Fail2banRegex._prepaireOutput", "fail2ban/client/fail2banregex.py:Fail2banRegex.process", "fail2ban/server/action.py:CommandAction.replaceDynamicTags"]}
{"id": "C117", "title": "fail2ban-regex tests with what was configured", "statement": "Given the name of a filter, fail2ban-regex without options tests with the same expressions for failures and for ignored lines in the same order, the same prefix expression, number of lines and date pattern that the server gets from this filter. Given a jail the expressions are the same as well; of several numbers of lines or date patterns of jail and filter the first command counts, where the server takes the last, and of several matches of the journal only the last. --maxlines, --datepattern and --journalmatch count instead of what jail and filter say, an expression for ignored lines on the command line replaces those of the filter and changes nothing else, and an expression given instead of a name is the only one, with default settings. Every expression is accepted, or nothing is tested and the program ends with an error; hits are counted for the expression that matched.", "quantifier": "for all commands that readers can give, options, arguments and decisions which expressions and patterns are valid", "why_tests_cant": "Tests run a handful of filters whose settings are given once; which of several values counts depends on every combination of options of command line, jail, parameters and [Init].", "anchors": ["fail2ban/client/fail2banregex.py:Fail2banRegex.readRegex", "fail2ban/client/fail2banregex.py:Fail2banRegex.start", "fail2ban/client/fail2banregex.py:Fail2banRegex.__init__"]}
{"id": "C118", "title": "The server in the background is one detached process", "statement": "Started in the background, exactly one process serves if both forks succeed, open files can be closed and /dev/null can be opened, and none otherwise. It is another process than the caller, in a session of its own which it does not lead and which has no terminal, so that it can never get one; it is in directory /, ignores SIGHUP, and files it creates are only accessible to its user. If the open files can be listed, it has no files but standard input, output and error, and these are /dev/null; else none of the caller below the limit of the system, if that is at least 3. The caller itself never serves, keeps files, terminal and directory, and gets an error exactly if the first fork fails. Commands of actions get no files of the server, but standard input if that is inherited.", "quantifier": "for all processes that call it with any open files, results of fork, listings and limits", "why_tests_cant": "The code is excluded from tests (pragma: no cover), as a test cannot detach itself; failures of fork, systems without /proc and sets of open files cannot be produced.", "anchors": ["fail2ban/server/server.py:Server.__createDaemon", "fail2ban/server/server.py:Server.__get_fdlist", "fail2ban/server/server.py:Server.start", "fail2ban/server/utils.py:Utils.executeCmd"]}
{"id": "C119", "title": "The filter that fail2ban-regex is told to test is the one it tests", "statement": "The argument REGEX of fail2ban-regex is a name exactly if one of its lines is a name (letters, digits, _ / - .), possibly followed by options in brackets; else it is an expression. A name without path and extension .conf or .local is that of a jail if there is such a jail. Else a name without path, or below filter.d, is that of a filter of the directory of configuration if this file exists there, as it is or (if none of its last six characters is a dot) with .conf or .local. With another path it is a filter of the configuration which the directory filter.d is part of, or, outside of one, just this file with its .local. If there is no such file, it is an expression. A file named with extension .conf or .local is read, in each way to name it; of a filter of a configuration NAME.conf, NAME.d/*.conf, NAME.local and NAME.d/*.local are read in this order. Options are passed on unchanged, and wrong options are an error.", "quantifier": "for all arguments, directories of configuration, jails, sets of files and classes of characters", "why_tests_cant": "Tests use a few names of shipped filters; which file is read depends on the interplay of name, extension, path, jails and all files there are.", "anchors": ["fail2ban/client/fail2banregex.py:Fail2banRegex.readRegex", "fail2ban/client/configreader.py:ConfigReaderUnshared.read", "fail2ban/client/configreader.py:DefinitionInitConfigReader.readexplicit", "fail2ban/client/filterreader.py:FilterReader.setFile", "fail2ban/client/jailreader.py:JailReader.read", "fail2ban/client/configparserinc.py:_expandConfFilesWithLocal"]}
{"id": "C120", "title": "Garbage is collected by the threads of jails, at most twice a minute", "statement": "Threads of all jails call service of one object with each failure and clean-up. However their steps interleave: never two threads are in the protected part; no thread waits for another, it leaves service after at most ten steps of its own; and as long as no jail is created and the clock does not go back, at least 30 seconds pass between two collections. A call without others collects exactly if it is forced or at least the hundredth since the last collection, and 30 seconds have passed since then; forced calls too have to wait for these 30 seconds. After a collection the next one happens at the first call that fulfils both.", "quantifier": "for all threads, interleavings of their steps, times, and creations of jails (where not excluded)", "why_tests_cant": "Tests call the object from one thread and set its private fields; interleavings of steps of many threads cannot be enumerated.", "anchors": ["fail2ban/helpers.py:BgService.service", "fail2ban/helpers.py:BgService.__init__", "fail2ban/helpers.py:BgService.__new__", "fail2ban/server/failmanager.py:FailManager.addFailure"]}
{"id": "C121", "title": "The journal that a jail reads is the one its backend options name", "statement": "Of the options of backend systemd, journalpath and namespace are passed on as given; journalfiles is a list of patterns, and the files that fulfil at least one of them are read, each once. Flags are those given as journalflags; without them, none if a pattern has a file or journalpath is not empty, else those of the environment variable F2B_SYSTEMD_DEFAULT_FLAGS, or 4 (system journal only). Creating the filter fails exactly if the flags that count are no number, or there is an option other than these four and useDns.", "quantifier": "for all options, files, environments", "why_tests_cant": "Tests need a readable systemd journal and are skipped without; they check that a filter can be created with a few combinations, not which journal it reads.", "anchors": ["fail2ban/server/filtersystemd.py:FilterSystemd._getJournalArgs", "fail2ban/server/filtersystemd.py:FilterSystemd.__init__", "fail2ban/server/filter.py:Filter.__init__"]}
{"id": "C122", "title": "The data of a ticket are what was stored for it, and change only with it", "statement": "After setData of a ticket, a key has a value exactly if the last entry for it is not None, where a single dictionary replaces everything and pairs or named arguments are added to what the ticket had. getData gives everything, exactly the entries asked for by a collection or function, or the value of one key with the default if there is none. The data of a ticket that was made on its own, and from which no other one is made or updated, depend only on the calls for it, whatever is done with other tickets. A ticket made from another one (or updated with it) takes over identifier, time, flags, ban count, ban time, and shares its data until setData or update is called for one of them; after that, the two are independent. Tickets are equal exactly if identifier, time and all entries of the data are.", "quantifier": "for all histories of tickets that are made, copied, updated and changed, all keys and values", "why_tests_cant": "Tests store some entries in single tickets and compare a copy right after it was made; that tickets do not influence each other, or exactly when they do, is a statement about all histories and all pairs of tickets.", "anchors": ["fail2ban/server/ticket.py:Ticket.setData", "fail2ban/server/ticket.py:Ticket.getData", "fail2ban/server/ticket.py:Ticket.update", "fail2ban/server/ticket.py:Ticket.__init__", "fail2ban/server/ticket.py:Ticket.__eq__", "fail2ban/server/ticket.py:FailTicket.__init__"]}
{"id": "C123", "title": "A client of the server cannot disturb another one's connection", "statement": "In one pass of the event loop, exactly the connections that want to read or write are waited for (the listening socket never for writing). What becomes of a connection depends only on its own state and on the events reported for it: reading, then writing, then exceptional conditions, as long as it is open, whatever handlers of other connections do, also if these are closed, raise exceptions, or further connections are accepted. An exception of a handler is given to the error handling of this connection (with poll: a lost connection is closed), and nothing leaves the pass unless a handler ends the program or the handling of an error fails. If handlers raise nothing and keep the connection open, select and poll give the same result. An error of waiting changes no connection.", "quantifier": "for all connections, behaviours of their handlers, and results of the operating system, as long as a connection accepted in a pass does not get the number of the one considered", "why_tests_cant": "Tests talk to the server with single clients and provoke single errors; that no behaviour of some connections can change what happens to another one is a statement about all behaviours and all combinations of events.", "anchors": ["fail2ban/compat/asyncore.py:poll", "fail2ban/compat/asyncore.py:poll2", "fail2ban/compat/asyncore.py:readwrite", "fail2ban/compat/asyncore.py:read", "fail2ban/compat/asyncore.py:write", "fail2ban/server/asyncserver.py:loop"]}
{"id": "C124", "title": "An interactive session executes the commands that are entered", "statement": "In interactive mode, every command entered before the first exit or quit is executed exactly once, in order, each on the server that the previous ones left, whether those before succeeded or failed; empty lines, help and lines that cannot be split into words execute nothing. Arguments of the command line are a first command, and only if it succeeds input is read. The exit code is 0 exactly if the session was left with exit or quit (255 at the end of input or if the first command failed); it does not depend on the success of commands.", "quantifier": "for all inputs, servers and their answers, configurations", "why_tests_cant": "Tests enter three sessions with two or three lines; that failures of commands never end a session or change later commands is a statement about all inputs and all behaviours of the server.", "anchors": ["fail2ban/client/fail2banclient.py:Fail2banClient.start", "fail2ban/client/fail2banclient.py:Fail2banClient.__processCommand", "fail2ban/client/fail2banclient.py:exec_command_line"]}
{"id": "C125", "title": "Information on networks in the status belongs to the banned addresses", "statement": "For the list of bans read by getBanListExtendedCymruInfo, the lists of ASN, country and registry have the same length, and entry n of each is that of the n-th address. Addresses are asked in order; the lists are complete exactly if no query fails, otherwise they end before the first address with a failure (an error other than NXDOMAIN, no records, or a record without exactly five fields) and nothing is asked after it. An entry names every value of the records once, in ascending order, 'unknown' for blank ones, and does not depend on order or repetition of records. The flavor of the status decides which lines are shown; unknown flavors show those of basic.", "quantifier": "for all ban lists, answers of the resolver (changing from query to query), texts of records and flavors", "why_tests_cant": "Tests of extended information need the network and look at up to two addresses; no test has failing queries, wrong or several records, which are arbitrary input of an external service.", "anchors": ["fail2ban/server/banmanager.py:BanManager.getBanListExtendedCymruInfo", "fail2ban/server/banmanager.py:BanManager.handleBlankResult", "fail2ban/server/actions.py:Actions.status", "fail2ban/server/ipdns.py:IPAddr.getPTR"]}
{"id": "C126", "title": "Logging does not disturb the code that logs", "statement": "A log call returns normally whatever is wrong with its message, arguments or handlers, except that errors of input and output and exceptions outside Exception reach the caller. After a failure, a report of the message and one of the arguments are logged, exactly if all of them can be converted to text. A failure other than a broken pipe changes nothing. Each record that meets a broken pipe takes the first handler of its own logger and no other. After a broken pipe at a record or a flush, flushing is off for good and returns without use of a stream; before it is on. The program ends at a broken pipe exactly if exitOnIOError is set.", "quantifier": "for all sequences of log calls and flushes, loggers, handlers and outcomes of the original functions", "why_tests_cant": "A test logs a few objects that cannot be represented and uses one handler that fails; errors of input and output are not tested (the code is marked as not covered), and what remains after several broken pipes is a statement about all sequences of calls.", "anchors": ["fail2ban/helpers.py:__safeLog", "fail2ban/helpers.py:__safeLogFlush", "fail2ban/helpers.py:__stopOnIOError"]}
{"id": "C127", "title": "Warnings about times of log lines come once a day, and again the next day", "statement": "Each kind of warning about times of log lines is logged exactly if no warning of that kind was logged by the same filter later than 24 hours before, by the clock; so two warnings of a kind are a day apart even if the clock is set back between them, and none is missing after a day. Kinds do not influence each other. A warning has all its messages, with the name of the jail; otherwise only the first message is logged, at level 7 if that level is shown.", "quantifier": "for all sequences of calls, clocks (also set back), messages and log levels", "why_tests_cant": "Tests reset the attribute of one kind to have a warning each time; the distance of warnings is a statement about all sequences over days and behaviours of the clock.", "anchors": ["fail2ban/server/filter.py:Filter._logWarnOnce", "fail2ban/server/filter.py:Filter.processLine", "fail2ban/server/filter.py:Filter.findFailure"]}
{"id": "C128", "title": "Shared configuration is read once and is the same for all its readers", "statement": "Readers with a common storage that read the same name get the same result and the same content, once one of them read it without an exception, whatever happens to the files in between; the files of a name are read at most once without exception. After an exception the next reader of the name reads again. A read with once=False always accesses the files. The directory is that of the first reader of the name. Reading a name does not change what is shared under others.", "quantifier": "for all sequences of reads by new readers of one storage, contents of files (changing between accesses, with exceptions) and directories", "why_tests_cant": "A test counts accesses for one configuration that is intact and does not change; changes of files during a reload and failures are timing and environment of arbitrary sequences.", "anchors": ["fail2ban/client/configreader.py:ConfigReader.read", "fail2ban/client/configreader.py:ConfigReader._create_unshared", "fail2ban/client/configreader.py:ConfigReader.setBaseDir"]}
{"id": "C129", "title": "Tags can use options of other sections and earlier definitions", "statement": "A tag in a filter or action that is looked up in the files and has a name section/option gets the value of that option in that section; known/option that of the earlier definition, or else of the current section; default/option that of DEFAULT (known and default in any case). If the option is not there, or the name has not this form, it is the option with the whole name in the current section, with the options of the reader. Names have this form exactly if the section has only characters of words and '-' and the option no white space and no '>'. While the options of the reader stay the same, each answer is what the files say, however often and in whatever order names are asked.", "quantifier": "for all parsed files, names, options of the reader and sequences of lookups", "why_tests_cant": "Tests look at a few definitions with known/option; which of several sections gives a value, and that a cache is never visible, is about all contents of files and orders of lookups.", "anchors": ["fail2ban/client/configparserinc.py:SafeConfigParserWithIncludes.get_ex", "fail2ban/client/configreader.py:DefinitionInitConfigReader.getCombOption"]}
{"id": "C130", "title": "Log positions are saved whichever thread saves them", "statement": "The thread of a filter and whoever stops it may save positions of logs at the same time. At any moment the database has the position of a log, or the log is pending or in the hands of one of both, unless the thread died with it in its hands. Once the thread has returned and the other is not about to write, the database has the position of every log. If the thread died with no log in its hands and nothing is pending, it has too. It never has a position that the log was not set to. The thread returns only after its main loop ended, and then needs no other thread for it.", "quantifier": "for all interleavings of steps of both threads, logs, positions and starting positions", "why_tests_cant": "Tests save positions in one thread; that none is lost however two threads take entries of the same dictionary is about all interleavings.", "anchors": ["fail2ban/server/filter.py:FileFilter.getFailures", "fail2ban/server/filter.py:FileFilter._updateDBPending", "fail2ban/server/filter.py:FileFilter.onStop", "fail2ban/server/filter.py:FileFilter.stop"]}
