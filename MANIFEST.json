{
 "claims": [
  {
   "property": "C01",
   "status": "proved",
   "theorems": [
    "Verif.C01_no_ban_below_maxretry",
    "Verif.C01_plain_reports"
   ],
   "note": "For every history of operations; weight of a report is max(count, number carried by the ticket)."
  },
  {
   "property": "C02",
   "status": "proved",
   "theorems": [
    "Verif.C02_prompt_ban"
   ],
   "note": "Exact counting for every history of reports inside the window with arbitrary foreign operations in between."
  },
  {
   "property": "C03",
   "status": "partial",
   "theorems": [
    "Verif.C03_refuted",
    "Verif.C03_rate_estimate_partial"
   ],
   "note": "The full statement is false of the code (C03_refuted: the rate estimate keeps old failures). Proved instead: exact formula of the estimate and that it never exceeds the old counter."
  },
  {
   "property": "C04",
   "status": "proved",
   "theorems": [
    "Verif.C04_cleanup_exact",
    "Verif.C04_cleanup_address"
   ],
   "note": ""
  },
  {
   "property": "C05",
   "status": "proved",
   "theorems": [
    "Verif.C05_toBan_some",
    "Verif.C05_toBan_none",
    "Verif.C05_not_twice",
    "Verif.C05_delFailure"
   ],
   "note": ""
  },
  {
   "property": "C06",
   "status": "proved",
   "theorems": [
    "Verif.C06_matches_step",
    "Verif.C06_matches_suffix",
    "Verif.C06_maxmatches_reset_defect"
   ],
   "note": "Includes a proved defect: raising maxmatches from 0 at runtime resets a running counter."
  },
  {
   "property": "C07",
   "status": "proved",
   "theorems": [
    "Verif.C07_total_step",
    "Verif.C07_total"
   ],
   "note": ""
  },
  {
   "property": "C08",
   "status": "proved",
   "theorems": [
    "Verif.C08_isolation"
   ],
   "note": ""
  },
  {
   "property": "C09",
   "status": "proved",
   "theorems": [
    "Verif.C09_late_report"
   ],
   "note": ""
  },
  {
   "property": "C10",
   "status": "proved",
   "theorems": [
    "Verif.C10_new_ban",
    "Verif.C10_expired",
    "Verif.C10_second_ban",
    "Verif.C10_prolong_exact",
    "Verif.C10_unique"
   ],
   "note": "Ends are compared for times up to 2^47-1 (MAX_TIME of the code)."
  },
  {
   "property": "C11",
   "status": "proved",
   "theorems": [
    "Verif.C11_no_early_unban",
    "Verif.C11_undue_stays"
   ],
   "note": ""
  },
  {
   "property": "C12",
   "status": "proved",
   "theorems": [
    "Verif.C12_next_unban_ok",
    "Verif.C12_due_released",
    "Verif.C12_drain",
    "Verif.C12_refuted_when_lowered"
   ],
   "note": "Side condition: no operation lowers the end of a running ban (default ban time lowered, or ticket ban time lowered); C12_refuted_when_lowered shows the condition is needed."
  },
  {
   "property": "C13",
   "status": "proved",
   "theorems": [
    "Verif.C13_permanent_stays",
    "Verif.C13_isTimedOut"
   ],
   "note": ""
  },
  {
   "property": "C14",
   "status": "proved",
   "theorems": [
    "Verif.C14_conservation",
    "Verif.C14_release"
   ],
   "note": ""
  },
  {
   "property": "C15",
   "status": "proved",
   "theorems": [
    "Verif.C15_status",
    "Verif.C15_totals"
   ],
   "note": ""
  },
  {
   "property": "C16",
   "status": "proved",
   "theorems": [
    "Verif.C16_ordered_list"
   ],
   "note": ""
  },
  {
   "property": "C17",
   "status": "proved",
   "theorems": [
    "Verif.C17_new_ban",
    "Verif.C17_expired",
    "Verif.C17_already",
    "Verif.C17_reban",
    "Verif.C17_batch",
    "Verif.C17_unmarked",
    "Verif.C17_quiet",
    "Verif.C17_check_due"
   ],
   "note": ""
  },
  {
   "property": "C18",
   "status": "partial",
   "theorems": [
    "Verif.C18_expiry",
    "Verif.C18_flush",
    "Verif.C18_flush_returns",
    "Verif.C18_refuted_when_flush_fails"
   ],
   "note": "Expiry: full. Flush: exact call sequence proved; the statement is false of the code if a flush raises an exception and the action has a consistency check (C18_refuted_when_flush_fails: neither flushed nor unbanned)."
  },
  {
   "property": "C19",
   "status": "partial",
   "theorems": [
    "Verif.C19_stop_partial",
    "Verif.C19_refuted_when_check_raises"
   ],
   "note": "Proved if consistency checks raise no exception; C19_refuted_when_check_raises shows the code skips the stop of all actions otherwise."
  },
  {
   "property": "C20",
   "status": "proved",
   "theorems": [
    "Verif.C20_banip",
    "Verif.C20_banip_time",
    "Verif.C20_unban",
    "Verif.C20_missing_nodup",
    "Verif.C20_unban_set",
    "Verif.C20_banned_query"
   ],
   "note": "List of plain addresses with repetitions; subnets and names through an arbitrary membership predicate."
  },
  {
   "property": "C21",
   "status": "proved",
   "theorems": [
    "Verif.C21_fifo",
    "Verif.C21_progress"
   ],
   "note": ""
  },
  {
   "property": "C22",
   "status": "partial",
   "theorems": [
    "Verif.C22_not_starved_partial",
    "Verif.C22_refuted_when_checks_raise",
    "Verif.C22_idle_check",
    "Verif.C22_limit"
   ],
   "note": "Proved if consistency checks raise no exception; C22_refuted_when_checks_raise shows the condition is needed."
  },
  {
   "property": "C23",
   "status": "proved",
   "theorems": [
    "Verif.C23_current",
    "Verif.C23_options",
    "Verif.C23_limit",
    "Verif.C23_base",
    "Verif.C23_monotone",
    "Verif.C23_monotone_multipliers",
    "Verif.C23_below_base",
    "Verif.C23_applied",
    "Verif.C23_not_applied",
    "Verif.C23_prolonged"
   ],
   "note": "For the default formula and multipliers over rationals. C23_below_base shows the stated lower bound needs maxtime >= base time and fails with multipliers; C23_applied: the observer applies the formula and increases the count."
  },
  {
   "property": "C24",
   "status": "proved",
   "theorems": [
    "Verif.C24_weight",
    "Verif.C24_counts",
    "Verif.C24_unknown",
    "Verif.C24_others",
    "Verif.C24_untracked",
    "Verif.C24_lines_twice"
   ],
   "note": "Recorded counts are positive. C24_counts assumes the report is not newer than the stored ticket (the filter counted it before the observer sees it). C24_lines_twice records a defect: lines and failures of known offenders are stored twice."
  },
  {
   "property": "C25",
   "status": "proved",
   "theorems": [
    "Verif.C25_sound",
    "Verif.C25_complete",
    "Verif.C25_end",
    "Verif.C25_once",
    "Verif.C25_history",
    "Verif.C25_removed",
    "Verif.C25_ignored",
    "Verif.C25_ended",
    "Verif.C25_banned"
   ],
   "note": "Ban times as limited by the configuration of the new start (maxtime or ban time of the jail); C25_end gives the exact end."
  },
  {
   "property": "C26",
   "status": "proved",
   "theorems": [
    "Verif.C26_reread",
    "Verif.C26_once",
    "Verif.C26_restart",
    "Verif.C26_stop_start",
    "Verif.C26_recorded",
    "Verif.C26_restored"
   ],
   "note": "C26_reread holds with bantime.increment; without it a failure read again after the restart is a new ban record (the line filter of C35 or the log position normally prevents that)."
  },
  {
   "property": "C27",
   "status": "proved",
   "theorems": [
    "Verif.C27_current",
    "Verif.C27_latest",
    "Verif.C27_removed",
    "Verif.C27_history",
    "Verif.C27_grows",
    "Verif.C27_accepted",
    "Verif.C27_jail_enabled",
    "Verif.C27_get_ban"
   ],
   "note": "SQL tables as keyed dictionaries and lists; order of rows with equal time is insertion order."
  },
  {
   "property": "C28",
   "status": "proved",
   "theorems": [
    "Verif.C28_permanent",
    "Verif.C28_running",
    "Verif.C28_young",
    "Verif.C28_only_old",
    "Verif.C28_complete",
    "Verif.C28_jails",
    "Verif.C28_no_orphans"
   ],
   "note": "About the table of current bans; history rows are purged by age alone (C28_only_old, C28_complete)."
  },
  {
   "property": "C29",
   "status": "proved",
   "theorems": [
    "Verif.C29_stored",
    "Verif.C29_position",
    "Verif.C29_unknown",
    "Verif.C29_purged",
    "Verif.C29_add",
    "Verif.C29_add_unknown"
   ],
   "note": "C29_add: the stored position is used exactly if the first line is unchanged (and not only new lines are wanted); C29_stored/C29_position: what is stored stays stored unless the jail is purged while disabled (C29_purged)."
  },
  {
   "property": "C30",
   "status": "partial",
   "theorems": [
    "Verif.C30_ipv4",
    "Verif.C30_ipv6",
    "Verif.C30_family",
    "Verif.C30_networks_partial",
    "Verif.C30_refuted_larger_network",
    "Verif.C30_set",
    "Verif.C30_names"
   ],
   "note": "Membership of single addresses in networks of both families, names and sets: full. For networks inside networks the statement is false of the code (C30_refuted_larger_network: 10.0.0.0/8 counts as inside 10.0.0.0/24); C30_networks_partial holds if the first network is not larger."
  },
  {
   "property": "C31",
   "status": "partial",
   "theorems": [
    "Verif.C31_mapped",
    "Verif.C31_network",
    "Verif.C31_equality",
    "Verif.C31_refuted_raw",
    "Verif.C31_given_family",
    "Verif.C31_brackets",
    "Verif.C31_text_roundtrip4",
    "Verif.C31_text_roundtrip6",
    "Verif.C31_text_unique",
    "Verif.C31_refuted_everything",
    "Verif.C31_refuted_mapped_network"
   ],
   "note": "Proved for addresses and networks with 1 <= prefix length. False of the code: raw identifiers all compare equal (C31_refuted_raw), the text of a /0 network lacks the prefix length (C31_refuted_everything), the text of an IPv6 network with mapped address is read back as IPv4 (C31_refuted_mapped_network). inet_pton/inet_ntop are assumed lawful; Lemmas/NetLibSample gives a concrete instance."
  },
  {
   "property": "C32",
   "status": "partial",
   "theorems": [
    "Verif.C32_ipv4",
    "Verif.C32_ipv6_partial",
    "Verif.C32_refuted_ipv6",
    "Verif.C32_refuted_invalid_mask"
   ],
   "note": "IPv4 masks: full. IPv6: also the IPv6 spelling of an IPv4 mask is accepted (C32_refuted_ipv6). A misspelled mask such as 255.255.255.256 becomes /0 (C32_refuted_invalid_mask)."
  },
  {
   "property": "C33",
   "status": "proved",
   "theorems": [
    "Verif.C33_line",
    "Verif.C33_reports",
    "Verif.C33_history",
    "Verif.C33_decision",
    "Verif.C33_add",
    "Verif.C33_add_file",
    "Verif.C33_refuted_add_after_file",
    "Verif.C33_del",
    "Verif.C33_clear",
    "Verif.C33_add_empty"
   ],
   "note": "Decision, effect of a line, and whole histories (uncached; with a cache see C34). Configuration by addignoreip/delignoreip also proved; C33_refuted_add_after_file: adding a single address after a file: entry raises an exception instead."
  },
  {
   "property": "C34",
   "status": "proved",
   "theorems": [
    "Verif.C34_hit",
    "Verif.C34_sound",
    "Verif.C34_transparent",
    "Verif.C34_reuse",
    "Verif.C34_stored"
   ],
   "note": "Decision with cache equals a decision made for the same key at most maxTime before; same decision if the configuration is constant. The cache is consulted before the address set, so an address added to ignoreip can stay not ignored until its entry expires."
  },
  {
   "property": "C35",
   "status": "proved",
   "theorems": [
    "Verif.C35_exact",
    "Verif.C35_undated",
    "Verif.C35_window",
    "Verif.C35_old",
    "Verif.C35_last_date"
   ],
   "note": "Exact time of a line for all cases (dated, undated, in operation or reading old logs)."
  },
  {
   "property": "C36",
   "status": "proved",
   "theorems": [
    "Verif.C36_line",
    "Verif.C36_search_fails",
    "Verif.C36_not_early",
    "Verif.C36_idle",
    "Verif.C36_undecided"
   ],
   "note": "Not before 100 failed lines; always after 100 consecutive ones."
  },
  {
   "property": "C37",
   "status": "partial",
   "theorems": [
    "Verif.C37_exactly_once_partial",
    "Verif.C37_start",
    "Verif.C37_caught_up",
    "Verif.C37_in_operation",
    "Verif.C37_unavailable",
    "Verif.C37_restart_partial",
    "Verif.C37_refuted_cr",
    "Verif.C37_refuted_cr_first",
    "Verif.C37_refuted_stop",
    "Verif.C37_refuted_restart",
    "Verif.C37_refuted_seek"
   ],
   "note": "Proved for growing files in encodings with ASCII line ends (ISO 8859-1 and UTF-8 instances proved), any passes, also across a restart. Refuted, with witnesses: a look at the file between CR and LF, stop of the filter during a pass, first line completed after the last open before a restart, incomplete old last line with the start time search."
  },
  {
   "property": "C38",
   "status": "partial",
   "theorems": [
    "Verif.C38_open",
    "Verif.C38_restart_partial",
    "Verif.C38_from_start_partial",
    "Verif.C38_continue",
    "Verif.C38_known",
    "Verif.C38_refuted_30s",
    "Verif.C38_refuted_no_hash"
   ],
   "note": "C38_open is the complete decision; C38_restart/C38_from_start/C38_continue the two cases. Refuted, with witnesses: another first line within 30 seconds of the last look, old file without known first line."
  },
  {
   "property": "C39",
   "status": "proved",
   "theorems": [
    "Verif.C39_bounded",
    "Verif.C39_bounded_store",
    "Verif.C39_last_value",
    "Verif.C39_kept",
    "Verif.C39_evicts_oldest"
   ],
   "note": "Also for interleaved get/unset of several threads."
  },
  {
   "property": "C40",
   "status": "partial",
   "theorems": [
    "Verif.C40_noninterference",
    "Verif.C40_no_new_special",
    "Verif.C40_escape",
    "Verif.C40_arguments",
    "Verif.C40_run_partial",
    "Verif.C40_refuted_ten",
    "Verif.C40_refuted_join",
    "Verif.C40_refuted_names",
    "Verif.C40_refuted_nested",
    "Verif.C40_refuted_words",
    "Verif.C40_captured",
    "Verif.C40_fixed"
   ],
   "note": "Proved for all templates and values: no special character reaches the command text, the text depends only on which values need arguments, escaping is inverted by reading. C40_run_partial: the shell sees exactly the template with values filled in, under conditions on tag neighbours, names and at most nine arguments; the refutations show each condition is needed."
  },
  {
   "property": "C41",
   "status": "partial",
   "theorems": [
    "Verif.C41_order_partial",
    "Verif.C41_prepared",
    "Verif.C41_lazy",
    "Verif.C41_eager",
    "Verif.C41_stop_partial",
    "Verif.C41_refuted_restart",
    "Verif.C41_refuted_stop"
   ],
   "note": "Proved for actions whose families have different start (and stop) commands; C41_refuted_restart and C41_refuted_stop show that the statement is false of the code for shared commands. C41_prepared holds for shared commands, too."
  },
  {
   "property": "C42",
   "status": "partial",
   "theorems": [
    "Verif.C42_query_partial",
    "Verif.C42_ends",
    "Verif.C42_keys",
    "Verif.C42_general_partial",
    "Verif.C42_complete_partial",
    "Verif.C42_expansion_partial",
    "Verif.C42_expansion_unique",
    "Verif.C42_order_partial",
    "Verif.C42_cycle_partial",
    "Verif.C42_error_partial",
    "Verif.C42_refuted_composed",
    "Verif.C42_refuted_alarm"
   ],
   "note": "Termination for all definitions. Completeness, full functional correctness (Expands, unique, independent of the order) and cycles for definitions without composed tags; false for composed ones (C42_refuted_composed) and the self-reference alarm can be false (C42_refuted_alarm)."
  },
  {
   "property": "C43",
   "status": "proved",
   "theorems": [
    "Verif.C43_frames",
    "Verif.C43_unique",
    "Verif.C43_chunks",
    "Verif.C43_request",
    "Verif.C43_replies",
    "Verif.C43_drain",
    "Verif.C43_reply",
    "Verif.C43_reset",
    "Verif.C43_exchange",
    "Verif.C43_garbage",
    "Verif.C43_refuted_mark"
   ],
   "note": "Serialization (pickle) and the request processor are parameters. C43_refuted_mark: the proviso on the marker is needed, because it is not escaped."
  },
  {
   "property": "C44",
   "status": "proved",
   "theorems": [
    "Verif.C44_reload",
    "Verif.C44_single",
    "Verif.C44_start",
    "Verif.C44_restart",
    "Verif.C44_succeeds",
    "Verif.C44_error",
    "Verif.C44_unban",
    "Verif.C44_invalid",
    "Verif.C44_refuted_after_error",
    "Verif.C44_refuted_in_progress"
   ],
   "note": "Regular expressions, backends and other parameters are validated by the environment. C44_refuted_after_error and C44_refuted_in_progress: after a reload that failed, the next one need not converge (outside of the stated precondition). Which actions stay is as in C47."
  },
  {
   "property": "C45",
   "status": "proved",
   "theorems": [
    "Verif.C45_written",
    "Verif.C45_value",
    "Verif.C45_override",
    "Verif.C45_files",
    "Verif.C45_locals",
    "Verif.C45_local",
    "Verif.C45_includes",
    "Verif.C45_determined",
    "Verif.C45_ends",
    "Verif.C45_seen",
    "Verif.C45_refuted_local_include",
    "Verif.C45_success",
    "Verif.C45_plain",
    "Verif.C45_get",
    "Verif.C45_no_section",
    "Verif.C45_extends",
    "Verif.C45_refuted_known_twice"
   ],
   "note": "Parsing of a single file, paths and globbing are given by the environment; names are taken to be in lower case and files to have no section named KNOWN/... of their own. C45_refuted_local_include: x.local that includes x.conf makes reading recurse for ever. C45_refuted_known_twice: a value that extends known cannot itself be extended by means of known in a third file."
  },
  {
   "property": "C46",
   "status": "proved",
   "theorems": [
    "Verif.C46_commands_match"
   ],
   "note": "Assumes consistency checks raise no exception and the flush of the action, if it has a consistency check, raises none."
  },
  {
   "property": "C47",
   "status": "partial",
   "theorems": [
    "Verif.C47_flush_some",
    "Verif.C47_reload_end",
    "Verif.C47_new_action_dropped",
    "Verif.C47_add_twice",
    "Verif.C47_add_new"
   ],
   "note": "Kept/removed actions, their calls and the unchanged ban list are proved exactly. An action that is new in the configuration is dropped by the code (C47_new_action_dropped), so 'exactly the actions of the new configuration' is false of it."
  },
  {
   "property": "C48",
   "status": "proved",
   "theorems": [
    "Verif.C48_start"
   ],
   "note": ""
  },
  {
   "property": "C49",
   "status": "proved",
   "theorems": [
    "Verif.C49_prolong"
   ],
   "note": ""
  },
  {
   "property": "C50",
   "status": "proved",
   "theorems": [
    "Verif.C50_plain",
    "Verif.C50_plain6",
    "Verif.C50_usedns"
   ],
   "note": ""
  },
  {
   "property": "C51",
   "status": "partial",
   "theorems": [
    "Verif.C51_ptr4",
    "Verif.C51_ptr6",
    "Verif.C51_hex",
    "Verif.C51_order",
    "Verif.C51_refuted_order"
   ],
   "note": "Names and hexadecimal form: full. The comparison is a proper order only within a family (C51_refuted_order)."
  },
  {
   "property": "C52",
   "status": "proved",
   "theorems": [
    "Verif.C52_service",
    "Verif.C52_expired",
    "Verif.C52_each_ban",
    "Verif.C52_below",
    "Verif.C52_prompt",
    "Verif.C52_perform_ban_all",
    "Verif.C52_attempt"
   ],
   "note": "Refines the properties of the failure manager to histories of log lines; C52_prompt assumes the clock stays below first failure + findtime (otherwise the entry may have expired, see C04)."
  },
  {
   "property": "C53",
   "status": "partial",
   "theorems": [
    "Verif.C53_merged",
    "Verif.C53_fresh_partial",
    "Verif.C53_refuted"
   ],
   "note": "C53_merged: exact sum and lines when computed; C53_fresh_partial: cached value is right as long as no ban is deleted. C53_refuted: delBan keeps the cached value, so merged information about removed bans is returned."
  },
  {
   "property": "C54",
   "status": "proved",
   "theorems": [
    "Verif.C54_position",
    "Verif.C54_nothing_skipped",
    "Verif.C54_ends",
    "Verif.C54_first_pass",
    "Verif.C54_refuted_unsorted"
   ],
   "note": "C54_refuted_unsorted shows that the assumption on the times is needed."
  },
  {
   "property": "C55",
   "status": "partial",
   "theorems": [
    "Verif.C55_unban",
    "Verif.C55_flush_partial",
    "Verif.C55_refuted_flush"
   ],
   "note": "Proved for actions whose families have different flush commands; C55_refuted_flush shows that the statement is false of the code otherwise."
  },
  {
   "property": "C56",
   "status": "proved",
   "theorems": [
    "Verif.C56_prolong",
    "Verif.C56_ban",
    "Verif.C56_repair",
    "Verif.C56_restart",
    "Verif.C56_unban",
    "Verif.C56_result",
    "Verif.C56_reload",
    "Verif.C56_check"
   ],
   "note": "Exit of every command is an arbitrary function of earlier events. C56_restart, C56_check and C56_reload are for actions started on demand with different commands of families."
  },
  {
   "property": "C57",
   "status": "proved",
   "theorems": [
    "Verif.C57_right",
    "Verif.C57_right_match",
    "Verif.C57_skip",
    "Verif.C57_isolated",
    "Verif.C57_once",
    "Verif.C57_failure",
    "Verif.C57_host",
    "Verif.C57_users",
    "Verif.C57_gained",
    "Verif.C57_limit_time",
    "Verif.C57_limit_count"
   ],
   "note": "The limits are part of the statement; C57_limit_time and C57_limit_count prove that they are real (a failure waiting for its host is lost)."
  },
  {
   "property": "C58",
   "status": "partial",
   "theorems": [
    "Verif.C58_ignored",
    "Verif.C58_none",
    "Verif.C58_found",
    "Verif.C58_unidentified",
    "Verif.C58_first",
    "Verif.C58_counts_partial",
    "Verif.C58_address",
    "Verif.C58_name",
    "Verif.C58_fid",
    "Verif.C58_refuted_ignore",
    "Verif.C58_refuted_unidentified",
    "Verif.C58_refuted_prefix_value"
   ],
   "note": "False of the code in three respects (proved): an ignoreregex that matches the prefix only ignores the line if there are at least three more failregexes than ignoreregexes (C58_refuted_ignore); an expression that matches without identifying anybody hides later ones (C58_refuted_unidentified); a group of failregex without value removes the value of the prefix (C58_refuted_prefix_value). Everything else is proved; C58_counts_partial excludes the first case."
  },
  {
   "property": "C59",
   "status": "partial",
   "theorems": [
    "Verif.C59_partition",
    "Verif.C59_skipped",
    "Verif.C59_single",
    "Verif.C59_found",
    "Verif.C59_ignored",
    "Verif.C59_nothing",
    "Verif.C59_buffer",
    "Verif.C59_once_partial",
    "Verif.C59_refuted_prefix"
   ],
   "note": "False of the code if a prefregex with content is used with maxlines > 1: failures are reported twice and with the wrong line (C59_refuted_prefix). C59_once_partial: without prefregex and with an identified host in every match."
  },
  {
   "property": "C60",
   "status": "proved",
   "theorems": [
    "Verif.C60_as_written",
    "Verif.C60_no_such_date",
    "Verif.C60_unreadable",
    "Verif.C60_yearday",
    "Verif.C60_week",
    "Verif.C60_zone",
    "Verif.C60_letters",
    "Verif.C60_summer",
    "Verif.C60_tai"
   ],
   "note": ""
  },
  {
   "property": "C61",
   "status": "partial",
   "theorems": [
    "Verif.C61_time_of_day",
    "Verif.C61_year",
    "Verif.C61_ahead",
    "Verif.C61_zone_partial",
    "Verif.C61_refuted_zone_new_year",
    "Verif.C61_refuted_ahead",
    "Verif.C61_refuted_zone_year",
    "Verif.C61_refuted_zone_day",
    "Verif.C61_refuted_yearday"
   ],
   "note": "Proved for local times in the past. False of the code (proved) for times ahead at the turn of the year (C61_refuted_ahead), with a zone at the turn of the year or if the day in UTC differs (C61_refuted_zone_new_year, C61_refuted_zone_year, C61_refuted_zone_day), and for the day of the year without year (C61_refuted_yearday). C61_zone_partial: the other cases with a zone. Current times of the years 4 to 9996."
  },
  {
   "property": "C62",
   "status": "partial",
   "theorems": [
    "Verif.C62_templates",
    "Verif.C62_defaults",
    "Verif.C62_found",
    "Verif.C62_sound",
    "Verif.C62_no_error_partial",
    "Verif.C62_step",
    "Verif.C62_nothing",
    "Verif.C62_order",
    "Verif.C62_append",
    "Verif.C62_refuted_empty_line"
   ],
   "note": "An exception is possible (C62_refuted_empty_line): a pattern that finds the empty text at the end of a line, such as {NONE} on an empty line, raises IndexError. C62_no_error_partial and C62_order assume that patterns do not do so. Regular expressions are arbitrary functions; C62_found assumes that a date found in a part of a line implies one in the line."
  },
  {
   "property": "C63",
   "status": "partial",
   "theorems": [
    "Verif.C63_anchored",
    "Verif.C63_same_place",
    "Verif.C63_start_partial",
    "Verif.C63_refuted_start",
    "Verif.C63_refuted_place"
   ],
   "note": "The last sentence is false of the code: C63_refuted_start (a date of other length than the last one at the begin of a line loses against a date of the last pattern in the text) and C63_refuted_place (a date at the place of the last date wins). C63_start_partial: other cases. The exact choice is part of C62_step (relation Chooses)."
  },
  {
   "property": "C64",
   "status": "proved",
   "theorems": [
    "Verif.C64_sum_of_items",
    "Verif.C64_plain_number",
    "Verif.C64_spelling_irrelevant",
    "Verif.C64_refuted_leading_zero"
   ],
   "note": "eval is modelled for sums and products of decimal numbers with exact arithmetic. C64_refuted_leading_zero records what is outside of the statement: 05m and 1 2 3 are errors."
  },
  {
   "property": "C65",
   "status": "partial",
   "theorems": [
    "Verif.C65_shown",
    "Verif.C65_zero",
    "Verif.C65_determined",
    "Verif.C65_read_again_partial",
    "Verif.C65_refuted_years"
   ],
   "note": "What is shown is proved completely (C65_shown, C65_determined, C65_zero). That it can be entered again is proved below a year (C65_read_again_partial) and false from a year on: C65_refuted_years (a year shown has 365 days, a year read 365.25). Whole seconds only; float division is taken as exact."
  },
  {
   "property": "C66",
   "status": "partial",
   "theorems": [
    "Verif.C66_regexes",
    "Verif.C66_early",
    "Verif.C66_datepattern",
    "Verif.C66_options",
    "Verif.C66_internal",
    "Verif.C66_order",
    "Verif.C66_usedns",
    "Verif.C66_logs",
    "Verif.C66_ignoreip",
    "Verif.C66_started",
    "Verif.C66_refuted_maxlines",
    "Verif.C66_refuted_journalmatch",
    "Verif.C66_refuted_usedns",
    "Verif.C66_refuted_part",
    "Verif.C66_refuted_number"
   ],
   "note": "Proved: regular expressions, order, options, log files, ignored addresses and the running jails (C66_regexes \u2026 C66_started). That the value of the jail takes precedence holds for datepattern (C66_datepattern) and is false for maxlines, usedns and prefregex, where the filter wins (C66_early, C66_refuted_maxlines); journalmatch of both is added (C66_refuted_journalmatch); usedns may come after prefregex (C66_usedns gives the condition, C66_refuted_usedns a witness); parameters whose name is a part of the word datepattern are sent (C66_refuted_part); a wrong number is sent as None (C66_refuted_number). What actions' commands do is not part of this property; white space is ASCII only."
  },
  {
   "property": "C67",
   "status": "proved",
   "theorems": [
    "Verif.C67_options",
    "Verif.C67_unique",
    "Verif.C67_jail",
    "Verif.C67_disabled",
    "Verif.C67_logtype",
    "Verif.C67_combined"
   ],
   "note": "Contents of sections after interpolation are arbitrary functions; substitution of tags is an arbitrary function (its properties: see the properties of tags)."
  },
  {
   "property": "C68",
   "status": "proved",
   "theorems": [
    "Verif.C68_stream",
    "Verif.C68_fails",
    "Verif.C68_skipped",
    "Verif.C68_nofiles"
   ],
   "note": ""
  },
  {
   "property": "C69",
   "status": "proved",
   "theorems": [
    "Verif.C69_accepted",
    "Verif.C69_rejected",
    "Verif.C69_unique",
    "Verif.C69_quoted",
    "Verif.C69_separate"
   ],
   "note": "For all texts; classes of characters arbitrary with the assumptions of Sane. The matcher of regular expressions is part of the trusted model."
  },
  {
   "property": "C70",
   "status": "proved",
   "theorems": [
    "Verif.C70_entries",
    "Verif.C70_parts",
    "Verif.C70_rejected"
   ],
   "note": "C70_entries is for lists as they are written (values bare or in quotes); C70_parts and C70_rejected for all texts."
  },
  {
   "property": "C71",
   "status": "proved",
   "theorems": [
    "Verif.C71_params",
    "Verif.C71_sent",
    "Verif.C71_commands",
    "Verif.C71_module",
    "Verif.C71_rejected"
   ],
   "note": "Contents of files after interpolation and substitution of tags are arbitrary functions. Parameters that are no settings are sent without substitution (the server does it)."
  },
  {
   "property": "C72",
   "status": "partial",
   "theorems": [
    "Verif.C72_added",
    "Verif.C72_name",
    "Verif.C72_suffix",
    "Verif.C72_distinct",
    "Verif.C72_plain",
    "Verif.C72_refuted_unique"
   ],
   "note": "Proved: names (C72_name, C72_plain), that actions are added in order exactly if names differ (C72_added), and that names differ for one file if both parameters name begin with the name of the jail or both do not (C72_distinct). False in general: C72_refuted_unique."
  },
  {
   "property": "C73",
   "status": "partial",
   "theorems": [
    "Verif.C73_new",
    "Verif.C73_reload_partial",
    "Verif.C73_single",
    "Verif.C73_replaced",
    "Verif.C73_reload_clean",
    "Verif.C73_fresh",
    "Verif.C73_current",
    "Verif.C73_refuted_reload",
    "Verif.C73_refuted_clear"
   ],
   "note": "Proved for new actions (C73_new), single properties (C73_single), modules that are replaced (C73_replaced), and exactly what a reload gives (C73_reload_partial, C73_reload_clean). False: a reload keeps properties that are not sent any more (C73_refuted_reload), and the cache is stale after clearAllParams until a property is set (C73_refuted_clear; C73_fresh and C73_current otherwise)."
  },
  {
   "property": "C74",
   "status": "partial",
   "theorems": [
    "Verif.C74_seen",
    "Verif.C74_pass",
    "Verif.C74_independent",
    "Verif.C74_modified",
    "Verif.C74_removed",
    "Verif.C74_given_up",
    "Verif.C74_refuted_failed",
    "Verif.C74_refuted_raise",
    "Verif.C74_refuted_same_stat",
    "Verif.C74_idle",
    "Verif.C74_refuted_two_absent"
   ],
   "note": "Proved for all interleavings if stat changes with each modification and no reading of this log fails (C74_seen, C74_pass); exact decision (C74_modified), other logs untouched (C74_independent), removal of absent logs (C74_removed, C74_given_up), errors (C74_idle). False in general: C74_refuted_failed (not read again after a failed reading), C74_refuted_raise (an exception loses other logs), C74_refuted_same_stat, C74_refuted_two_absent (two absent logs make the filter idle)."
  },
  {
   "property": "C75",
   "status": "partial",
   "theorems": [
    "Verif.C75_delays",
    "Verif.C75_early",
    "Verif.C75_idle",
    "Verif.C75_check",
    "Verif.C75_noticed",
    "Verif.C75_noticed_dir",
    "Verif.C75_waits",
    "Verif.C75_only",
    "Verif.C75_afterwards",
    "Verif.C75_soon",
    "Verif.C75_starved",
    "Verif.C75_refuted_starved"
   ],
   "note": "Proved: what a check does (C75_check, C75_noticed, C75_noticed_dir, C75_waits, C75_only, C75_afterwards), delays (C75_delays), and noticing in time for a single file with delay up to a minute (C75_soon). False for longer absences: a delay above a minute is never over (C75_starved, C75_refuted_starved)."
  },
  {
   "property": "C76",
   "status": "partial",
   "theorems": [
    "Verif.C76_watched",
    "Verif.C76_replay",
    "Verif.C76_event",
    "Verif.C76_at_once",
    "Verif.C76_added",
    "Verif.C76_removed",
    "Verif.C76_posix",
    "Verif.C76_refuted_idle",
    "Verif.C76_refuted_leak",
    "Verif.C76_refuted_root"
   ],
   "note": "Proved for logs in directories other than / (C76_watched, C76_event, C76_at_once, C76_added, C76_removed, C76_posix); C76_replay without restriction. False: events while idle are lost (C76_refuted_idle), a directory may stay watched without logs (C76_refuted_leak), logs in / lose the watch of their directory (C76_refuted_root)."
  },
  {
   "property": "C77",
   "status": "partial",
   "theorems": [
    "Verif.C77_given",
    "Verif.C77_words",
    "Verif.C77_added",
    "Verif.C77_widened",
    "Verif.C77_refused",
    "Verif.C77_deleted",
    "Verif.C77_cleared",
    "Verif.C77_refuted_plus",
    "Verif.C77_refuted_last"
   ],
   "note": "Proved for all commands (C77_given, C77_words, C77_added, C77_widened, C77_refused, C77_deleted, C77_cleared). Surprising and proved: matches added with + cannot be deleted with the same words (C77_refuted_plus); deleting the last match makes the jail read everything (C77_refuted_last)."
  },
  {
   "property": "C78",
   "status": "partial",
   "theorems": [
    "Verif.C78_line",
    "Verif.C78_message",
    "Verif.C78_refuted_different"
   ],
   "note": "Line, time and independence of the message proved (C78_line, C78_message). False: different messages can give the same line (C78_refuted_different); an entry of the kernel without monotonic time has no line (C78_line)."
  },
  {
   "property": "C79",
   "status": "proved",
   "theorems": [
    "Verif.C79_once",
    "Verif.C79_start",
    "Verif.C79_recent",
    "Verif.C79_reads",
    "Verif.C79_idle"
   ],
   "note": "Exact set and order of entries for all interleavings (C79_once), where reading starts (C79_start, C79_recent), progress with bound (C79_reads), idle (C79_idle). Entries whose line raises an error are skipped."
  },
  {
   "property": "C80",
   "status": "partial",
   "theorems": [
    "Verif.C80_known",
    "Verif.C80_saved",
    "Verif.C80_ticks",
    "Verif.C80_pending",
    "Verif.C80_resume",
    "Verif.C80_nothing_lost",
    "Verif.C80_refuted_source",
    "Verif.C80_refuted_equal",
    "Verif.C80_refuted_line",
    "Verif.C80_refuted_unreadable"
   ],
   "note": "Proved: position known at any time (C80_known), saved at stop (C80_saved), delay (C80_pending), exact continuation (C80_resume) and no loss under kills and any number of restarts (C80_nothing_lost), if times of receipt strictly grow. False otherwise: entries with a time of the source are processed again (C80_refuted_source), an entry received at the same microsecond is lost (C80_refuted_equal), position not saved if stopped after an error (C80_refuted_line), entries skipped if the journal cannot be read at start (C80_refuted_unreadable)."
  },
  {
   "property": "C81",
   "status": "partial",
   "theorems": [
    "Verif.C81_switch",
    "Verif.C81_stays",
    "Verif.C81_backlog",
    "Verif.C81_empty",
    "Verif.C81_refuted_error"
   ],
   "note": "Proved: exact switch (C81_switch), stays (C81_stays), backlog not in operation (C81_backlog) if reading does not fail and the clock does not go back, empty journal (C81_empty); end of the journal: C79_reads. False with an error of reading: C81_refuted_error."
  },
  {
   "property": "C82",
   "status": "proved",
   "theorems": [
    "Verif.C82_order",
    "Verif.C82_nothing_lost",
    "Verif.C82_executed",
    "Verif.C82_alive",
    "Verif.C82_pause",
    "Verif.C82_quiet",
    "Verif.C82_paused"
   ],
   "note": "Threads as small steps in any order. Order and no loss: C82_order, C82_nothing_lost; no missed wake-up, errors do not matter: C82_executed; C82_alive, C82_paused."
  },
  {
   "property": "C83",
   "status": "partial",
   "theorems": [
    "Verif.C83_graceful",
    "Verif.C83_forced",
    "Verif.C83_ends",
    "Verif.C83_ended",
    "Verif.C83_idle",
    "Verif.C83_drains",
    "Verif.C83_refuted_forced",
    "Verif.C83_refuted_wakeup"
   ],
   "note": "Proved: stop without force tells the truth (C83_graceful), a forced stop gets through and ends the loop after at most one more event (C83_forced, C83_ends, C83_ended). False: a forced stop returns true although events were dropped (C83_refuted_forced); a stop that gives up can leave the thread asleep beside an event until its time out (C83_refuted_wakeup). Also proved: idle means idle (C83_idle), and while stop waits the thread drains its queue and ends by itself (C83_drains)."
  },
  {
   "property": "C84",
   "status": "partial",
   "theorems": [
    "Verif.C84_one",
    "Verif.C84_again",
    "Verif.C84_refuted_error"
   ],
   "note": "Proved: exactly one purge is on its way (C84_one) and the next one is executed (C84_again), as long as no purge raises an exception. False after an exception: never purged again (C84_refuted_error)."
  },
  {
   "property": "C85",
   "status": "proved",
   "theorems": [
    "Verif.C85_meaning",
    "Verif.C85_plain",
    "Verif.C85_unopened",
    "Verif.C85_again"
   ],
   "note": ""
  },
  {
   "property": "C86",
   "status": "proved",
   "theorems": [
    "Verif.C86_groups",
    "Verif.C86_id",
    "Verif.C86_id_order",
    "Verif.C86_accepted",
    "Verif.C86_textual_order",
    "Verif.C86_alternative_not_enough"
   ],
   "note": "Also proved: order of parts is textual, not by number (C86_textual_order); an address in an alternative only is not enough to be accepted (C86_alternative_not_enough)."
  },
  {
   "property": "C87",
   "status": "partial",
   "theorems": [
    "Verif.C87_in_time",
    "Verif.C87_noticed",
    "Verif.C87_not_early",
    "Verif.C87_stopped",
    "Verif.C87_terminated",
    "Verif.C87_gentle",
    "Verif.C87_success",
    "Verif.C87_timed_out",
    "Verif.C87_not_started",
    "Verif.C87_waits",
    "Verif.C87_refuted_polite",
    "Verif.C87_refuted_background"
   ],
   "note": "Proved for all processes and delays. Two parts are false of the code and refuted with witnesses: a stopped command that ends with code 0 counts as success; reading of output is not covered by the limit if another process holds the pipe."
  },
  {
   "property": "C88",
   "status": "partial",
   "theorems": [
    "Verif.C88_only",
    "Verif.C88_persists",
    "Verif.C88_reply",
    "Verif.C88_quiet",
    "Verif.C88_unknown",
    "Verif.C88_refused",
    "Verif.C88_values",
    "Verif.C88_round_trip",
    "Verif.C88_idle",
    "Verif.C88_expressions",
    "Verif.C88_several",
    "Verif.C88_consistent",
    "Verif.C88_new",
    "Verif.C88_refuted_reserved"
   ],
   "note": "Proved for all sequences of commands. Refuted parts: jails with the name of an option of the server cannot be configured (C88_refuted_reserved); addignoreip and multi-set with several values are not all-or-nothing. Log files, journal matches and actions are not in this model."
  },
  {
   "property": "C89",
   "status": "partial",
   "theorems": [
    "Verif.C89_effective",
    "Verif.C89_shown",
    "Verif.C89_refuted_factor"
   ],
   "note": "Proved for all sequences of accepted changes. That a refused change changes nothing is false of the code: C89_refuted_factor."
  },
  {
   "property": "C90",
   "status": "partial",
   "theorems": [
    "Verif.C90_upgrade_old",
    "Verif.C90_upgrade_v3",
    "Verif.C90_restored",
    "Verif.C90_not_touched",
    "Verif.C90_new",
    "Verif.C90_again",
    "Verif.C90_interrupted_partial",
    "Verif.C90_refuted_interrupted",
    "Verif.C90_refuted_created",
    "Verif.C90_refuted_stuck"
   ],
   "note": "Proved for all contents. Refuted parts: an upgrade interrupted between creation and filling of the table of newest bans leaves it empty for ever (C90_refuted_interrupted); a creation interrupted before the version is written leaves a file that no later start can open (C90_refuted_created, C90_refuted_stuck)."
  },
  {
   "property": "C91",
   "status": "partial",
   "theorems": [
    "Verif.C91_backups",
    "Verif.C91_not_lost",
    "Verif.C91_no_backup",
    "Verif.C91_ready",
    "Verif.C91_repaired",
    "Verif.C91_recreated",
    "Verif.C91_refuted_tool",
    "Verif.C91_refuted_upgrade"
   ],
   "note": "Proved for all contents and results of the tool. That the start goes on is false if the tool is not installed (C91_refuted_tool) and after a failed upgrade (C91_refuted_upgrade)."
  },
  {
   "property": "C92",
   "status": "partial",
   "theorems": [
    "Verif.C92_entries",
    "Verif.C92_followed",
    "Verif.C92_kept",
    "Verif.C92_failure",
    "Verif.C92_seldom",
    "Verif.C92_refuted_unreadable",
    "Verif.C92_refuted_shared",
    "Verif.C92_alone",
    "Verif.C92_refuted_path"
   ],
   "note": "Proved for one thread and files that can be read whenever they exist. Refuted parts: a file that could not be read once is not read again until its stat changes (C92_refuted_unreadable); a jail that asks while another one loads the shared set finds it empty (C92_refuted_shared); file:/path is a relative path (C92_refuted_path)."
  },
  {
   "property": "C93",
   "status": "partial",
   "theorems": [
    "Verif.Dns.C93_resolved",
    "Verif.Dns.C93_allowed",
    "Verif.Dns.C93_reverse",
    "Verif.Dns.C93_hostname",
    "Verif.Dns.C93_names",
    "Verif.Dns.C93_self",
    "Verif.Dns.C93_recognized",
    "Verif.Dns.C93_only",
    "Verif.Dns.C93_detected",
    "Verif.Dns.C93_current",
    "Verif.Dns.C93_once",
    "Verif.Dns.C93_refuted_five",
    "Verif.Dns.C93_refuted_null",
    "Verif.Dns.C93_refuted_switched",
    "Verif.Dns.C93_refuted_lost",
    "Verif.Dns.C93_refuted_fqdn"
   ],
   "note": "Proved for all histories of calls one after another, with exact ages (5, 10, 15 minutes). False of the code: own addresses not older than five minutes (refuted_five), an address on an interface is known although another interface has none (refuted_null), no IPv6 addresses right after IPv6 is switched off (refuted_switched), setting kept while another thread detects (refuted_lost), full name always known (refuted_fqdn)."
  },
  {
   "property": "C94",
   "status": "partial",
   "theorems": [
    "Verif.RegexTool.C94_tested",
    "Verif.RegexTool.C94_total",
    "Verif.RegexTool.C94_single",
    "Verif.RegexTool.C94_several",
    "Verif.RegexTool.C94_nonnegative",
    "Verif.RegexTool.C94_all_matched",
    "Verif.RegexTool.C94_hits",
    "Verif.RegexTool.C94_shown",
    "Verif.RegexTool.C94_ignored_shown",
    "Verif.RegexTool.C94_out",
    "Verif.RegexTool.C94_refuted_ignored",
    "Verif.RegexTool.C94_refuted_negative",
    "Verif.RegexTool.C94_refuted_twice",
    "Verif.RegexTool.C94_refuted_shown",
    "Verif.RegexTool.C94_marked",
    "Verif.RegexTool.C94_refuted_marked",
    "Verif.RegexTool.C94_refuted_comment"
   ],
   "note": "Proved for all filters, options and logs. False of the code with filters over several lines: earlier lines of an ignored match are not counted as matched (refuted_ignored), missed is never negative (refuted_negative), every line of a match counts as matched (refuted_twice), the list of missed lines is complete (refuted_shown); and for any filter: two matches of a line are marked (refuted_marked), lines beginning with # are tested (refuted_comment)."
  },
  {
   "property": "C95",
   "status": "partial",
   "theorems": [
    "Verif.Logging.C95_target",
    "Verif.Logging.C95_kept",
    "Verif.Logging.C95_one",
    "Verif.Logging.C95_shown",
    "Verif.Logging.C95_level",
    "Verif.Logging.C95_rotated",
    "Verif.Logging.C95_flush",
    "Verif.Logging.C95_socket",
    "Verif.Logging.C95_start",
    "Verif.Logging.C95_refuted_socket",
    "Verif.Logging.C95_refuted_options",
    "Verif.Logging.C95_refuted_start",
    "Verif.Logging.C95_refuted_flush"
   ],
   "note": "Proved for all histories: target and level shown are those of the logger, refused targets change nothing, rotation. False of the code: a changed socket of syslog is used (refuted_socket), changed options of the same target are used (refuted_options), the server does not start without a log (refuted_start), the answer of flushlogs is right (refuted_flush)."
  },
  {
   "property": "C96",
   "status": "partial",
   "theorems": [
    "Verif.AllJails.C96_each",
    "Verif.AllJails.C96_unban",
    "Verif.AllJails.C96_unban_set",
    "Verif.AllJails.C96_all",
    "Verif.AllJails.C96_nameless",
    "Verif.AllJails.C96_other",
    "Verif.AllJails.C96_one",
    "Verif.AllJails.C96_banned",
    "Verif.AllJails.C96_banned_all",
    "Verif.AllJails.C96_banned_jail",
    "Verif.AllJails.C96_seen",
    "Verif.AllJails.C96_status",
    "Verif.AllJails.C96_refuted_all"
   ],
   "note": "'unban --all' is proved if no consistency check of an action raises; otherwise it is refuted (C96_refuted_all): later jails keep their bans. Unban of addresses is proved without such an assumption. Errors of the database are not modelled."
  },
  {
   "property": "C97",
   "status": "partial",
   "theorems": [
    "Verif.Shutdown.C97_order",
    "Verif.Shutdown.C97_told",
    "Verif.Shutdown.C97_ends",
    "Verif.Shutdown.C97_complete",
    "Verif.Shutdown.C97_waited",
    "Verif.Shutdown.C97_once",
    "Verif.Shutdown.C97_stop",
    "Verif.Shutdown.C97_stop_unknown",
    "Verif.Shutdown.C97_left",
    "Verif.Shutdown.C97_files",
    "Verif.Shutdown.C97_refuted_hang",
    "Verif.Shutdown.C97_refuted_db",
    "Verif.Shutdown.C97_refuted_stop",
    "Verif.Shutdown.C97_refuted_pid",
    "Verif.Shutdown.C97_refuted_force"
   ],
   "note": "The order, that all actions are told to stop, and exactly when the shutdown is complete are proved for all failures. Refuted: that it always ends (C97_refuted_hang, C97_refuted_db), that a stopped jail does not run (C97_refuted_stop), that files of another server are left alone (C97_refuted_pid, C97_refuted_force). What threads do after they are told to stop is not part of this model (see C19 for the actions)."
  },
  {
   "property": "C98",
   "status": "partial",
   "theorems": [
    "Verif.EventLoop.C98_count",
    "Verif.EventLoop.C98_critical",
    "Verif.EventLoop.C98_sporadic",
    "Verif.EventLoop.C98_emfile",
    "Verif.EventLoop.C98_stop",
    "Verif.EventLoop.C98_messages",
    "Verif.EventLoop.C98_accept",
    "Verif.EventLoop.C98_refuted_args",
    "Verif.EventLoop.C98_refuted_silent"
   ],
   "note": "Proved for all histories in which errors have a code (e.args not empty); refuted without (C98_refuted_args). Also refuted: that lasting errors are reported (C98_refuted_silent). The bound of messages is for errors of poll."
  },
  {
   "property": "C99",
   "status": "partial",
   "theorems": [
    "Verif.Client.C99_answers",
    "Verif.Client.C99_command",
    "Verif.Client.C99_ping",
    "Verif.Client.C99_reload_args",
    "Verif.Client.C99_reload",
    "Verif.Client.C99_restart_jail",
    "Verif.Client.C99_wait",
    "Verif.Client.C99_wait_ends",
    "Verif.Client.C99_wait_gaps",
    "Verif.Client.C99_refused",
    "Verif.Client.C99_start",
    "Verif.Client.C99_restart",
    "Verif.Client.C99_test",
    "Verif.Client.C99_refuted_restart"
   ],
   "note": "All but the last sentence are proved. 'restart' with a configuration that is not valid leaves no server running (C99_refuted_restart). Interactive mode and start in the foreground are not modelled."
  },
  {
   "property": "C100",
   "status": "proved",
   "theorems": [
    "Verif.ActionInfo.C100_independent",
    "Verif.ActionInfo.C100_shared",
    "Verif.ActionInfo.C100_stable",
    "Verif.ActionInfo.C100_stable_next",
    "Verif.ActionInfo.C100_own",
    "Verif.ActionInfo.C100_merged",
    "Verif.ActionInfo.C100_asks",
    "Verif.ActionInfo.C100_refuted_once",
    "Verif.ActionInfo.C100_refuted_nojail",
    "Verif.ActionInfo.C100_refuted_new"
   ],
   "note": "C100_independent needs values that do not change during the ban (for changing ones see C100_stable, C100_stable_next, C100_shared). Refutations beside the statement: merged information is not kept between uses (C100_refuted_once), it fails without a jail (C100_refuted_nojail), new keys (C100_refuted_new)."
  },
  {
   "property": "C101",
   "status": "proved",
   "theorems": [
    "Verif.DatePattern.C101_first",
    "Verif.DatePattern.C101_history",
    "Verif.DatePattern.C101_same",
    "Verif.DatePattern.C101_format",
    "Verif.DatePattern.C101_hour",
    "Verif.DatePattern.C101_defaults",
    "Verif.DatePattern.C101_shared",
    "Verif.DatePattern.C101_invalid",
    "Verif.DatePattern.C101_cached",
    "Verif.DatePattern.C101_size",
    "Verif.DatePattern.C101_refuted_case",
    "Verif.DatePattern.C101_refuted_lower"
   ],
   "note": "C101_format assumes that upper case makes no new percent signs. Refutations beside the statement: patterns that differ only in case share a template (C101_refuted_case), names in braces in lower case within formats (C101_refuted_lower). 'Defaults' says only that addDefaultTemplate is called; which templates that adds is C109 (for {DEFAULT} beside other patterns: none)."
  },
  {
   "property": "C102",
   "status": "proved",
   "theorems": [
    "Verif.Backend.C102_uses",
    "Verif.Backend.C102_asked",
    "Verif.Backend.C102_nothing",
    "Verif.Backend.C102_raised",
    "Verif.Backend.C102_unknown",
    "Verif.Backend.C102_options",
    "Verif.Backend.C102_log",
    "Verif.Backend.C102_refuted_fallback"
   ],
   "note": "Refutation beside the statement: no fallback for a backend that can be imported but not started (C102_refuted_fallback)."
  },
  {
   "property": "C103",
   "status": "proved",
   "theorems": [
    "Verif.Backend.C103_jails",
    "Verif.Backend.C103_accepted",
    "Verif.Backend.C103_broken",
    "Verif.Backend.C103_again",
    "Verif.Backend.C103_same",
    "Verif.Backend.C103_kept",
    "Verif.Backend.C103_refuted_same"
   ],
   "note": "Refutation beside the statement: a database opened read-only (C103_refuted_same)."
  },
  {
   "property": "C104",
   "status": "proved",
   "theorems": [
    "Verif.Locks.C104_progress",
    "Verif.Locks.C104_ends",
    "Verif.Locks.C104_exclusive",
    "Verif.Locks.C104_who",
    "Verif.Locks.C104_refuted_signal"
   ],
   "note": "Refutation beside the statement: a signal inside of a section of another lock (C104_refuted_signal). Assumed: commands of actions end (they have a time limit), actions written in Python take no locks."
  },
  {
   "property": "C105",
   "status": "proved",
   "theorems": [
    "Verif.Json.C105_plain",
    "Verif.Json.C105_back",
    "Verif.Json.C105_lost",
    "Verif.Json.C105_get",
    "Verif.Json.C105_cut",
    "Verif.Json.C105_matches",
    "Verif.Json.C105_refuted_keys"
   ],
   "note": "Floats are not modelled. Refutation beside the statement: keys of other types lose all data (C105_refuted_keys)."
  },
  {
   "property": "C106",
   "status": "proved",
   "theorems": [
    "Verif.Beautify.C106_others",
    "Verif.Beautify.C106_list",
    "Verif.Beautify.C106_regexes",
    "Verif.Beautify.C106_nothing",
    "Verif.Beautify.C106_read",
    "Verif.Beautify.C106_banned",
    "Verif.Beautify.C106_status_jail",
    "Verif.Beautify.C106_status",
    "Verif.Beautify.C106_status_all",
    "Verif.Beautify.C106_row",
    "Verif.Beautify.C106_table",
    "Verif.Beautify.C106_cells",
    "Verif.Beautify.C106_stats",
    "Verif.Beautify.C106_server",
    "Verif.Beautify.C106_actions",
    "Verif.Beautify.C106_filter",
    "Verif.Beautify.C106_own",
    "Verif.Beautify.C106_status_none",
    "Verif.Beautify.C106_errors",
    "Verif.Beautify.C106_refuted_lines",
    "Verif.Beautify.C106_refuted_name"
   ],
   "note": "What is shown after an exception in the client is not described. Refutations beside the statement: entries with line breaks (C106_refuted_lines), jails named like a setting of the server (C106_refuted_name)."
  },
  {
   "property": "C107",
   "status": "proved",
   "theorems": [
    "Verif.CmdLine.C107_words",
    "Verif.CmdLine.C107_command",
    "Verif.CmdLine.C107_usage",
    "Verif.CmdLine.C107_last",
    "Verif.CmdLine.C107_stop",
    "Verif.CmdLine.C107_params",
    "Verif.CmdLine.C107_run",
    "Verif.CmdLine.C107_end",
    "Verif.CmdLine.C107_go",
    "Verif.CmdLine.C107_dump",
    "Verif.CmdLine.C107_test",
    "Verif.CmdLine.C107_test_command",
    "Verif.CmdLine.C107_exact",
    "Verif.CmdLine.C107_defaults"
   ],
   "note": "getopt is part of Python and modelled from its source (3.12). Texts of usage and error messages are tags; the logger is left out. A value None from the configuration counts as missing."
  },
  {
   "property": "C108",
   "status": "proved",
   "theorems": [
    "Verif.Years.C108_year",
    "Verif.Years.C108_recognised",
    "Verif.Years.C108_only",
    "Verif.Years.C108_refuted_clock",
    "Verif.Years.C108_refuted_uptime",
    "Verif.Years.C108_seconds",
    "Verif.Years.C108_long"
   ],
   "note": "Digits are 0 to 9, float is taken as exact. Refutations beside the statement: wrong clock at the start (C108_refuted_clock), long uptime (C108_refuted_uptime)."
  },
  {
   "property": "C109",
   "status": "proved",
   "theorems": [
    "Verif.DefaultDates.C109_all",
    "Verif.DefaultDates.C109_used",
    "Verif.DefaultDates.C109_begin",
    "Verif.DefaultDates.C109_refuted_default",
    "Verif.DefaultDates.C109_default_ignored",
    "Verif.DefaultDates.C109_default_alone",
    "Verif.DefaultDates.C109_replaced",
    "Verif.DefaultDates.C109_every",
    "Verif.DefaultDates.C109_escaped",
    "Verif.DefaultDates.C109_within",
    "Verif.DefaultDates.C109_refuted_epoch",
    "Verif.DefaultDates.C109_names",
    "Verif.DefaultDates.C109_twice",
    "Verif.DefaultDates.C109_exact",
    "Verif.DefaultDates.C109_none",
    "Verif.DefaultDates.C109_refuted_iso",
    "Verif.DefaultDates.C109_shown",
    "Verif.DefaultDates.C109_name",
    "Verif.DefaultDates.C109_mark",
    "Verif.DefaultDates.C109_marks",
    "Verif.DefaultDates.C109_copies",
    "Verif.DefaultDates.C109_seconds"
   ],
   "note": "The cache of templates is left out (C101 says what it changes); weights belong to entries. The statement says what the code does; that {DEFAULT} beside others adds nothing and that {DATE} takes the word Epoch are defects, see the findings. That defaults are valid and what their names are is evaluated, for the table of defaults is a constant. Patterns with flags of their own and `%s` are simplified."
  },
  {
   "property": "C110",
   "status": "proved",
   "theorems": [
    "Verif.WordBounds.C110_begin",
    "Verif.WordBounds.C110_end",
    "Verif.WordBounds.C110_start",
    "Verif.WordBounds.C110_word",
    "Verif.WordBounds.C110_line",
    "Verif.WordBounds.C110_free",
    "Verif.WordBounds.C110_bounded",
    "Verif.WordBounds.C110_closed",
    "Verif.WordBounds.C110_opened",
    "Verif.WordBounds.C110_grouped",
    "Verif.WordBounds.C110_stars",
    "Verif.WordBounds.C110_refuted_dollar",
    "Verif.WordBounds.C110_flags",
    "Verif.WordBounds.C110_flags_front"
   ],
   "note": "The meaning of the bounds in `re` is modelled (lookahead, \\b, \\W, $), the inner expression is an arbitrary relation between line and positions. The begin is stated for dates that are not empty. C110_bounded and C110_stars are for expressions without flags and spaces around; others only by examples. Search in a part of the line is C62, C63."
  },
  {
   "property": "C111",
   "status": "proved",
   "theorems": [
    "Verif.StartArgs.C111_given",
    "Verif.StartArgs.C111_same",
    "Verif.StartArgs.C111_serves",
    "Verif.StartArgs.C111_level",
    "Verif.StartArgs.C111_words",
    "Verif.StartArgs.C111_refuted_pname",
    "Verif.StartArgs.C111_file",
    "Verif.StartArgs.C111_spawn",
    "Verif.StartArgs.C111_role",
    "Verif.StartArgs.C111_command"
   ],
   "note": "Uses the model of getopt and of the options (C107). The process that executes, fork and exec are outside; os.path is a parameter."
  },
  {
   "property": "C112",
   "status": "proved",
   "theorems": [
    "Verif.StartPhases.C112_phases",
    "Verif.StartPhases.C112_success",
    "Verif.StartPhases.C112_invalid",
    "Verif.StartPhases.C112_start",
    "Verif.StartPhases.C112_refuted_race",
    "Verif.StartPhases.C112_refuted_slow",
    "Verif.StartPhases.C112_foreground",
    "Verif.StartPhases.C112_daemon",
    "Verif.StartPhases.C112_refuted_daemon",
    "Verif.StartPhases.C112_final",
    "Verif.StartPhases.C112_failure",
    "Verif.StartPhases.C112_ends",
    "Verif.StartPhases.C112_stop",
    "Verif.StartPhases.C112_early",
    "Verif.StartPhases.C112_refuted_stop",
    "Verif.StartPhases.C112_quit"
   ],
   "note": "Reading of the configuration and the answer of the server are given by the environment (C99 has the sending). Finding (4) needs a server that is not up within the time out. The full claim that no server is started without a valid configuration is false; the statement says exactly when it can be."
  },
  {
   "property": "C113",
   "status": "proved",
   "theorems": [
    "Verif.General.C113_convert",
    "Verif.General.C113_value",
    "Verif.General.C113_unique",
    "Verif.General.C113_raises",
    "Verif.General.C113_jails",
    "Verif.General.C113_config",
    "Verif.General.C113_server",
    "Verif.General.C113_none",
    "Verif.General.C113_wrong",
    "Verif.General.C113_stack"
   ],
   "note": "Effects of logging and IPv6 commands are a parameter (accepted or not). That no key `thread` is among the settings of the command line is a hypothesis (fail2bancmdline.py sets no such key). Reads of values as in C67; `setDatabase` with jails is C103."
  },
  {
   "property": "C114",
   "status": "proved",
   "theorems": [
    "Verif.Googlebot.C114_name",
    "Verif.Googlebot.C114_accepts",
    "Verif.Googlebot.C114_codes",
    "Verif.Googlebot.C114_safe",
    "Verif.Googlebot.C114_text",
    "Verif.Googlebot.C114_ignored",
    "Verif.Googlebot.C114_refuted_case"
   ],
   "note": "The name service and the time limit are parameters. `C114_text` and `C114_ignored` assume that the text of the address reads as the same address (C31)."
  },
  {
   "property": "C115",
   "status": "proved",
   "theorems": [
    "Verif.Smtp.C115_format",
    "Verif.Smtp.C115_recipients",
    "Verif.Smtp.C115_host",
    "Verif.Smtp.C115_refuted_default",
    "Verif.Smtp.C115_encrypted",
    "Verif.Smtp.C115_quit",
    "Verif.Smtp.C115_returns",
    "Verif.Smtp.C115_lifecycle",
    "Verif.Smtp.C115_ban",
    "Verif.Smtp.C115_restored",
    "Verif.Smtp.C115_bantime",
    "Verif.Smtp.C115_refuted_bantime",
    "Verif.Smtp.C115_refuted_ssl"
   ],
   "note": "Results of `smtplib` are arbitrary. Headers other than the subject, and log messages, are left out. In `C115_ban` the kinds `head` and `tail` are excluded (they are keys of the same dictionary, so they would repeat these parts)."
  },
  {
   "property": "C116",
   "status": "proved",
   "theorems": [
    "Verif.RegexOut.C116_filled",
    "Verif.RegexOut.C116_printed",
    "Verif.RegexOut.C116_determined",
    "Verif.RegexOut.C116_nul",
    "Verif.RegexOut.C116_tokens",
    "Verif.RegexOut.C116_same",
    "Verif.RegexOut.C116_taken",
    "Verif.RegexOut.C116_process",
    "Verif.RegexOut.C116_refuted_tag"
   ],
   "note": "What the filter finds is arbitrary. Exceptions while tags are calculated are not modelled (`<bantime>` and `<jail.found>` need a jail, which fail2ban-regex does not have)."
  },
  {
   "property": "C117",
   "status": "proved",
   "theorems": [
    "Verif.RegexLoad.C117_loaded",
    "Verif.RegexLoad.C117_accepted",
    "Verif.RegexLoad.C117_options",
    "Verif.RegexLoad.C117_counted",
    "Verif.RegexLoad.C117_line",
    "Verif.RegexLoad.C117_ignore",
    "Verif.RegexLoad.C117_override",
    "Verif.RegexLoad.C117_server",
    "Verif.RegexLoad.C117_stop",
    "Verif.RegexLoad.C117_others",
    "Verif.RegexLoad.C117_filter",
    "Verif.RegexLoad.C117_refuted_jail",
    "Verif.RegexLoad.C117_refuted_journal"
   ],
   "note": "Which files a name stands for is a parameter (fail2banregex.py 339-435); their commands are those of the models of the readers (C66, C67)."
  },
  {
   "property": "C118",
   "status": "proved",
   "theorems": [
    "Verif.Daemon.C118_one",
    "Verif.Daemon.C118_detached",
    "Verif.Daemon.C118_files",
    "Verif.Daemon.C118_range",
    "Verif.Daemon.C118_caller",
    "Verif.Daemon.C118_children",
    "Verif.Daemon.C118_foreground",
    "Verif.Daemon.C118_command",
    "Verif.Daemon.C118_stdin",
    "Verif.Daemon.C118_refuted_unlimited",
    "Verif.Daemon.C118_refuted_fork"
   ],
   "note": "Process groups are left out; that closing fails is as if it did not. What the server does after line 124 is in other properties."
  },
  {
   "property": "C119",
   "status": "proved",
   "theorems": [
    "Verif.RegexName.C119_looks",
    "Verif.RegexName.C119_jail",
    "Verif.RegexName.C119_plain",
    "Verif.RegexName.C119_relative",
    "Verif.RegexName.C119_path",
    "Verif.RegexName.C119_read",
    "Verif.RegexName.C119_order",
    "Verif.RegexName.C119_foreign",
    "Verif.RegexName.C119_same",
    "Verif.RegexName.C119_options",
    "Verif.RegexName.C119_refuted_copy",
    "Verif.RegexName.C119_refuted_dot",
    "Verif.RegexName.C119_refuted_short",
    "Verif.RegexName.C119_refuted_foreign",
    "Verif.RegexName.C119_refuted_config"
   ],
   "note": "Included files (before, after) are left out; that a file exists means it can be read. Directories of configuration without slash at the end."
  },
  {
   "property": "C120",
   "status": "proved",
   "theorems": [
    "Verif.BgService.C120_one",
    "Verif.BgService.C120_apart",
    "Verif.BgService.C120_waitfree",
    "Verif.BgService.C120_call",
    "Verif.BgService.C120_next",
    "Verif.BgService.C120_refuted_new",
    "Verif.BgService.C120_refuted_count"
   ],
   "note": "Calls with wait=True, which only tests use, are left out; gc.collect is one step and raises nothing."
  },
  {
   "property": "C121",
   "status": "proved",
   "theorems": [
    "Verif.JournalArgs.C121_passed",
    "Verif.JournalArgs.C121_files",
    "Verif.JournalArgs.C121_flags",
    "Verif.JournalArgs.C121_error",
    "Verif.JournalArgs.C121_create",
    "Verif.JournalArgs.C121_refuted_nofile"
   ],
   "note": "What journal.Reader of python-systemd does with the arguments is outside."
  },
  {
   "property": "C122",
   "status": "proved",
   "theorems": [
    "Verif.TicketData.C122_set",
    "Verif.TicketData.C122_refused",
    "Verif.TicketData.C122_inplace",
    "Verif.TicketData.C122_pairs",
    "Verif.TicketData.C122_get",
    "Verif.TicketData.C122_sound",
    "Verif.TicketData.C122_alone",
    "Verif.TicketData.C122_new",
    "Verif.TicketData.C122_shared",
    "Verif.TicketData.C122_copied",
    "Verif.TicketData.C122_count",
    "Verif.TicketData.C122_parted",
    "Verif.TicketData.C122_equal",
    "Verif.TicketData.C122_copy_equal",
    "Verif.TicketData.C122_refuted_none",
    "Verif.TicketData.C122_refuted_first",
    "Verif.TicketData.C122_refuted_empty"
   ],
   "note": "Proved for all histories. Times are whole numbers (rounding to two places in comparisons is not modelled)."
  },
  {
   "property": "C123",
   "status": "proved",
   "theorems": [
    "Verif.Dispatch.C123_alone",
    "Verif.Dispatch.C123_reported",
    "Verif.Dispatch.C123_alone_poll",
    "Verif.Dispatch.C123_agree",
    "Verif.Dispatch.C123_error",
    "Verif.Dispatch.C123_asked",
    "Verif.Dispatch.C123_pass",
    "Verif.Dispatch.C123_end",
    "Verif.Dispatch.C123_refuted_reused",
    "Verif.Dispatch.C123_refuted_closed"
   ],
   "note": "Proved for all handlers. That handlers change their own connection and accept others only is an assumption of the model; stop of the server by a handler is in C97 and C98."
  },
  {
   "property": "C124",
   "status": "proved",
   "theorems": [
    "Verif.Interactive.C124_session",
    "Verif.Interactive.C124_determined",
    "Verif.Interactive.C124_first",
    "Verif.Interactive.C124_code",
    "Verif.Interactive.C124_refuted_code",
    "Verif.Interactive.C124_refuted_blank"
   ],
   "note": "Proved for all inputs and worlds. shlex.split is arbitrary. Signals and the missing of readline are not modelled."
  },
  {
   "property": "C125",
   "status": "proved",
   "theorems": [
    "Verif.Cymru.C125_fields",
    "Verif.Cymru.C125_entry",
    "Verif.Cymru.C125_order",
    "Verif.Cymru.C125_lists",
    "Verif.Cymru.C125_status",
    "Verif.Cymru.C125_missing",
    "Verif.Cymru.C125_question",
    "Verif.Cymru.C125_refuted_cut",
    "Verif.Cymru.C125_refuted_moved"
   ],
   "note": "Proved for all ban lists and answers. The statement is about the second read of the ban list; that it can differ from the addresses shown is C125_refuted_moved. Handlers of errors in geBanListExtended* and failures of getPTR are not modelled."
  },
  {
   "property": "C126",
   "status": "proved",
   "theorems": [
    "Verif.SafeLog.C126_safe",
    "Verif.SafeLog.C126_report",
    "Verif.SafeLog.C126_frame",
    "Verif.SafeLog.C126_handlers",
    "Verif.SafeLog.C126_quiet",
    "Verif.SafeLog.C126_flush",
    "Verif.SafeLog.C126_stderr",
    "Verif.SafeLog.C126_refuted_raise",
    "Verif.SafeLog.C126_refuted_first"
   ],
   "note": "Proved for all sequences of calls. The original functions of the logging package are arbitrary; which of their failures occur in practice (handlers of the package catch most) is not modelled. Sequences are of one thread."
  },
  {
   "property": "C127",
   "status": "proved",
   "theorems": [
    "Verif.WarnOnce.C127_gap",
    "Verif.WarnOnce.C127_warns",
    "Verif.WarnOnce.C127_text",
    "Verif.WarnOnce.C127_separate",
    "Verif.WarnOnce.C127_refuted_clock"
   ],
   "note": "Proved for all sequences of calls of one filter with a clock not before 1970. Both reads of the clock in a call give the same time. Which lines lead to a call is part of C35 and C58, not of this property."
  },
  {
   "property": "C128",
   "status": "proved",
   "theorems": [
    "Verif.Share.C128_access",
    "Verif.Share.C128_separate",
    "Verif.Share.C128_base",
    "Verif.Share.C128_same",
    "Verif.Share.C128_once",
    "Verif.Share.C128_refuted_base",
    "Verif.Share.C128_refuted_late"
   ],
   "note": "Proved for all sequences of reads by new readers. Changes of a parsed configuration after reading (merge_section, merge_defaults) and the storage of single included files, which has keys of its own, are not modelled."
  },
  {
   "property": "C129",
   "status": "proved",
   "theorems": [
    "Verif.CombOption.C129_name",
    "Verif.CombOption.C129_value",
    "Verif.CombOption.C129_cache",
    "Verif.CombOption.C129_answer",
    "Verif.CombOption.C129_stays",
    "Verif.CombOption.C129_refuted_stale"
   ],
   "note": "Proved for all files and lookups. get of the parser (with its interpolation), lower and character classes are arbitrary, except that a line break is white space and '/' is not in a word."
  },
  {
   "property": "C130",
   "status": "proved",
   "theorems": [
    "Verif.Pending.C130_way",
    "Verif.Pending.C130_saved",
    "Verif.Pending.C130_dead",
    "Verif.Pending.C130_past",
    "Verif.Pending.C130_returns",
    "Verif.Pending.C130_ends",
    "Verif.Pending.C130_refuted_dies",
    "Verif.Pending.C130_refuted_taken"
   ],
   "note": "Proved for all interleavings. popitem, insertion and updateLog (under the lock of the database) are single steps. The reading of lines, a log that cannot be opened after its position was changed, and the removal of logs are left out."
  }
 ]
}