{
 "claims": [
  {
   "property": "C01",
   "status": "proved",
   "theorems": [
    "HatEvent.C01_matcher"
   ],
   "note": "Full equivalence with the inductive specification Spec.Matches."
  },
  {
   "property": "C02",
   "status": "proved",
   "theorems": [
    "HatEvent.C02_py_subscription"
   ],
   "note": "Language, only-malformed-fails and well-formed-never-fails."
  },
  {
   "property": "C03",
   "status": "proved",
   "theorems": [
    "HatEvent.C03_c_subscription",
    "HatEvent.C03_c_agrees_with_py",
    "HatEvent.C03_same_acceptance",
    "HatEvent.C03_nul_differs"
   ],
   "note": "NUL-free segments; with NUL characters the implementations differ (witness)."
  },
  {
   "property": "C04",
   "status": "proved",
   "theorems": [
    "HatEvent.C04_listing_preserves_meaning",
    "HatEvent.C04_listing_py"
   ],
   "note": "For every obtainable subscription (created, union, intersection), both implementations."
  },
  {
   "property": "C05",
   "status": "proved",
   "theorems": [
    "HatEvent.C05_union"
   ],
   "note": "Any mix of implementations, any number of operands."
  },
  {
   "property": "C06",
   "status": "partial",
   "theorems": [
    "HatEvent.C06_intersection_refuted",
    "HatEvent.C06_intersection_sound_partial",
    "HatEvent.C06_intersection_partial"
   ],
   "note": "The code violates the property (witness ('a','*') and ('a',)). Proved: soundness for all, exactness at event types where no '*' stands for an empty tail."
  },
  {
   "property": "C07",
   "status": "partial",
   "theorems": [
    "HatEvent.C07_py_isdisjoint",
    "HatEvent.C07_py_isdisjoint_sound_partial",
    "HatEvent.C07_py_isdisjoint_intersection_refuted"
   ],
   "note": "Exact for subscriptions created from query types; for results of intersection only a positive answer is right (witness of a wrong negative answer)."
  },
  {
   "property": "C08",
   "status": "partial",
   "theorems": [
    "HatEvent.C08_c_isdisjoint_refuted",
    "HatEvent.C08_c_isdisjoint_sound_partial",
    "HatEvent.C08_c_isdisjoint_partial"
   ],
   "note": "The code violates the property (witness ('a',) and ('a','b')). Proved: a positive answer is always right; exact when no query type ends where one of the other side continues."
  },
  {
   "property": "C09",
   "status": "partial",
   "theorems": [
    "HatEvent.C09_list",
    "HatEvent.C09_ctree",
    "HatEvent.C09_pytree_sound_partial",
    "HatEvent.C09_pytree_partial",
    "HatEvent.C09_pytree_refuted",
    "HatEvent.C09_created",
    "HatEvent.C09_partitions"
   ],
   "note": "Exact for the list and C tree collections over every history. The Python tree loses query types when a value is added again (refuted with a witness); it is sound for every history and exact for histories without such re-additions."
  },
  {
   "property": "C10",
   "status": "proved",
   "theorems": [
    "HatEvent.C10_gt_is_newer",
    "HatEvent.C10_irreflexive",
    "HatEvent.C10_asymmetric",
    "HatEvent.C10_server_total",
    "HatEvent.C10_refines_time",
    "HatEvent.C10_transitive",
    "HatEvent.C10_lt_iff",
    "HatEvent.C10_lt_asymmetric_refuted",
    "HatEvent.C10_transitive_refuted"
   ],
   "note": "Transitivity needs the timestamps of each server to follow its ids (which the backend enforces); the refuted theorems show that it fails otherwise, and that __lt__ alone is not the mirror image of __gt__."
  },
  {
   "property": "C100",
   "status": "partial",
   "theorems": [
    "HatEvent.C100_own_partial",
    "HatEvent.C100_others_partial",
    "HatEvent.C100_persisted_refuted"
   ],
   "note": "clients with the persisted flag are notified after a flush, after their call of register may have returned (refuted); all other clients proved"
  },
  {
   "property": "C101",
   "status": "partial",
   "theorems": [
    "HatEvent.C101_engine",
    "HatEvent.C101_ends_partial",
    "HatEvent.C101_answered_partial",
    "HatEvent.C101_ends_refuted"
   ],
   "note": "a response received before send_msg of its request has returned is lost and the call does not end (refuted); all other schedules that go on proved"
  },
  {
   "property": "C102",
   "status": "partial",
   "theorems": [
    "HatEvent.C102_partial",
    "HatEvent.C102_crash_refuted",
    "HatEvent.C102_conditions_refuted"
   ],
   "note": "proved for what was flushed, for all restarts and crashes; events that were answered but not flushed are lost in a crash, and conditions of a later configuration may hide them (both refuted)"
  },
  {
   "property": "C103",
   "status": "partial",
   "theorems": [
    "HatEvent.C103_partial",
    "HatEvent.C103_next_partial",
    "HatEvent.C103_refuted"
   ],
   "note": "proved for clocks that are not set back and results without pending events out of order; with such pending events it is violated (C103_refuted)"
  },
  {
   "property": "C104",
   "status": "partial",
   "theorems": [
    "HatEvent.C104_partial",
    "HatEvent.C104_crash_refuted",
    "HatEvent.C104_partition_refuted",
    "HatEvent.C104_limit_refuted"
   ],
   "note": "proved for events that were flushed, partitions with the same description and without limits, and the assumptions of C103 on clock and order; violated otherwise (C104_crash_refuted, C104_partition_refuted, C104_limit_refuted)"
  },
  {
   "property": "C105",
   "status": "partial",
   "theorems": [
    "HatEvent.C105_reaches_partial",
    "HatEvent.C105_answered_partial",
    "HatEvent.C105_answered_refuted"
   ],
   "note": "proved for clients without the persisted flag, subscriptions without NUL if matched by C code, and if the response does not overtake send_msg (otherwise violated, C105_answered_refuted); nothing is claimed for persisted clients, whose notifications follow flushes"
  },
  {
   "property": "C106",
   "status": "partial",
   "theorems": [
    "HatEvent.C106_partial",
    "HatEvent.C106_clock_refuted"
   ],
   "note": "proved for events in order (identifiers increase, timestamps do not decrease for each server); violated if a clock is set back (C106_clock_refuted)"
  },
  {
   "property": "C107",
   "status": "partial",
   "theorems": [
    "HatEvent.C107_partial",
    "HatEvent.C107_series_partial",
    "HatEvent.C107_clock_refuted"
   ],
   "note": "proved for latest and timeseries queries of all later processes, for clocks that are not set back; with a clock that is set back events that were rejected are announced as persisted (C107_clock_refuted)"
  },
  {
   "property": "C108",
   "status": "proved",
   "theorems": [
    "HatEvent.C108_reaches",
    "HatEvent.C108_answered"
   ],
   "note": "endless schedules of a process with clients, engines and the flush loop; fairness of the process, the flush loop and the client, and that the client stays connected, are hypotheses"
  },
  {
   "property": "C109",
   "status": "partial",
   "theorems": [
    "HatEvent.C109_partial",
    "HatEvent.C109_observed_partial",
    "HatEvent.C109_in_order",
    "HatEvent.C109_lost_refuted",
    "HatEvent.C109_twice_refuted",
    "HatEvent.C109_cleanup_refuted"
   ],
   "note": "Proved for pages between which events are only registered and flushed, with pending events in key order at each page (holds for one server by timestamp, or flushed databases). Refuted otherwise: a flush between pages loses or repeats events with equal timestamps, a cleanup of the last received event ends the paging early."
  },
  {
   "property": "C11",
   "status": "proved",
   "theorems": [
    "HatEvent.C11_accepts",
    "HatEvent.C11_rejects",
    "HatEvent.C11_roundtrip",
    "HatEvent.C11_reads",
    "HatEvent.C11_order",
    "HatEvent.C11_bounds"
   ],
   "note": "Byte level model of struct packing."
  },
  {
   "property": "C110",
   "status": "proved",
   "theorems": [
    "HatEvent.C110_paging",
    "HatEvent.C110_observed"
   ],
   "note": "Any registrations, flushes and cleanups between the pages; the backend is not reopened between them."
  },
  {
   "property": "C111",
   "status": "proved",
   "theorems": [
    "HatEvent.C111_paging",
    "HatEvent.C111_observed",
    "HatEvent.C111_pending_refuted"
   ],
   "note": "Any actions between the pages, including ends of the process and restarts with other configurations. Not part of the claim: events that are not persisted (C111_pending_refuted)."
  },
  {
   "property": "C112",
   "status": "partial",
   "theorems": [
    "HatEvent.C112_partial",
    "HatEvent.C112_observed_partial",
    "HatEvent.C112_lost_refuted",
    "HatEvent.C112_config_refuted"
   ],
   "note": "Paging over registrations, flushes, cleanups and restarts with the same configuration, for partitions without limits and with nothing pending when a page is asked for. If the last received event is lost at a restart, or another configuration lets another partition answer, the paging ends early (C112_lost_refuted, C112_config_refuted)."
  },
  {
   "property": "C113",
   "status": "proved",
   "theorems": [
    "HatEvent.C113_found",
    "HatEvent.C113_same",
    "HatEvent.C113_stable",
    "HatEvent.C113_reused_refuted"
   ],
   "note": "Latest and timeseries answers are contained in the pages of the server query; equal identifiers mean equal events, for persisted events also over restarts. For events that are not persisted the identifier may be reused after a crash (C113_reused_refuted, outside the claim)."
  },
  {
   "property": "C114",
   "status": "partial",
   "theorems": [
    "HatEvent.C114_latest",
    "HatEvent.C114_timeseries_partial",
    "HatEvent.C114_server_partial",
    "HatEvent.C114_server_refuted",
    "HatEvent.C33_unflushed_refuted"
   ],
   "note": "Latest answers are equal, timeseries answers are equal if pending events are in the order of keys, server pages lose only events that were persisted. Server queries still return an event whose replacement is pending until the flush (C114_server_refuted); timeseries queries miss pending events that are out of order (C33_unflushed_refuted)."
  },
  {
   "property": "C115",
   "status": "proved",
   "theorems": [
    "HatEvent.C115_latest",
    "HatEvent.C115_timeseries",
    "HatEvent.C115_server"
   ],
   "note": "Latest answers are equal, server pages only lose events, and a complete timeseries answer becomes a sublist of itself, equal without limits, whatever the order of pending events."
  },
  {
   "property": "C12",
   "status": "proved",
   "theorems": [
    "HatEvent.C12_event_id_accepts",
    "HatEvent.C12_event_id_roundtrip",
    "HatEvent.C12_event_id_reads",
    "HatEvent.C12_event_id_order",
    "HatEvent.C12_event_id_injective",
    "HatEvent.C12_key_accepts",
    "HatEvent.C12_key_roundtrip",
    "HatEvent.C12_key_reads",
    "HatEvent.C12_key_order",
    "HatEvent.C12_key_injective",
    "HatEvent.C12_uint"
   ],
   "note": "Byte level model."
  },
  {
   "property": "C13",
   "status": "proved",
   "theorems": [
    "HatEvent.C13_roundtrip",
    "HatEvent.C13_reads",
    "HatEvent.C13_accepts"
   ],
   "note": ""
  },
  {
   "property": "C14",
   "status": "proved",
   "theorems": [
    "HatEvent.C14_event",
    "HatEvent.C14_register_event",
    "HatEvent.C14_timestamp",
    "HatEvent.C14_payload",
    "HatEvent.C14_status",
    "HatEvent.C14_status_unknown"
   ],
   "note": "hat-json text codec is a parameter assumed to read its own output back for the payload at hand; SBS byte serialisation not modelled."
  },
  {
   "property": "C15",
   "status": "proved",
   "theorems": [
    "HatEvent.C15_params",
    "HatEvent.C15_result"
   ],
   "note": "As C14."
  },
  {
   "property": "C16",
   "status": "proved",
   "theorems": [
    "HatEvent.C16_add",
    "HatEvent.C16_add_any",
    "HatEvent.C16_add_tie"
   ],
   "note": "Float rounding is a parameter with the error bound of double precision."
  },
  {
   "property": "C17",
   "status": "partial",
   "theorems": [
    "HatEvent.C17_negative_refuted",
    "HatEvent.C17_far_refuted",
    "HatEvent.C17_range",
    "HatEvent.C17_datetime_partial"
   ],
   "note": "False for negative whole seconds and from year 2514 on; proved otherwise within 2^33 seconds (272 years) of 1970, and where the conversion to datetimes succeeds"
  },
  {
   "property": "C18",
   "status": "proved",
   "theorems": [
    "HatEvent.C18_sessions",
    "HatEvent.C18_increasing",
    "HatEvent.C18_unique"
   ],
   "note": "All engine histories: sessions, instances, one timestamp, increasing and unique ids."
  },
  {
   "property": "C19",
   "status": "proved",
   "theorems": [
    "HatEvent.C19_result",
    "HatEvent.C19_registered"
   ],
   "note": "Results of register have the length, types, source timestamps and payloads of the request."
  },
  {
   "property": "C20",
   "status": "partial",
   "theorems": [
    "HatEvent.C20_once",
    "HatEvent.C20_error",
    "HatEvent.C20_partial",
    "HatEvent.C20_refuted"
   ],
   "note": "Refuted: a call made before the register loop runs is never answered if the engine closes first. Proved at most once for all histories, and answered for engines whose loop was started."
  },
  {
   "property": "C21",
   "status": "proved",
   "theorems": [
    "HatEvent.C21_sessions",
    "HatEvent.C21_requests"
   ],
   "note": "Every registered session is a complete session of one request in FIFO order; modules see matching events once and in order."
  },
  {
   "property": "C22",
   "status": "partial",
   "theorems": [
    "HatEvent.C22_started_partial",
    "HatEvent.C22_stopped",
    "HatEvent.C22_nothing_later",
    "HatEvent.C22_refuted"
   ],
   "note": "Refuted: an engine stopped during its first session registers only STOPPED. Proved otherwise."
  },
  {
   "property": "C23",
   "status": "proved",
   "theorems": [
    "HatEvent.C23_forward",
    "HatEvent.C23_repeats",
    "HatEvent.C23_last_id"
   ],
   "note": "histories with any flushes, cleanups, crashes and reconfigurations"
  },
  {
   "property": "C24",
   "status": "proved",
   "theorems": [
    "HatEvent.C24_latest"
   ],
   "note": "restarts may change anything but which events are shown"
  },
  {
   "property": "C25",
   "status": "proved",
   "theorems": [
    "HatEvent.C25_filter"
   ],
   "note": "all lookup strategies"
  },
  {
   "property": "C26",
   "status": "proved",
   "theorems": [
    "HatEvent.C26_unflushed_lost",
    "HatEvent.C26_failed",
    "HatEvent.C26_recovery"
   ],
   "note": "Reopening after any history answers from the flushed data only; a failed operation leaves the file unchanged; reopening after a flush gives the same answers."
  },
  {
   "property": "C27",
   "status": "proved",
   "theorems": [
    "HatEvent.C27_references"
   ],
   "note": "Under any history in which later conditions keep accepting latest events (in particular under one configuration); C28 shows the condition is needed."
  },
  {
   "property": "C28",
   "status": "partial",
   "theorems": [
    "HatEvent.C28_partial",
    "HatEvent.C28_refuted",
    "HatEvent.C28_references_refuted"
   ],
   "note": "Refuted: after conditions become stricter a server query returns an event twice. Holds for any change of partitions and latest subscription and for conditions that keep accepting latest events."
  },
  {
   "property": "C29",
   "status": "proved",
   "theorems": [
    "HatEvent.C29_counters"
   ],
   "note": "For any history."
  },
  {
   "property": "C30",
   "status": "proved",
   "theorems": [
    "HatEvent.C30_cleanup"
   ],
   "note": "For any history, limits, clock and rounding of durations."
  },
  {
   "property": "C31",
   "status": "proved",
   "theorems": [
    "HatEvent.C31_server",
    "HatEvent.C31_rejected"
   ],
   "note": "Server queries of all parameters after any history under C27's condition."
  },
  {
   "property": "C32",
   "status": "proved",
   "theorems": [
    "HatEvent.C32_paging"
   ],
   "note": "Identifiers of registered events must fit 64 bits."
  },
  {
   "property": "C33",
   "status": "partial",
   "theorems": [
    "HatEvent.C33_partial",
    "HatEvent.C33_in_order",
    "HatEvent.C33_negative",
    "HatEvent.C33_unflushed_refuted",
    "HatEvent.C33_partition_refuted"
   ],
   "note": "Refuted for unflushed events that are older than earlier ones, and for the choice of the partition with C subscriptions; proved for all other histories (flushed, or one server ordered by timestamp)."
  },
  {
   "property": "C34",
   "status": "proved",
   "theorems": [
    "HatEvent.C34",
    "HatEvent.C34_complete",
    "HatEvent.C33_in_order"
   ],
   "note": "All pages, of any positive size and in any reachable state, are what the query without limit returns (the list a query looks at has different ids); when pending events are in order this is every matching event once."
  },
  {
   "property": "C35",
   "status": "partial",
   "theorems": [
    "HatEvent.C35_order_partial",
    "HatEvent.C35_complete_partial",
    "HatEvent.C35_durable_partial",
    "HatEvent.C35_order_refuted",
    "HatEvent.C35_loss_refuted"
   ],
   "note": "event loop machine refines sequential histories; holds as long as no flush has failed; false after a failed flush (C58), because the flush loop flushes once more when it ends: the failed lists are skipped and later ones notified, and their latest events are not found after restart"
  },
  {
   "property": "C36",
   "status": "partial",
   "theorems": [
    "HatEvent.C36_partial",
    "HatEvent.C36_server_partial",
    "HatEvent.C36_timeseries_partial",
    "HatEvent.C36_refuted"
   ],
   "note": "every query result of any schedule is the result of a sequential history with a prefix of the registrations between start and end of the query, if no flush fails; false after a flush that failed because of a race with an ascending query"
  },
  {
   "property": "C37",
   "status": "partial",
   "theorems": [
    "HatEvent.C37_order",
    "HatEvent.C37_gapless",
    "HatEvent.C37_quiet",
    "HatEvent.C37_order_partial",
    "HatEvent.C37_partial",
    "HatEvent.C37_complete",
    "HatEvent.C37_refuted",
    "HatEvent.C37_unstored_refuted"
   ],
   "note": "Model of one connection between two servers (eventer_client.py with the remote flush, removal, notification and query sides). Proved for every schedule: what the local backend accepts are events of the remote server, in order and each once; nothing the remote still stores is skipped, and everything it stores was accepted when quiet. Without removals this is a gap-free beginning of the remote stored events, equal to them when quiet. Refuted: register may be called twice with an event (late notification) and with events the remote does not store."
  },
  {
   "property": "C38",
   "status": "proved",
   "theorems": [
    "HatEvent.C38_meanwhile",
    "HatEvent.C38_done"
   ],
   "note": "Calls for queried events are whole single sessions in order, for all page sizes and schedules."
  },
  {
   "property": "C39",
   "status": "proved",
   "theorems": [
    "HatEvent.C39_selected",
    "HatEvent.C39_others",
    "HatEvent.C39_sent"
   ],
   "note": "Event loop model of the eventer server; every interleaving of connections, messages, status changes and notification calls. The C subscription is covered for subtypes without NUL (C03)."
  },
  {
   "property": "C40",
   "status": "proved",
   "theorems": [
    "HatEvent.C40_known",
    "HatEvent.C40_rejected",
    "HatEvent.C40_admitted"
   ],
   "note": "Whole connection loop; tokens compared as strings; admission also needs a valid subscription, an open connection and a connected callback that does not raise."
  },
  {
   "property": "C41",
   "status": "proved",
   "theorems": [
    "HatEvent.C41_converged",
    "HatEvent.C41_current"
   ],
   "note": "Overlapping set_status calls, connects and disconnects at every await; a set_status caller is assumed not to be cancelled."
  },
  {
   "property": "C42",
   "status": "partial",
   "theorems": [
    "HatEvent.C42_partial",
    "HatEvent.C42_refuted"
   ],
   "note": "False as stated: a connection loop that stops fails the acknowledgment futures of all connections. Proved when no loop stops during the call."
  },
  {
   "property": "C43",
   "status": "partial",
   "theorems": [
    "HatEvent.C43_once",
    "HatEvent.C43_conversation",
    "HatEvent.C43_own",
    "HatEvent.C43_answered",
    "HatEvent.C43_closed",
    "HatEvent.C43_overtaken_refuted",
    "HatEvent.C43_unstarted_refuted"
   ],
   "note": "Event loop model of the eventer client. Missing: completion when the response is received before send_msg has returned, or when the connection closes before the receive loop starts; both are false."
  },
  {
   "property": "C44",
   "status": "partial",
   "theorems": [
    "HatEvent.C44_active_partial",
    "HatEvent.C44_client",
    "HatEvent.C44_callbacks",
    "HatEvent.C44_wakes",
    "HatEvent.C44_engine_partial",
    "HatEvent.C44_engine_refuted",
    "HatEvent.C44_delayed_refuted"
   ],
   "note": "remote_active is exact when no status callback is delayed and no lost client is being closed; callbacks are exact; the end of remote activity is not missed. False in general: another server can become active between the check and create_engine (await set_status(STARTING)), and the flag lags while _on_status waits for its registration. Partial: remote_active was false when it was checked."
  },
  {
   "property": "C45",
   "status": "proved",
   "theorems": [
    "HatEvent.C45_one",
    "HatEvent.C45_unique",
    "HatEvent.C45_servers",
    "HatEvent.C45_removed"
   ],
   "note": ""
  },
  {
   "property": "C46",
   "status": "proved",
   "theorems": [
    "HatEvent.C46_rejects",
    "HatEvent.C46_opened",
    "HatEvent.C46_identifier_kept"
   ],
   "note": ""
  },
  {
   "property": "C47",
   "status": "proved",
   "theorems": [
    "HatEvent.C47_conditions_c",
    "HatEvent.C47_conditions_py",
    "HatEvent.C47_condition"
   ],
   "note": "hat-json get and Python equality are modelled; NaN and infinities are not"
  },
  {
   "property": "C48",
   "status": "proved",
   "theorems": [
    "HatEvent.C48_description",
    "HatEvent.C48_identity",
    "HatEvent.C48_configured"
   ],
   "note": ""
  },
  {
   "property": "C49",
   "status": "proved",
   "theorems": [
    "HatEvent.C49_copies",
    "HatEvent.C49_references",
    "HatEvent.C49_skipped",
    "HatEvent.C49_exists"
   ],
   "note": "For every file with sorted tables and encodable references (true for every LMDB file) and both options."
  },
  {
   "property": "C50",
   "status": "partial",
   "theorems": [
    "HatEvent.C50_stored_partial",
    "HatEvent.C50_runs_partial",
    "HatEvent.C50_refuted",
    "HatEvent.C50_crash_refuted",
    "HatEvent.C50_dummy_refuted"
   ],
   "note": "Refuted: ids repeat if events are not selected for storage or are lost in a crash, and always with the dummy backend. Proved relative to stored events."
  },
  {
   "property": "C51",
   "status": "partial",
   "theorems": [
    "HatEvent.C51_latest_partial",
    "HatEvent.C51_callbacks",
    "HatEvent.C51_timeseries_refuted",
    "HatEvent.C51_server_refuted",
    "HatEvent.C51_last_refuted"
   ],
   "note": "Latest queries agree with the reference for events registered in order, callbacks get every registered event. Refuted: timeseries queries always raise UnboundLocalError, server queries and get_last_event_id raise AttributeError once an event is registered."
  },
  {
   "property": "C52",
   "status": "proved",
   "theorems": [
    "HatEvent.C52_connects",
    "HatEvent.C52_follows",
    "HatEvent.C52_settles"
   ],
   "note": "Monitor states, delayed state callbacks, creation and closing of the monitor runner and the server data loop at every await. The queue is unbounded in the model; closing of the whole component is not modelled."
  },
  {
   "property": "C53",
   "status": "partial",
   "theorems": [
    "HatEvent.C53_partial",
    "HatEvent.C53_refuted",
    "HatEvent.C53_loss_refuted"
   ],
   "note": "Refuted for source timestamps outside the byte representation (flush fails, backend closes, other pending events are lost); proved for storable events in every history."
  },
  {
   "property": "C54",
   "status": "partial",
   "theorems": [
    "HatEvent.C54_v07",
    "HatEvent.C54_v07_references",
    "HatEvent.C54_version",
    "HatEvent.C54_current",
    "HatEvent.C54_unknown_order",
    "HatEvent.C54_v06_partial",
    "HatEvent.C54_order",
    "HatEvent.C54_servers_refuted",
    "HatEvent.C54_mixed_refuted"
   ],
   "note": "Proved for every well-formed 0.7 file and every 0.6 file with events of one server. Refuted for 0.6 files with events of several servers: last identifiers are stored under the wrong server, and identifiers of an unknown server are merged with those of the file's server."
  },
  {
   "property": "C55",
   "status": "partial",
   "theorems": [
    "HatEvent.C55_partial",
    "HatEvent.C55_refuted"
   ],
   "note": "False as stated: the response for a cancelled request ends the receive loop. Proved as long as only waiting requests are answered."
  },
  {
   "property": "C56",
   "status": "proved",
   "theorems": [
    "HatEvent.C56_from_float",
    "HatEvent.C56_any",
    "HatEvent.C56_roundtrip"
   ],
   "note": "Float rounding is a parameter with the error bound of double precision."
  },
  {
   "property": "C57",
   "status": "partial",
   "theorems": [
    "HatEvent.C57_partial",
    "HatEvent.C57_refuted",
    "HatEvent.C57_stuck_refuted"
   ],
   "note": "Opening a new database file: if the process ends between the creation of the named databases, the file can never be opened again (refuted with a witness and for all later attempts); proved for creations that are not interrupted."
  },
  {
   "property": "C58",
   "status": "partial",
   "theorems": [
    "HatEvent.C58_partial",
    "HatEvent.C58_refuted"
   ],
   "note": "false: an ascending timeseries query inserts a key in the defaultdict of pending entries while the database thread iterates over it; holds without such races"
  },
  {
   "property": "C59",
   "status": "partial",
   "theorems": [
    "HatEvent.C59_refuted",
    "HatEvent.C58_partial"
   ],
   "note": "false: the final flush writes events registered during the failed one; partial: no flush fails for storable events without races (C58_partial)"
  },
  {
   "property": "C60",
   "status": "proved",
   "theorems": [
    "HatEvent.C60_flush",
    "HatEvent.C35_durable_partial"
   ],
   "note": "as long as no flush has failed (flush() raises otherwise)"
  },
  {
   "property": "C61",
   "status": "proved",
   "theorems": [
    "HatEvent.C61_acknowledged"
   ],
   "note": "Event loop model of the eventer client."
  },
  {
   "property": "C62",
   "status": "proved",
   "theorems": [
    "HatEvent.C62_operational",
    "HatEvent.C62_order",
    "HatEvent.C62_open",
    "HatEvent.C62_ended"
   ],
   "note": ""
  },
  {
   "property": "C63",
   "status": "partial",
   "theorems": [
    "HatEvent.C63_settings",
    "HatEvent.C63_last_event_id",
    "HatEvent.C63_last_timestamp",
    "HatEvent.C63_partition",
    "HatEvent.C63_timeseries",
    "HatEvent.C63_json",
    "HatEvent.C63_payload",
    "HatEvent.C63_ref_refuted",
    "HatEvent.C63_latest_refuted"
   ],
   "note": "Exact for settings, last ids, last timestamps, partitions, timeseries. Refuted: ref always raises TypeError; latest never prints a latest event."
  },
  {
   "property": "C64",
   "status": "partial",
   "theorems": [
    "HatEvent.C64_event_type",
    "HatEvent.C64_latest",
    "HatEvent.C64_timeseries_partial",
    "HatEvent.C64_subscribe",
    "HatEvent.C64_timeseries_refuted",
    "HatEvent.C64_server_refuted"
   ],
   "note": "Refuted: query server always raises TypeError; --order, --order-by and --last-event-id are always refused."
  },
  {
   "property": "C65",
   "status": "proved",
   "theorems": [
    "HatEvent.C65",
    "HatEvent.C65_no_failure"
   ],
   "note": "Every history and every pattern of allocation failures, on a model with addresses, freeing and reference counts."
  },
  {
   "property": "C66",
   "status": "partial",
   "theorems": [
    "HatEvent.C66_new_partial",
    "HatEvent.C66_get_partial",
    "HatEvent.C66_partial",
    "HatEvent.C66_no_failure_partial",
    "HatEvent.C66_refuted",
    "HatEvent.C66_leak_refuted",
    "HatEvent.C66_get_refuted"
   ],
   "note": "Refuted twice: a query type that ends with * leaves a reference behind, and get_query_types uses an unchecked PyTuple_New. Proved for all query types and failure patterns: memory and objects are given back, at most one reference to * for each such query type remains; everything is clean without stars."
  },
  {
   "property": "C67",
   "status": "partial",
   "theorems": [
    "HatEvent.C67_notified_partial",
    "HatEvent.C67_complete_partial",
    "HatEvent.C67_status",
    "HatEvent.C67_overlap_refuted"
   ],
   "note": "server and client joined by a FIFO connection; events with any property P whose notify_events calls do not overlap are seen exactly once and in order; overlapping calls may overtake each other (refuted)"
  },
  {
   "property": "C68",
   "status": "proved",
   "theorems": [
    "HatEvent.C68_order",
    "HatEvent.C68_result",
    "HatEvent.C68_roundtrip"
   ],
   "note": "responses in order, at most once, none skipped; end to end the result of a call is the callback result for its own message"
  },
  {
   "property": "C69",
   "status": "partial",
   "theorems": [
    "HatEvent.C69_order",
    "HatEvent.C69_status",
    "HatEvent.C69_reported_partial",
    "HatEvent.C69_late_refuted"
   ],
   "note": "Order and names for all histories; completeness for an engine that is in use from before the init request. Refuted in general: a client that connected before the engine was started is never reported to it."
  },
  {
   "property": "C70",
   "status": "partial",
   "theorems": [
    "HatEvent.C70_standby",
    "HatEvent.C70_answer_partial",
    "HatEvent.C70_answered_partial",
    "HatEvent.C70_refuted"
   ],
   "note": "Answered at once without engine, with what the engine returns, and in all histories while the loop runs or nothing raises. Refuted in general: if the engine closes, the connection is closed without response."
  },
  {
   "property": "C71",
   "status": "proved",
   "theorems": [
    "HatEvent.C71_read",
    "HatEvent.C71_initial",
    "HatEvent.C71_write",
    "HatEvent.C71_order",
    "HatEvent.C71_isolated"
   ],
   "note": "adminer server with its callbacks; dictConfig is an oracle that may fail"
  },
  {
   "property": "C72",
   "status": "proved",
   "theorems": [
    "HatEvent.C72_closed",
    "HatEvent.C72_once",
    "HatEvent.C72_order",
    "HatEvent.C72_made",
    "HatEvent.C72_flush",
    "HatEvent.C72_single",
    "HatEvent.C72_ends"
   ],
   "note": "life of the parts of the main runner; what a part does while it is open or being closed is in the other models"
  },
  {
   "property": "C73",
   "status": "partial",
   "theorems": [
    "HatEvent.C73_alternates",
    "HatEvent.C73_request_partial",
    "HatEvent.C73_token",
    "HatEvent.C73_wakes",
    "HatEvent.C73_returns",
    "HatEvent.C73_refuted"
   ],
   "note": "false for a request made during set_ready(True): it is cleared; proved for requests made while the loop waits for one"
  },
  {
   "property": "C74",
   "status": "partial",
   "theorems": [
    "HatEvent.C74_cancelled_partial",
    "HatEvent.C74_refuted",
    "HatEvent.C74_order_refuted"
   ],
   "note": "false: closing the client runner first ends the remote activity, a waiting engine runner starts; proved from the cancelling of the engine runner on"
  },
  {
   "property": "C75",
   "status": "partial",
   "theorems": [
    "HatEvent.C75_files_partial",
    "HatEvent.C75_success",
    "HatEvent.C75_existing",
    "HatEvent.C75_refused",
    "HatEvent.C75_refuted",
    "HatEvent.C75_failure_refuted",
    "HatEvent.C75_opened_refuted"
   ],
   "note": "refuted: the temporary file name is the destination name with .v07 appended and an existing file of this name is removed, even if it is the source; a failed conversion leaves a destination that a backend opens as a new empty database"
  },
  {
   "property": "C76",
   "status": "partial",
   "theorems": [
    "HatEvent.C76_order",
    "HatEvent.C76_clients",
    "HatEvent.C76_runner_partial",
    "HatEvent.C76_runners_partial",
    "HatEvent.C76_refuted"
   ],
   "note": "refuted: a loop cancelled between the return of the runner callback and its own resumption forgets the runner"
  },
  {
   "property": "C77",
   "status": "partial",
   "theorems": [
    "HatEvent.C77_reconnect",
    "HatEvent.C77_reconnect_closed",
    "HatEvent.C77_runner",
    "HatEvent.C77_survives",
    "HatEvent.C77_going_partial",
    "HatEvent.C77_refuted"
   ],
   "note": "refuted: if the connection is lost while the runner callback runs, CancelledError ends the client loop; the component stays open without connection"
  },
  {
   "property": "C78",
   "status": "proved",
   "theorems": [
    "HatEvent.C78_event",
    "HatEvent.C78_result",
    "HatEvent.C78_notification",
    "HatEvent.C78_hex"
   ],
   "note": "injectivity of the printed JSON"
  },
  {
   "property": "C79",
   "status": "partial",
   "theorems": [
    "HatEvent.C79_event",
    "HatEvent.C79_payload",
    "HatEvent.C79_default",
    "HatEvent.C79_exit",
    "HatEvent.C79_refuted"
   ],
   "note": "refuted: register is called without with_response, so the result is None and the exit code is 1 for every outcome"
  },
  {
   "property": "C80",
   "status": "partial",
   "theorems": [
    "HatEvent.C80_backend",
    "HatEvent.C80_engine_partial",
    "HatEvent.C80_refuted"
   ],
   "note": "refuted: when the clock is set back, the backend skips the events and the engine still answers with them; proved for timestamps that do not decrease"
  },
  {
   "property": "C81",
   "status": "partial",
   "theorems": [
    "HatEvent.C81_registered_partial",
    "HatEvent.C81_persisted",
    "HatEvent.C81_progress",
    "HatEvent.C81_cancelled",
    "HatEvent.C81_refuted"
   ],
   "note": "proved for registrations whose caller is not cancelled and for persisted clients; refuted when the caller of register is cancelled in the callback"
  },
  {
   "property": "C82",
   "status": "proved",
   "theorems": [
    "HatEvent.C82_uint",
    "HatEvent.C82_system",
    "HatEvent.C82_ordered_key",
    "HatEvent.C82_ref_key",
    "HatEvent.C82_refs",
    "HatEvent.C82_refs_unknown",
    "HatEvent.C82_event07",
    "HatEvent.C82_event06",
    "HatEvent.C82_payload_unknown",
    "HatEvent.C82_ordered_key06",
    "HatEvent.C82_version",
    "HatEvent.C82_opened",
    "HatEvent.C82_converted",
    "HatEvent.C82_unfinished"
   ],
   "note": "JSON text is a parameter that reads back what it wrote; the bytes of hat-sbs are not modelled. There is no encoder of 0.6 in the repository: what it wrote is given by its schema."
  },
  {
   "property": "C83",
   "status": "partial",
   "theorems": [
    "HatEvent.C83_backend",
    "HatEvent.C83_engine_partial",
    "HatEvent.C83_refuted"
   ],
   "note": "Invariant over histories: entries of the events of one server, registered in order, stay in partitions without a limit; joined with C18, C19, C33, C34. Refuted for pending events queried by source timestamp (answered, not returned until the next flush)."
  },
  {
   "property": "C84",
   "status": "partial",
   "theorems": [
    "HatEvent.C84_flushed",
    "HatEvent.C84_received",
    "HatEvent.C84_latest_partial",
    "HatEvent.C84_refuted"
   ],
   "note": "violated for events of two servers with one type and timestamp; proved for both directions without such ties, own events registered in order"
  },
  {
   "property": "C85",
   "status": "partial",
   "theorems": [
    "HatEvent.C85_states",
    "HatEvent.C85_count",
    "HatEvent.C85_synced",
    "HatEvent.C85_remote",
    "HatEvent.C85_local",
    "HatEvent.C85_open_partial",
    "HatEvent.C85_interrupted_refuted"
   ],
   "note": "states, count and both servers' reports proved; violated: a local engine that closes while it is given a report ends the connection"
  },
  {
   "property": "C86",
   "status": "proved",
   "theorems": [
    "HatEvent.C86_flush",
    "HatEvent.C86_refused",
    "HatEvent.C86_close",
    "HatEvent.C86_query"
   ],
   "note": "For all endless schedules in which the event loop and the database thread go on; failing flushes and cleanups included."
  },
  {
   "property": "C87",
   "status": "proved",
   "theorems": [
    "HatEvent.C87_event",
    "HatEvent.C87_lists"
   ],
   "note": "two LMDB backends that synchronise each other; partitions without a limit; whole lists with python subscriptions, single events with both"
  },
  {
   "property": "C88",
   "status": "proved",
   "theorems": [
    "HatEvent.C88_shown",
    "HatEvent.C88_settled",
    "HatEvent.C88_latest",
    "HatEvent.C88_event",
    "HatEvent.C88_lists"
   ],
   "note": "endless schedules over two LMDB backends and their synchronisation; an event has to stay shown and its session has to be flushed whole"
  },
  {
   "property": "C89",
   "status": "proved",
   "theorems": [
    "HatEvent.C89_order",
    "HatEvent.C89_latest",
    "HatEvent.C89_lists",
    "HatEvent.C89_settles",
    "HatEvent.C89_settles_latest",
    "HatEvent.C89_settles_lists"
   ],
   "note": "engines on both servers; assumes clocks not set back and partitions that take all events (C50 refutes the order otherwise)"
  },
  {
   "property": "C90",
   "status": "proved",
   "theorems": [
    "HatEvent.C90_answered",
    "HatEvent.C90_all",
    "HatEvent.C90_stops",
    "HatEvent.C90_closes",
    "HatEvent.C90_endless",
    "HatEvent.C90_inside"
   ],
   "note": "calls of register get outcomes in all fair endless schedules; what modules must not do is proved as well"
  },
  {
   "property": "C91",
   "status": "partial",
   "theorems": [
    "HatEvent.C91_same_partial",
    "HatEvent.C91_file",
    "HatEvent.C91_same_refuted"
   ],
   "note": "missing: configurations with a negative min_entries, for which the claim is refuted"
  },
  {
   "property": "C92",
   "status": "proved",
   "theorems": [
    "HatEvent.C92_connects",
    "HatEvent.C92_stops"
   ],
   "note": "endless schedules; bounded queue of server data, any capacity"
  },
  {
   "property": "C93",
   "status": "proved",
   "theorems": [
    "HatEvent.C93_again",
    "HatEvent.C93_stays",
    "HatEvent.C93_alone",
    "HatEvent.C93_ends"
   ],
   "note": "endless schedules; no other server active from some time on is a hypothesis, met without connected clients (C93_alone)"
  },
  {
   "property": "C94",
   "status": "partial",
   "theorems": [
    "HatEvent.C94_ends_partial",
    "HatEvent.C94_answered_partial",
    "HatEvent.C94_overtaken_refuted",
    "HatEvent.C94_unstarted_refuted",
    "HatEvent.C94_callback"
   ],
   "note": "The hypotheses LoopStarts and NotOvertaken are needed (the two refutations): a response that is received before send_msg returns is dropped, and a receive loop that is closed before it starts fails no future."
  },
  {
   "property": "C95",
   "status": "proved",
   "theorems": [
    "HatEvent.C95_bound",
    "HatEvent.C95_flush",
    "HatEvent.C95_all",
    "HatEvent.C95_cancelled"
   ],
   "note": "bound on unwritten events for all sizes; the hypothesis that no call is cancelled is needed"
  },
  {
   "property": "C96",
   "status": "partial",
   "theorems": [
    "HatEvent.C96_ends",
    "HatEvent.C96_flush_ends",
    "HatEvent.C96_closes",
    "HatEvent.C96_closed",
    "HatEvent.C96_order_partial",
    "HatEvent.C96_onebyone_partial",
    "HatEvent.C96_error_partial",
    "HatEvent.C96_order_refuted",
    "HatEvent.C96_error_refuted",
    "HatEvent.C96_unstarted_refuted"
   ],
   "note": "violated with a full queue (order of callbacks, QueueClosedError) and for a backend closed before its loop starts; proved otherwise"
  },
  {
   "property": "C97",
   "status": "partial",
   "theorems": [
    "HatEvent.C97_processed",
    "HatEvent.C97_told_partial",
    "HatEvent.C97_ends_partial",
    "HatEvent.C97_returns_partial",
    "HatEvent.C97_early_refuted",
    "HatEvent.C97_lost_refuted"
   ],
   "note": "Proved: an acknowledgment received by the server means that the client got exactly these events (C97_processed). Calls with acknowledgment return (C97_returns_partial) if neither the acknowledgment is received nor the connection loop ends between the sending of the message and the creation of its future; both cases are refuted (server.py:264-273). What a returned call tells (C97_told_partial) has the exception of C42: the end of any connection loop fails all futures."
  },
  {
   "property": "C98",
   "status": "partial",
   "theorems": [
    "HatEvent.C98_meaning",
    "HatEvent.C98_ends_partial",
    "HatEvent.C98_answered_partial",
    "HatEvent.C98_unstarted_refuted",
    "HatEvent.C98_overtaken_refuted"
   ],
   "note": "Every call ends with the stated meaning in all schedules that go on, if the receive loop has started before the client is closed; all calls are answered if no response is received before send_msg has returned. Both conditions are needed: see the refuted variants."
  },
  {
   "property": "C99",
   "status": "partial",
   "theorems": [
    "HatEvent.C99_registered",
    "HatEvent.C99_partial",
    "HatEvent.C99_clock_refuted"
   ],
   "note": "proved for every history in which the clock of the server is not set back; with a clock that is set back it is violated (C99_clock_refuted)"
  }
 ]
}
