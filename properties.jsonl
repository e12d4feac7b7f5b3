{"id": "C01", "title": "Query type matcher implements the documented wildcard rules", "statement": "matches_query_type(event_type, query_type) is true exactly when the query type can be read against the event type with '?' standing for one arbitrary segment, a final '*' standing for any (possibly empty) tail, and every other segment standing for itself.", "quantifier": "for every event type and every query type (any length, any segment strings, including segments equal to \"*\" or \"?\")", "why_tests_cant": "Both arguments range over an infinite set of tuples of strings; tests enumerate a handful of pairs.", "anchors": ["src_py/hat/event/common/matches.py:matches_query_type"]}
{"id": "C02", "title": "Python subscription matches exactly the union of its query types", "statement": "After a subscription is created from a list of query types, matches(event_type) is true exactly when at least one of the given query types matches the event type by the documented rules; creation fails with ValueError only if some given query type has \"*\" before its last position, and a list of well formed query types never fails.", "quantifier": "for every finite list of query types, in any order and with any overlaps, and for every event type", "why_tests_cant": "The trie is built destructively (\"*\" clears sibling branches, later types are dropped under \"*\"); correctness depends on every insertion order and every overlap.", "anchors": ["src_py/hat/event/common/subscription/common.py:node_from_query_types", "src_py/hat/event/common/subscription/common.py:_add_query_type", "src_py/hat/event/common/subscription/pysubscription.py:_matches", "src_py/hat/event/common/subscription/pysubscription.py:PySubscription.matches"]}
{"id": "C03", "title": "Native subscription agrees with the documented rules and with the Python one", "statement": "The C implementation of subscriptions accepts and rejects the same lists of query types and gives the same matches() answer for every event type as the union of the given query types (hence as the Python implementation).", "quantifier": "for every finite list of query types whose segments contain no NUL character, and every event type; with NUL characters the two implementations are shown to differ", "why_tests_cant": "Two independent implementations over unbounded inputs; tests compare them on nine cases.", "anchors": ["src_c/py/subscription/_csubscription.c:add_query_type", "src_c/py/subscription/_csubscription.c:matches", "src_py/hat/event/common/subscription/csubscription.py:CSubscription"]}
{"id": "C04", "title": "Listing the query types of a subscription preserves its meaning", "statement": "get_query_types() of a subscription yields query types that, when used to create a new subscription, match exactly the same event types; every listed query type is well formed (\"*\" only last).", "quantifier": "for every subscription created from query types or obtained by union/intersection, in both implementations, and for every event type", "why_tests_cant": "The sanitized list is what is sent over the wire (client init) and stored as partition identity; equality of languages is a statement about all event types.", "anchors": ["src_py/hat/event/common/subscription/common.py:node_to_query_types", "src_c/py/subscription/_csubscription.c:get_query_types", "src_py/hat/event/eventer/client.py:connect"]}
{"id": "C05", "title": "Union of subscriptions matches exactly what some operand matches", "statement": "union(*others) returns a subscription matching an event type exactly when the receiver or one of the others matches it.", "quantifier": "for every receiver and every finite list of subscriptions, and every event type", "why_tests_cant": "Union merges tries of arbitrary depth; wrong handling of one branch shows only for particular overlaps.", "anchors": ["src_py/hat/event/common/subscription/common.py:union", "src_py/hat/event/common/subscription/pysubscription.py:PySubscription.union", "src_py/hat/event/common/subscription/csubscription.py:CSubscription.union"]}
{"id": "C06", "title": "Intersection of subscriptions matches exactly what both operands match", "statement": "intersection(other) returns a subscription matching an event type exactly when both operands match it.", "quantifier": "for every pair of subscriptions and every event type", "why_tests_cant": "Language equality over all event types; the failing corner (a \"*\" on one side against a query type ending at the same depth on the other side) is not in the test table.", "anchors": ["src_py/hat/event/common/subscription/common.py:intersection", "src_py/hat/event/common/subscription/pysubscription.py:PySubscription.intersection", "src_py/hat/event/common/subscription/csubscription.py:CSubscription.intersection"]}
{"id": "C07", "title": "Python isdisjoint decides emptiness of the common event types", "statement": "isdisjoint(other) returns true exactly when no event type is matched by both subscriptions.", "quantifier": "for every pair of subscriptions created from query types (and, separately, for subscriptions produced by intersection)", "why_tests_cant": "A universally quantified negative statement over all event types.", "anchors": ["src_py/hat/event/common/subscription/pysubscription.py:_isdisjoint"]}
{"id": "C08", "title": "Native isdisjoint decides emptiness of the common event types", "statement": "isdisjoint(other) of the C implementation returns true exactly when no event type is matched by both subscriptions.", "quantifier": "for every pair of subscriptions", "why_tests_cant": "A universally quantified negative statement over all event types; it decides which partition a timeseries query reads.", "anchors": ["src_c/py/subscription/_csubscription.c:isdisjoint", "src_py/hat/event/backends/lmdb/timeseriesdb.py:TimeseriesDb.query"]}
{"id": "C09", "title": "Event type collections return exactly the currently registered matching values", "statement": "After any history of add(subscription, value) and remove(value), get(event_type) returns each value exactly once that was added with a subscription matching the event type and not removed since, and nothing else.", "quantifier": "for every history of add and remove operations, every event type, and each of the three implementations", "why_tests_cant": "The state depends on the whole history; sharing of tree nodes between subscriptions makes errors history dependent.", "anchors": ["src_py/hat/event/common/collection/pylist.py:PyListEventTypeCollection", "src_py/hat/event/common/collection/pytree.py:PyTreeEventTypeCollection", "src_py/hat/event/common/collection/ctree.py:CTreeEventTypeCollection", "src_c/py/collection/_ctree.c:add_value_to_tree", "src_c/py/collection/_ctree.c:get_values", "src_c/py/collection/_ctree.c:Collection_remove"]}
{"id": "C10", "title": "Natural ordering of events is a usable order", "statement": "Event comparison `>` is irreflexive and asymmetric; on every set of events in which each server's timestamps do not decrease with its event ids `>` is also transitive and never contradicts the timestamps; events of one server are totally ordered by event id. The comparison `<` agrees with `>` swapped except for equal timestamps of different servers.", "quantifier": "for every triple of events, and every history with per server monotone timestamps", "why_tests_cant": "Order laws quantify over all triples of events.", "anchors": ["src_py/hat/event/common/common.py:Event.__lt__", "src_py/hat/event/common/common.py:Event.__gt__"]}
{"id": "C11", "title": "Timestamp byte encoding is lossless and order preserving", "statement": "timestamp_from_bytes(timestamp_to_bytes(t)) equals t and the lexicographic order of encodings equals the order of timestamps, for every timestamp the encoder accepts; the encoder rejects exactly the values not representable.", "quantifier": "for all timestamps with s in [-2^63, 2^63) and us in [0, 2^32), i.e. including min_timestamp and max_timestamp", "why_tests_cant": "2^96 inputs, and order preservation is about pairs of them.", "anchors": ["src_py/hat/event/common/encoder.py:timestamp_to_bytes", "src_py/hat/event/common/encoder.py:timestamp_from_bytes", "src_py/hat/event/common/common.py:min_timestamp", "src_py/hat/event/common/common.py:max_timestamp"]}
{"id": "C12", "title": "Database keys are lossless and sort like the data they encode", "statement": "Encoded event ids and encoded timeseries keys decode to what was encoded, distinct keys have distinct encodings, and byte-wise comparison of encoded keys equals comparison of (partition, timestamp, server, session, instance), so an ordered cursor visits events in timestamp order within each partition and id order within each server.", "quantifier": "for all keys in the representable range", "why_tests_cant": "Pairs of 352 bit keys.", "anchors": ["src_py/hat/event/backends/lmdb/common.py:_encode_event_id", "src_py/hat/event/backends/lmdb/common.py:_decode_event_id", "src_py/hat/event/backends/lmdb/common.py:_encode_timeseries_key", "src_py/hat/event/backends/lmdb/common.py:_decode_timeseries_key", "src_py/hat/event/backends/lmdb/common.py:_encode_uint"]}
{"id": "C13", "title": "Reference sets survive storage", "statement": "Decoding the encoded set of event references gives exactly the same set.", "quantifier": "for every finite set of latest and timeseries references, of any size and in any iteration order", "why_tests_cant": "Variable length concatenated encoding; correctness is an induction over the sequence of references.", "anchors": ["src_py/hat/event/backends/lmdb/common.py:_encode_event_refs", "src_py/hat/event/backends/lmdb/common.py:_decode_event_refs"]}
{"id": "C14", "title": "Events and register events survive the wire format", "statement": "Converting an event, register event, timestamp, payload or status to its SBS form and back yields the original value, and the SBS form conforms to the message schema.", "quantifier": "for every event / register event (any type, optional source timestamp, any payload kind or none)", "why_tests_cant": "Optional fields and payload alternatives combine with unbounded data.", "anchors": ["src_py/hat/event/common/encoder.py:event_to_sbs", "src_py/hat/event/common/encoder.py:event_from_sbs", "src_py/hat/event/common/encoder.py:register_event_to_sbs", "src_py/hat/event/common/encoder.py:register_event_from_sbs", "src_py/hat/event/common/encoder.py:event_payload_to_sbs", "src_py/hat/event/common/encoder.py:event_payload_from_sbs", "schemas_sbs/eventer.sbs"]}
{"id": "C15", "title": "Query parameters and results survive the wire format", "statement": "Converting latest/timeseries/server query parameters and query results to SBS and back yields the original value, and the SBS form conforms to the message schema.", "quantifier": "for every combination of parameters and every result", "why_tests_cant": "Every combination of nine optional parameters with unbounded values.", "anchors": ["src_py/hat/event/common/encoder.py:query_params_to_sbs", "src_py/hat/event/common/encoder.py:query_params_from_sbs", "src_py/hat/event/common/encoder.py:query_result_to_sbs", "src_py/hat/event/common/encoder.py:query_result_from_sbs"]}
{"id": "C16", "title": "Timestamp arithmetic stays normalised and exact", "statement": "Timestamp.add(d) returns a timestamp with 0 <= us < 1000000 denoting exactly the original instant plus d (to the microsecond).", "quantifier": "for every normalised timestamp and every duration that is a whole number of microseconds, positive or negative", "why_tests_cant": "Carry and borrow cases over all sign combinations.", "anchors": ["src_py/hat/event/common/common.py:Timestamp.add"]}
{"id": "C17", "title": "Datetime conversion round trips", "statement": "timestamp_from_datetime(timestamp_to_datetime(t)) equals t.", "quantifier": "for every normalised timestamp in the datetime range (exact arithmetic)", "why_tests_cant": "The failing inputs (whole seconds before 1970) are a thin set that example tests miss.", "anchors": ["src_py/hat/event/common/encoder.py:timestamp_to_datetime", "src_py/hat/event/common/encoder.py:timestamp_from_datetime"]}
{"id": "C18", "title": "The engine assigns unique, gap free, increasing event ids", "statement": "Within one engine run every processed register request forms one session; session numbers increase by one, instances within a session are 1,2,3,... in registration order, all events of a session carry one timestamp and the engine's server id, and hence no two events of the run share an id.", "quantifier": "for every sequence of register requests, every module behaviour and every clock", "why_tests_cant": "Ids depend on the whole history of requests and on arbitrary module generated events.", "anchors": ["src_py/hat/event/server/engine.py:Engine._process_sessions", "src_py/hat/event/server/engine.py:Engine._create_session", "src_py/hat/event/server/engine.py:Engine._create_event"]}
{"id": "C19", "title": "Register responses correspond to the request", "statement": "The list of events returned for a register request has the same length as the request and its i-th event carries the i-th request's type, source timestamp and payload.", "quantifier": "for every request and every set of modules adding any number of further events to the session", "why_tests_cant": "Modules can add arbitrarily many events at arbitrary points.", "anchors": ["src_py/hat/event/server/engine.py:Engine.register", "src_py/hat/event/server/engine.py:Engine._register_loop"]}
{"id": "C20", "title": "Every register request is answered exactly once", "statement": "Each register call that was queued gets exactly one outcome: the registered events, or an error if the engine closes first; no queued request is left unanswered after the engine has closed, and no request is answered twice.", "quantifier": "for every interleaving of register calls, processing, failures and engine closing", "why_tests_cant": "Depends on the interleaving of closing with queued and in-flight requests.", "anchors": ["src_py/hat/event/server/engine.py:Engine.register", "src_py/hat/event/server/engine.py:Engine._register_loop"]}
{"id": "C21", "title": "Modules see each session event exactly once and in order", "statement": "During one session every module whose subscription matches an event gets that event exactly once, in session order; events generated by modules are added to the same session and are in turn offered to all modules; the whole session is passed to the backend in one register call.", "quantifier": "for every set of modules and every (terminating) behaviour of theirs", "why_tests_cant": "Recursion depth and module outputs are unbounded.", "anchors": ["src_py/hat/event/server/engine.py:Engine._process_sessions"]}
{"id": "C22", "title": "Engine lifetime is bracketed by started and stopped events", "statement": "The first event an engine registers is its STARTED status event and the last one is its STOPPED event, in a session of its own.", "quantifier": "for every sequence of requests and every closing point", "why_tests_cant": "Any number of requests may race with start and stop.", "anchors": ["src_py/hat/event/server/engine.py:create_engine", "src_py/hat/event/server/engine.py:Engine._register_loop"]}
{"id": "C23", "title": "The storage backend only moves forward per server and ignores repeats", "statement": "Events stored by the backend have strictly increasing ids and non-decreasing timestamps per server, whatever is passed to register; registering again events whose ids are not newer than the last stored one changes nothing that any query or get_last_event_id returns.", "quantifier": "for every history of register calls with arbitrary events (any servers, ids, timestamps, types)", "why_tests_cant": "Arbitrary histories, including replays during synchronisation.", "anchors": ["src_py/hat/event/backends/lmdb/backend.py:LmdbBackend.register", "src_py/hat/event/backends/lmdb/systemdb.py:SystemDb"]}
{"id": "C24", "title": "Latest query returns the newest event of each type", "statement": "A latest query returns, for each event type with stored events (allowed by the configuration), exactly one event of that type, and no event of that type registered so far is newer by the natural order.", "quantifier": "for every history of registrations from any number of servers, with flushes, crashes and restarts in between", "why_tests_cant": "Newest is a statement about all earlier events and depends on transitivity of the natural order.", "anchors": ["src_py/hat/event/backends/lmdb/latestdb.py:LatestDb.add", "src_py/hat/event/backends/lmdb/latestdb.py:LatestDb.query"]}
{"id": "C25", "title": "Latest query filtering does not depend on the lookup strategy", "statement": "A latest query with event types returns exactly the latest events whose type matches one of the query types, whichever of the internal lookup strategies is chosen.", "quantifier": "for every stored state and every optional list of query types", "why_tests_cant": "Strategy selection depends on the numbers of query types and stored types and on wildcards.", "anchors": ["src_py/hat/event/backends/lmdb/latestdb.py:LatestDb.query"]}
{"id": "C26", "title": "Crash recovery restores exactly the last completed flush", "statement": "After a crash at any point and reopening with the same configuration, all query results and last event ids are those of the events registered before the last completed flush (minus what completed cleanups removed): nothing flushed is lost, nothing unflushed appears, no registered session is split.", "quantifier": "for every history of register, flush, cleanup and every crash point between them", "why_tests_cant": "Crash points and histories are unbounded.", "anchors": ["src_py/hat/event/backends/lmdb/backend.py:create", "src_py/hat/event/backends/lmdb/backend.py:LmdbBackend._flush", "src_py/hat/event/backends/lmdb/backend.py:LmdbBackend._ext_flush"]}
{"id": "C27", "title": "Stored references are consistent at every crash point", "statement": "At every point at which the process can crash, the database's per-server index references exactly the events available in latest and timeseries storage: every reference points to a stored event with that id, every stored event is referenced, and no empty reference set is stored.", "quantifier": "for every history of register, flush and cleanup under one configuration", "why_tests_cant": "Invariant over all histories and crash points.", "anchors": ["src_py/hat/event/backends/lmdb/refdb.py:RefDb", "src_py/hat/event/backends/lmdb/latestdb.py:LatestDb.add", "src_py/hat/event/backends/lmdb/timeseriesdb.py:TimeseriesDb.ext_cleanup", "src_py/hat/event/backends/lmdb/backend.py:LmdbBackend._ext_flush", "src_py/hat/event/backends/lmdb/backend.py:LmdbBackend._ext_cleanup"]}
{"id": "C28", "title": "Reopening with a changed configuration keeps the server query correct", "statement": "After reopening a database with a different latest subscription or different conditions, a server query still returns each stored event at most once and under its own id.", "quantifier": "for every history and every change of configuration between runs", "why_tests_cant": "Needs a history spanning a restart with reconfiguration.", "anchors": ["src_py/hat/event/backends/lmdb/latestdb.py:ext_create", "src_py/hat/event/backends/lmdb/latestdb.py:LatestDb.add", "src_py/hat/event/backends/lmdb/refdb.py:RefDb.query"]}
{"id": "C29", "title": "Partition entry counters are exact", "statement": "The stored entry counter of every timeseries partition equals the number of entries stored in that partition.", "quantifier": "for every history of register, flush, cleanup and crash", "why_tests_cant": "Invariant over all histories; cleanup decisions depend on it.", "anchors": ["src_py/hat/event/backends/lmdb/timeseriesdb.py:TimeseriesDb.ext_write", "src_py/hat/event/backends/lmdb/timeseriesdb.py:TimeseriesDb.ext_cleanup", "src_py/hat/event/backends/lmdb/timeseriesdb.py:_ext_inc_partition_count", "src_py/hat/event/backends/lmdb/timeseriesdb.py:_ext_set_partition_count"]}
{"id": "C30", "title": "Cleanup removes only the oldest entries and honours the limits", "statement": "Cleanup of a partition removes a prefix of its oldest entries, never leaves fewer than min_entries entries when it removes anything, removes nothing that is within all limits, and when not stopped by the per-run result limit leaves at most max(min_entries, max_entries) entries and no expired entry beyond min_entries.", "quantifier": "for every partition content, every limit combination and every clock value", "why_tests_cant": "Combination of four optional limits with arbitrary contents.", "anchors": ["src_py/hat/event/backends/lmdb/timeseriesdb.py:_ext_cleanup_partition", "src_py/hat/event/backends/lmdb/timeseriesdb.py:TimeseriesDb.ext_cleanup"]}
{"id": "C31", "title": "Server query returns exactly the stored events of a server after an id", "statement": "A server query returns, in strictly increasing id order, the stored events of the requested server with id greater than last_event_id, truncated to max_results, with more_follows true exactly when something was cut off; with persisted=true only flushed events are considered; a last_event_id of another server is rejected.", "quantifier": "for every history of register, flush and cleanup and every combination of parameters", "why_tests_cant": "Result combines disk and pending changes over arbitrary histories.", "anchors": ["src_py/hat/event/backends/lmdb/refdb.py:RefDb.query", "src_py/hat/event/backends/lmdb/refdb.py:_ext_query_events", "src_py/hat/event/backends/lmdb/refdb.py:_query_changes"]}
{"id": "C32", "title": "Paging through a server query yields every event exactly once", "statement": "Repeating a server query with last_event_id set to the last received id until more_follows is false yields exactly the sequence returned by the unlimited query, without duplicates or omissions.", "quantifier": "for every stored state and every positive page size", "why_tests_cant": "Unbounded number of pages and contents.", "anchors": ["src_py/hat/event/backends/lmdb/refdb.py:RefDb.query", "src_py/hat/event/server/eventer_client.py:EventerClient._synchronize"]}
{"id": "C33", "title": "Timeseries query returns exactly the matching events in the requested order", "statement": "A timeseries query returns the events of the selected partition that match event types and both time ranges, ordered by the selected timestamp in the requested direction, truncated to max_results with more_follows true exactly when something was cut off.", "quantifier": "for every history and every combination of parameters", "why_tests_cant": "Result merges pending changes with stored ranges; order violations need particular histories (late source timestamps, several servers).", "anchors": ["src_py/hat/event/backends/lmdb/timeseriesdb.py:TimeseriesDb.query", "src_py/hat/event/backends/lmdb/timeseriesdb.py:TimeseriesDb._query_partition", "src_py/hat/event/backends/lmdb/timeseriesdb.py:_query_partition_changes", "src_py/hat/event/backends/lmdb/timeseriesdb.py:_ext_query_partition_events_range", "src_py/hat/event/backends/lmdb/timeseriesdb.py:_Filter"]}
{"id": "C34", "title": "Paging through a timeseries query yields every event exactly once", "statement": "Repeating a timeseries query with last_event_id set to the id of the last received event until more_follows is false yields exactly the sequence returned by the unlimited query.", "quantifier": "for every stored state and every positive page size", "why_tests_cant": "Unbounded number of pages and contents.", "anchors": ["src_py/hat/event/backends/lmdb/timeseriesdb.py:_Filter", "src_py/hat/event/backends/lmdb/timeseriesdb.py:TimeseriesDb._query_partition"]}
{"id": "C35", "title": "Persisted notification implies durability and keeps order", "statement": "The flushed-events callback is called once per register call, in the order of the calls, with exactly the registered list, and only after the flush containing these events has completed, so that a crash at or after the notification cannot lose them.", "quantifier": "for every history of register and flush and every crash point", "why_tests_cant": "Relates callback times to crash points over all histories.", "anchors": ["src_py/hat/event/backends/lmdb/backend.py:LmdbBackend._flush", "src_py/hat/event/backends/lmdb/backend.py:LmdbBackend.register"]}
{"id": "C36", "title": "Queries running concurrently with registration and flushing see each event exactly once", "statement": "A server or timeseries query that overlaps flushes and registrations returns no event twice and misses no event that was stored before the query started and not removed.", "quantifier": "for every interleaving of query, register and flush steps on the event loop and the single database thread", "why_tests_cant": "Depends on the schedule between event loop and database thread.", "anchors": ["src_py/hat/event/backends/lmdb/refdb.py:RefDb.query", "src_py/hat/event/backends/lmdb/timeseriesdb.py:TimeseriesDb._query_partition", "src_py/hat/event/backends/lmdb/backend.py:LmdbBackend._flush", "src_py/hat/event/backends/lmdb/environment.py:Environment"]}
{"id": "C37", "title": "Server synchronisation transfers every event exactly once and in order", "statement": "When the event client synchronises with a remote server, the sequence of events passed to the local backend, starting from the local last event id, is exactly the remote server's persisted event sequence: nothing lost, nothing duplicated, order kept, across the switch from querying to live notifications.", "quantifier": "for every page size and every interleaving of remote flushes, notifications, query pages and local registrations", "why_tests_cant": "The race between queried pages and live notifications depends on the schedule.", "anchors": ["src_py/hat/event/server/eventer_client.py:EventerClient._synchronize", "src_py/hat/event/server/eventer_client.py:EventerClient._on_events"]}
{"id": "C38", "title": "Synchronisation registers whole sessions", "statement": "During synchronisation every register call made to the local backend for queried events contains events of a single session, contains all queried events of that session, and the calls are made in session order, no matter how the pages cut the sessions.", "quantifier": "for every sequence of result pages of an increasing event sequence", "why_tests_cant": "Arbitrary page boundaries.", "anchors": ["src_py/hat/event/server/eventer_client.py:EventerClient._synchronize"]}
{"id": "C39", "title": "Clients are notified of exactly the events they asked for", "statement": "notify_events sends to a connected client exactly the events matching its subscription and its server id filter, in order and in one message, if and only if the persisted flag of the notification equals the one of the client and the selection is not empty; other clients get nothing.", "quantifier": "for every set of connections and every list of events", "why_tests_cant": "Arbitrary sets of clients and events.", "anchors": ["src_py/hat/event/eventer/server.py:Server.notify_events"]}
{"id": "C40", "title": "Token check admits exactly the permitted clients", "statement": "A connection is established exactly when the client presents no token or the server's token; a rejected client receives an error and no status or event notifications, and none of its requests is processed.", "quantifier": "for every client token, server token and sequence of messages", "why_tests_cant": "All message sequences from an unauthorised client.", "anchors": ["src_py/hat/event/server/eventer_server.py:EventerServer._on_connected", "src_py/hat/event/eventer/server.py:Server._connection_loop"]}
{"id": "C41", "title": "Clients converge to the server status", "statement": "Whenever no status change is being distributed, the last status sent to every connected client equals the server status.", "quantifier": "for every interleaving of connects, disconnects and (overlapping) status changes", "why_tests_cant": "Race between initial response and notification depends on the schedule.", "anchors": ["src_py/hat/event/eventer/server.py:Server.set_status", "src_py/hat/event/eventer/server.py:Server._notify_status", "src_py/hat/event/eventer/server.py:Server._connection_loop"]}
{"id": "C42", "title": "Acknowledged notification waits for every addressed client", "statement": "notify_events(with_ack=True) returns only after every addressed client has acknowledged the events or has disconnected.", "quantifier": "for every set of clients and every interleaving of acknowledgments and disconnects", "why_tests_cant": "Needs a disconnect of one client while another has not acknowledged.", "anchors": ["src_py/hat/event/eventer/server.py:Server._notify_events", "src_py/hat/event/eventer/server.py:Server._connection_loop"]}
{"id": "C43", "title": "Client requests always complete with the matching response", "statement": "Every register-with-response and query call of the eventer client completes exactly once: with the response carrying its own conversation, or with an error when the connection closes; responses are never delivered to a different call.", "quantifier": "for every interleaving of calls, responses (in any order), cancellations and closing", "why_tests_cant": "Schedule dependent.", "anchors": ["src_py/hat/event/eventer/client.py:Client.register", "src_py/hat/event/eventer/client.py:Client.query", "src_py/hat/event/eventer/client.py:Client._wait_conv_res", "src_py/hat/event/eventer/client.py:Client._receive_loop"]}
{"id": "C44", "title": "A server runs its engine only while no other server is known to be active", "statement": "remote_active is true exactly when some currently connected remote server last reported a status other than STANDBY, its change callback fires exactly on changes, and the engine runner creates its engine only when remote_active is false.", "quantifier": "for every sequence of connects, status reports and disconnects of any number of remote servers", "why_tests_cant": "Arbitrary sequences over arbitrary many servers.", "anchors": ["src_py/hat/event/server/eventer_client_runner.py:EventerClientRunner._set_client_status", "src_py/hat/event/server/eventer_client_runner.py:EventerClientRunner.remote_active", "src_py/hat/event/server/engine_runner.py:EngineRunner._run"]}
{"id": "C45", "title": "Every valid remote server is handled by exactly one client loop", "statement": "At every point each remote server listed in the current monitor state has exactly one running client loop, and a removed server's loop ends after its connection closes.", "quantifier": "for every sequence of monitor states and every interleaving with loop terminations", "why_tests_cant": "Schedule dependent.", "anchors": ["src_py/hat/event/server/eventer_client_runner.py:EventerClientRunner.set_monitor_state", "src_py/hat/event/server/eventer_client_runner.py:EventerClientRunner._client_loop"]}
{"id": "C46", "title": "A database is opened only with its own version and identifier", "statement": "Opening fails if the stored version differs or if both a stored and a configured identifier exist and differ; once an identifier has been stored it is never changed by any sequence of openings.", "quantifier": "for every sequence of openings with arbitrary configurations", "why_tests_cant": "Sequences of openings.", "anchors": ["src_py/hat/event/backends/lmdb/systemdb.py:_ext_validate_settings"]}
{"id": "C47", "title": "Conditions decide storage exactly", "statement": "An event is accepted by the configured conditions exactly when it satisfies every condition whose subscription matches its type, with all/any/json conditions having their usual meaning.", "quantifier": "for every configuration and every event", "why_tests_cant": "Nested conditions and unbounded payloads.", "anchors": ["src_py/hat/event/backends/lmdb/conditions.py:Conditions", "src_py/hat/event/backends/lmdb/conditions.py:_create_condition"]}
{"id": "C48", "title": "Partition identity is stable across restarts", "statement": "Reopening with any configuration assigns to a partition with the same ordering and query types the same identity as before, never assigns one identity to two different (ordering, query types) combinations, and keeps the data of unconfigured partitions.", "quantifier": "for every sequence of configurations", "why_tests_cant": "Sequences of restarts.", "anchors": ["src_py/hat/event/backends/lmdb/timeseriesdb.py:_ext_init_partitions", "src_py/hat/event/backends/lmdb/timeseriesdb.py:ext_create"]}
{"id": "C49", "title": "Copying a database keeps the reference index consistent", "statement": "Copying a database, with or without skipping latest or timeseries data, produces a database whose index references exactly the copied events.", "quantifier": "for every consistent source database and every option combination", "why_tests_cant": "Arbitrary database contents.", "anchors": ["src_py/hat/event/backends/lmdb/manager/copy.py:copy"]}
{"id": "C50", "title": "Event ids are unique across engine restarts", "statement": "Two events created by a server in different engine runs never have the same id.", "quantifier": "for every history of engine runs, storage configurations and crashes", "why_tests_cant": "Needs a history spanning restarts and storage filters.", "anchors": ["src_py/hat/event/server/engine.py:create_engine", "src_py/hat/event/backends/lmdb/backend.py:LmdbBackend.register", "src_py/hat/event/backends/lmdb/systemdb.py:SystemDb.get_last_event_id"]}
{"id": "C51", "title": "The memory backend answers all queries", "statement": "Latest, timeseries and server queries and get_last_event_id on the memory backend return the events registered so far that match the parameters.", "quantifier": "for every history of registrations and every query", "why_tests_cant": "Arbitrary histories and parameters; existing tests only create the backend.", "anchors": ["src_py/hat/event/backends/memory.py:MemoryBackend"]}
{"id": "C52", "title": "The component follows the active event server", "statement": "The component connects only to a server of its server group whose blessing token is granted and whose token is compatible, and after any sequence of monitor states the client loop that is running is the one for the latest active server data (none if there is none).", "quantifier": "for every sequence of monitor states", "why_tests_cant": "Arbitrary sequences and interleavings.", "anchors": ["src_py/hat/event/component.py:Component._on_state", "src_py/hat/event/component.py:Component._get_active_server_data", "src_py/hat/event/component.py:Component._server_data_loop"]}
{"id": "C53", "title": "A register request cannot stop the storage backend", "statement": "No register request, whatever its source timestamps are, makes a later flush fail or loses other pending events.", "quantifier": "for every register request accepted by the wire format", "why_tests_cant": "The wire format allows integers outside the storable range; examples use ordinary timestamps.", "anchors": ["src_py/hat/event/backends/lmdb/timeseriesdb.py:TimeseriesDb.ext_write", "src_py/hat/event/backends/lmdb/common.py:_encode_timeseries_key", "src_py/hat/event/backends/lmdb/backend.py:LmdbBackend._flush_loop"]}
{"id": "C54", "title": "Database conversion preserves events and references", "statement": "Converting an old database to the current version preserves every stored event (type, timestamps, payload), maps event ids injectively and in order for each server, and keeps last event ids and references consistent.", "quantifier": "for every source database", "why_tests_cant": "Arbitrary database contents.", "anchors": ["src_py/hat/event/backends/lmdb/convert/convert_v06_to_v07.py:convert", "src_py/hat/event/backends/lmdb/convert/convert_v07_to_v09.py:convert"]}
{"id": "C55", "title": "Cancelling one admin request does not disturb the others", "statement": "If a caller of an adminer client request gives up (is cancelled), other pending and later requests of the same client still complete with their own responses.", "quantifier": "for every interleaving of requests, cancellations and responses", "why_tests_cant": "Schedule dependent.", "anchors": ["src_py/hat/event/adminer/client.py:Client._receive_loop"]}
{"id": "C56", "title": "Timestamps survive the conversion to and from seconds as a float", "statement": "timestamp_from_float(timestamp_to_float(t)) is t for every normal timestamp within 2**31 seconds of the epoch, and timestamp_from_float always gives a timestamp with 0 <= us < 1e6 less than one microsecond away from its argument.", "quantifier": "for every timestamp in the range, and every float", "why_tests_cant": "Rounding behaviour over all microseconds and signs.", "anchors": ["src_py/hat/event/common/encoder.py:timestamp_to_float", "src_py/hat/event/common/encoder.py:timestamp_from_float"]}
{"id": "C57", "title": "An interrupted database creation can be repeated", "statement": "If the process stops at any point while a new database is being created, opening the same path later succeeds.", "quantifier": "for every crash point during the first opening", "why_tests_cant": "Crash points between separate transactions.", "anchors": ["src_py/hat/event/backends/lmdb/environment.py:Environment._ext_init", "src_py/hat/event/backends/lmdb/environment.py:create"]}
{"id": "C58", "title": "Queries never make a flush fail", "statement": "If all registered events can be stored, every flush succeeds, whatever queries run at the same time.", "quantifier": "for every interleaving of registrations, queries, flushes and cleanups on the event loop and the database thread", "why_tests_cant": "Depends on the schedule between event loop and database thread.", "anchors": ["src_py/hat/event/backends/lmdb/timeseriesdb.py:TimeseriesDb._query_partition", "src_py/hat/event/backends/lmdb/timeseriesdb.py:TimeseriesDb.ext_write", "src_py/hat/event/backends/lmdb/backend.py:LmdbBackend._flush"]}
{"id": "C59", "title": "After a failed flush the file contains a prefix of the registered events", "statement": "When a flush fails and the backend closes, the file holds the events of some prefix of the register calls: no later event is stored without the earlier ones.", "quantifier": "for every interleaving and every failed flush", "why_tests_cant": "Depends on failures and on registrations during the failing flush.", "anchors": ["src_py/hat/event/backends/lmdb/backend.py:LmdbBackend._flush_loop", "src_py/hat/event/backends/lmdb/backend.py:LmdbBackend._flush"]}
{"id": "C60", "title": "flush() returns after everything registered before it is durable", "statement": "When a call of flush() returns without exception, all events registered before the call are written and their callback has been called.", "quantifier": "for every interleaving of register, flush calls, periodic flushes and closing", "why_tests_cant": "Depends on the order of requests in the flush queue.", "anchors": ["src_py/hat/event/backends/lmdb/backend.py:LmdbBackend.flush", "src_py/hat/event/backends/lmdb/backend.py:LmdbBackend._flush_loop"]}
{"id": "C61", "title": "Events are acknowledged only after they were processed", "statement": "The eventer client acknowledges a notification that wants an acknowledgment only after its events callback has finished for this notification.", "quantifier": "for every interleaving of notifications, callbacks, requests and closing", "why_tests_cant": "Depends on the interleaving of the receive loop with callbacks of any length.", "anchors": ["src_py/hat/event/eventer/client.py:Client._process_msg_events_notify", "src_py/hat/event/eventer/client.py:Client._receive_loop"]}
{"id": "C62", "title": "Announced statuses follow the life of the engine", "statement": "The engine runner announces OPERATIONAL exactly together with its engine, STARTING only after STANDBY, OPERATIONAL only after STARTING and STANDBY only after STOPPING; while an engine is open OPERATIONAL is the last announced status, and after the runner ended it is not.", "quantifier": "for every history of remote activity, restarts, engine failures, exceptions and cancelling", "why_tests_cant": "Restarts, failures and cancelling can happen at every await; the number of restarts is not bounded.", "anchors": ["src_py/hat/event/server/engine_runner.py:EngineRunner._run", "src_py/hat/event/server/engine_runner.py:EngineRunner._close"]}
{"id": "C63", "title": "LMDB manager query prints exactly the selected stored entries", "statement": "hat-event-lmdb-manager query prints, for each subaction, exactly the stored entries selected by its arguments (settings; last event ids and timestamps of the wanted server; references; latest events of the wanted types; partitions; timeseries events of the wanted partition, server and types), and the JSON of an event determines the event.", "quantifier": "all database files, all subactions and arguments", "why_tests_cant": "tests would use a few files and arguments; the claim is about every file", "anchors": ["src_py/hat/event/backends/lmdb/manager/query.py:query", "src_py/hat/event/backends/lmdb/manager/common.py:event_to_json"]}
{"id": "C64", "title": "Command line manager sends the query asked for", "statement": "hat-event-manager query sends the query described by its command line (type, event types split at slashes, bounds, order, paging), and subscribe subscribes to the given types or to all.", "quantifier": "all command lines that follow the documented options", "why_tests_cant": "tests would try a few option combinations; the claim is about every combination", "anchors": ["src_py/hat/event/manager/main.py:main", "src_py/hat/event/manager/main.py:_parse_event_type", "src_py/hat/event/manager/main.py:_parse_event_id", "src_py/hat/event/manager/main.py:_parse_order"]}
{"id": "C65", "title": "The C tree collection is memory safe and gives everything back", "statement": "Whatever additions and removals are made and whatever allocations fail, the C implementation of the event type collection never uses memory that is not allocated (no use after free, no double free, no wrong pointer), an addition that could not allocate raises and leaves the other registrations found as before, values are referenced only while they are registered, and destroying the collection frees all its memory and releases all its references.", "quantifier": "all histories of additions and removals, all patterns of failing allocations, all values", "why_tests_cant": "allocation failures can not be provoked one by one in tests, and a wrong link in a list shows only after particular histories", "anchors": ["src_c/py/collection/_ctree.c:add_value_to_tree", "src_c/py/collection/_ctree.c:Collection_remove", "src_c/py/collection/_ctree.c:free_tree_node", "src_py/hat/event/common/collection/ctree.py:CTreeEventTypeCollection"]}
{"id": "C66", "title": "The C subscription gives back what it takes", "statement": "Creating a subscription of the C implementation, reading its query types any number of times and destroying it leaves no memory and no reference behind, whichever allocations fail; a failed allocation raises an exception and is never used; what is created and read is what the Python implementation specifies.", "quantifier": "all lists of query types, all numbers of reads, all patterns of failing allocations", "why_tests_cant": "leaked references are invisible to functional tests, and allocation failures can not be provoked one by one", "anchors": ["src_c/py/subscription/_csubscription.c:add_query_type", "src_c/py/subscription/_csubscription.c:get_query_types", "src_c/py/subscription/_csubscription.c:Subscription_new", "src_c/py/subscription/_csubscription.c:free_children"]}
{"id": "C67", "title": "A subscribed client sees every event it asked for once and in order", "statement": "The events a connected client is told by its callback are, in the order of notify_events calls on the server and without repetition or gap, those it asked for (subscription, server id, persisted flag) since it became known; once everything is delivered and nothing is running it was told all of them, and its status is the status of the server.", "quantifier": "all histories of the server with any number of other clients, of the client and of the connection, all delays of messages", "why_tests_cant": "end to end claim over two machines and the delays between them; tests see a few schedules", "anchors": ["src_py/hat/event/eventer/server.py:Server.notify_events", "src_py/hat/event/eventer/server.py:Server.set_status", "src_py/hat/event/eventer/client.py:connect", "src_py/hat/event/eventer/client.py:Client._receive_loop"]}
{"id": "C68", "title": "A response belongs to its own request from end to end", "statement": "The server answers the requests of each client in the order received, each at most once and none is skipped while the connection lives; what a call of register or query of the client returns is what the server callback gave while handling the message of this very call.", "quantifier": "all histories of the server with any number of other clients, of the client with any number of concurrent and cancelled calls, and all delays of messages", "why_tests_cant": "mixed up responses need particular interleavings of calls, cancellations and delays", "anchors": ["src_py/hat/event/eventer/server.py:Server._connection_loop", "src_py/hat/event/eventer/server.py:Server._process_msg_register", "src_py/hat/event/eventer/server.py:Server._process_msg_query", "src_py/hat/event/eventer/client.py:Client.register", "src_py/hat/event/eventer/client.py:Client.query"]}
{"id": "C69", "title": "Engine is told when eventer clients come and go", "statement": "For each connection of the eventer server the engine gets a CONNECTED event at most once and before every other registration of that connection, then the register requests of the client, then a DISCONNECTED event at most once and only after the connection has ended, both with the name of the client. A client that is known while an engine is in use was reported to that engine as CONNECTED, and is reported as DISCONNECTED when its connection ends.", "quantifier": "all histories of connections, requests, lost connections, engine results and failures, changes of status and closing engines", "why_tests_cant": "tests connect one client to one running engine; the order of callbacks of many connections with engine changes in between is not enumerable", "anchors": ["src_py/hat/event/server/eventer_server.py:58-114", "src_py/hat/event/eventer/server.py:130-211"]}
{"id": "C70", "title": "Register requests that want a response get one", "statement": "A register request that is not the last message of its conversation is answered with MsgRegisterRes: with the events the engine has created, or with failure if there is no engine or the engine could not register them. The connection stays usable.", "quantifier": "all histories of the eventer server and its engines", "why_tests_cant": "the engine may close between any two steps of a request; tests use engines that are either set or not set for a whole test", "anchors": ["src_py/hat/event/server/eventer_server.py:100-105", "src_py/hat/event/eventer/server.py:213-234", "src_py/hat/event/server/engine.py:80-95", "docs/eventer.rst:126-133"]}
{"id": "C71", "title": "Log configuration is read back as written", "statement": "A request for the log configuration is answered with the configuration written last by any client, or with that of the event server before the first successful write. A write is answered with its success and a failed one does not change what is read. Requests of one connection are answered in order and once, and what one client sends has no effect on the connections of others.", "quantifier": "all histories of any number of administration connections, lost connections, wrong messages and failing writes", "why_tests_cant": "interleavings of several clients with failures are not enumerable by tests", "anchors": ["src_py/hat/event/adminer/server.py:46-111", "src_py/hat/event/server/adminer_server.py:10-43"]}
{"id": "C72", "title": "Nothing survives the end of an event server", "statement": "Whenever the run of an event server is over, for whatever reason and at whatever point of its start, all parts it has created are closed, each once, and each only after the parts that use it; before the eventer server is closed the backend is flushed, after every engine has been closed. There is never more than one engine runner. Once told to stop the server ends.", "quantifier": "all configurations with or without adminer and monitor, all histories of starting, failing, cancelling and blessing", "why_tests_cant": "a failure may happen at any of the awaits of start and stop, with the monitor changing its mind in between", "anchors": ["src_py/hat/event/server/main_runner.py:47-77", "src_py/hat/event/server/main_runner.py:79-166", "src_py/hat/event/server/main_runner.py:168-176"]}
{"id": "C73", "title": "A request to reset the readiness is carried out", "statement": "The monitor is told alternately that the server is ready and that it is not. Each request to reset the readiness, made while the server is ready, leads to the server being not ready; it is ready again only when the monitor has withdrawn its token or after the timeout, and it does become ready again.", "quantifier": "all interleavings of requests, states of the monitor, and awaits of the loop", "why_tests_cant": "lost wake ups depend on the exact await at which a request or a state arrives", "anchors": ["src_py/hat/event/server/main_runner.py:56-69", "src_py/hat/event/server/main_runner.py:199-207"]}
{"id": "C74", "title": "A server that is shut down does not become active", "statement": "When an event server that waits for the end of the activity of another server is told to stop, it does not start an engine and does not announce itself as STARTING or OPERATIONAL.", "quantifier": "all histories of client runner and engine runner", "why_tests_cant": "needs a shutdown during a hand over between two servers, with particular interleavings of closing tasks", "anchors": ["src_py/hat/event/server/main_runner.py:146-166", "src_py/hat/event/server/engine_runner.py:62-127", "src_py/hat/event/server/eventer_client_runner.py:77-133"]}
{"id": "C75", "title": "A conversion touches no other files", "statement": "hat-event-lmdb-convert creates the destination and changes or removes no other file: the source is kept, an existing destination is refused, and with exit code 0 the destination holds the conversion of the source and no temporary file remains.  A failed conversion leaves the files as they were.", "quantifier": "all contents of the file system, all pairs of names, successful and failing conversions", "why_tests_cant": "the claim is about every combination of names and about failures in the middle of a conversion", "anchors": ["src_py/hat/event/backends/lmdb/convert/main.py:28-83", "src_py/hat/event/backends/lmdb/convert/version.py:25-55"]}
{"id": "C76", "title": "Runners of a component live within their connections", "statement": "A component has at most one connection at a time; for each connection the runner callback gives at most one runner, made while the connection is not closed; the runner is closed before its client is, and when a client loop has ended all its clients and runners are closed.", "quantifier": "all interleavings of connecting, losing connections, closing runners, cancelling and closing", "why_tests_cant": "depends on the moment of cancellation between any two awaits", "anchors": ["src_py/hat/event/component.py:207-284"]}
{"id": "C77", "title": "A component does not give up", "statement": "After a refused or lost connection the component connects again; it closes itself only if the runner closes while its connection is open or the runner callback raises; as long as it is open and its server data are unchanged it keeps a client loop.", "quantifier": "all interleavings of connecting, losing connections, closing runners, cancelling and closing", "why_tests_cant": "needs a connection that is lost at a particular moment", "anchors": ["src_py/hat/event/component.py:207-284"]}
{"id": "C78", "title": "The manager prints what was received", "statement": "The JSON printed by hat-event-manager query and subscribe determines the received events: different events, results or notifications are printed differently, and binary data as two hexadecimal digits a byte.", "quantifier": "all events, results and notifications", "why_tests_cant": "injectivity is about all pairs of values", "anchors": ["src_py/hat/event/manager/common.py:11-48", "src_py/hat/event/manager/main.py:240-284"]}
{"id": "C79", "title": "The manager registers the event asked for and reports the outcome", "statement": "hat-event-manager register sends an event with the given type, source timestamp and payload (read from a file or standard input in the given format), and its exit code tells whether it was registered.", "quantifier": "all options, all inputs, all histories of the connection", "why_tests_cant": "the claim is about every combination of options, and about every behaviour of the server", "anchors": ["src_py/hat/event/manager/main.py:152-160", "src_py/hat/event/manager/main.py:225-240", "src_py/hat/event/manager/main.py:319-382", "src_py/hat/event/eventer/client.py:129-146"]}
{"id": "C80", "title": "Events are seen by queries once their registration is answered", "statement": "When a register request of the engine is answered with events, each of them that the database is configured to keep as latest, or an event of its type that is not older, is returned by every later latest query, as long as the server is not restarted.", "quantifier": "all histories of the engine and of the backend (other servers, flushes, cleanups), all configurations, all readings of the clock", "why_tests_cant": "the claim joins the engine and the database over histories of any length; tests use clocks that only go forward", "anchors": ["src_py/hat/event/server/engine.py:116-133", "src_py/hat/event/server/engine.py:201-216", "src_py/hat/event/backends/lmdb/backend.py:140-185", "src_py/hat/event/backends/lmdb/latestdb.py:48-116"]}
{"id": "C81", "title": "Every registered event is announced to the clients that asked for it", "statement": "A client that is connected to the eventer server when events are registered, and stays connected, is sent those it subscribed to: as soon as they are registered, or, if it asked for persisted events, after they are written to the database.", "quantifier": "all interleavings of connections, registrations, flushes and cancelled callers, all subscriptions", "why_tests_cant": "depends on when flushes run and callers are cancelled between any two sends", "anchors": ["src_py/hat/event/backends/lmdb/backend.py:140-194", "src_py/hat/event/backends/lmdb/backend.py:296-315", "src_py/hat/event/server/main_runner.py:187-191", "src_py/hat/event/eventer/server.py:96-128"]}
{"id": "C82", "title": "Old database files are read as they were written and their version is recognised", "statement": "What a 0.6 or 0.7 database holds (keys, counts, references, events with any payload) is read by the conversion as it was written, references and payloads of unknown kinds are errors, and the version of a file is the stored one or else the one its databases tell; files opened by the backend or made by the conversion are of version 0.9.", "quantifier": "all values in the ranges of the encodings, all sets of databases in a file", "why_tests_cant": "round trips and the order of bytes are about all values; old versions of the server are not available to write test files", "anchors": ["src_py/hat/event/backends/lmdb/convert/v06.py:51-76", "src_py/hat/event/backends/lmdb/convert/v06.py:170-216", "src_py/hat/event/backends/lmdb/convert/v07.py:111-242", "src_py/hat/event/backends/lmdb/convert/v07.py:344-508", "src_py/hat/event/backends/lmdb/convert/version.py:25-55"]}
{"id": "C83", "title": "Events are found by timeseries queries once their registration is answered", "statement": "When a register request of the engine is answered with events, each of them that matches a timeseries query, if the partition it is answered from takes the event and has no limit, is among the results of the query (read page by page), as long as the server is not restarted.", "quantifier": "all histories of the engine and of the backend (other servers, flushes, cleanups), all configurations, all queries, all page sizes", "why_tests_cant": "what is not flushed is found by a different code path; which events are pending when a query is made depends on timing", "anchors": ["src_py/hat/event/server/engine.py:116-133", "src_py/hat/event/server/engine.py:201-216", "src_py/hat/event/backends/lmdb/backend.py:140-185", "src_py/hat/event/backends/lmdb/timeseriesdb.py:62-108", "src_py/hat/event/backends/lmdb/timeseriesdb.py:150-189", "src_py/hat/event/backends/lmdb/timeseriesdb.py:396-454"]}
{"id": "C84", "title": "Servers that have caught up with each other show the same", "statement": "Two servers that synchronise each other, have flushed all events and received everything of the other one answer latest queries with the same events, whatever connections were lost and processes ended before; at any time what a server shows of the other one was flushed there.", "quantifier": "all interleavings of registrations, flushes, cleanups, notifications, answers, connection losses and restarts of both servers", "why_tests_cant": "the claim is about two servers and every point at which either may fail; tests start one server with an empty database", "anchors": ["src_py/hat/event/server/eventer_client.py:114-186", "src_py/hat/event/eventer/server.py:96-128", "src_py/hat/event/eventer/server.py:236-267", "src_py/hat/event/backends/lmdb/backend.py:140-194", "src_py/hat/event/backends/lmdb/backend.py:296-315", "src_py/hat/event/backends/lmdb/latestdb.py:50-76"]}
{"id": "C85", "title": "A synchronisation reports its progress rightly, and reporting does not disturb it", "statement": "The synced events a client registers are CONNECTED, SYNCING if the remote server answered with events, and SYNCED with their number, made after they were registered in the local backend; a remote server that is or becomes operational has, as last such event, the state of the client; a local server that is operational registers the same events; and nothing but its loss ends the connection.", "quantifier": "all interleavings of queries, notifications, status changes of the remote server, starts and ends of the local engine", "why_tests_cant": "the states are documented for every order of events; tests see one synchronisation with servers that do not change their status", "anchors": ["src_py/hat/event/server/eventer_client.py:95-112", "src_py/hat/event/server/eventer_client.py:123-205", "src_py/hat/event/server/engine_runner.py:42-60", "src_py/hat/event/server/main_runner.py:193-197", "src_py/hat/event/server/eventer_server.py:100-105", "docs/server.rst:258-281"]}
{"id": "C86", "title": "Calls of the backend end", "statement": "As long as the event loop and the database thread go on, every call of flush returns or raises (and raises only if the backend has been closed), every query of an open backend gets a result, and a backend that is closed, by its user or by an error, ends its flush loop, even if the last flush fails.", "quantifier": "all endless schedules of registrations, queries, flushes, cleanups and closing in which the event loop and the thread do not stop, all contents of the database", "why_tests_cant": "a call that never returns shows up only for particular interleavings of failures, requests and closing; tests wait for a few of them", "anchors": ["src_py/hat/event/backends/lmdb/backend.py:196-271", "src_py/hat/event/backends/lmdb/backend.py:291-315", "src_py/hat/event/backends/lmdb/environment.py:40-46", "src_py/hat/event/backends/lmdb/environment.py:86-90"]}
{"id": "C87", "title": "Servers that have caught up with each other have the same timeseries", "statement": "Two servers with one configuration that synchronise each other, have flushed all events and received everything of the other one answer a timeseries query with the same events if the partitions for the query have no limit, whatever connections were lost and processes ended before, also for events of both servers with one timestamp.", "quantifier": "all interleavings of registrations, flushes, cleanups, notifications, answers, connection losses and restarts of both servers; all configurations, queries and page sizes", "why_tests_cant": "a gap in a history shows up only if a server failed at a particular point of a synchronisation; tests start one server with an empty database", "anchors": ["src_py/hat/event/server/eventer_client.py:114-186", "src_py/hat/event/eventer/server.py:96-128", "src_py/hat/event/eventer/server.py:236-267", "src_py/hat/event/backends/lmdb/backend.py:140-194", "src_py/hat/event/backends/lmdb/timeseriesdb.py:26-108", "src_py/hat/event/backends/lmdb/timeseriesdb.py:150-189", "src_py/hat/event/backends/lmdb/refdb.py:35-98"]}
{"id": "C88", "title": "Servers that stay connected catch up with each other", "statement": "While a server and its standby stay connected and every part of the connection goes on, the standby will show each event that the server has flushed and keeps showing, or a newer one. Two servers that synchronise each other and are given no more events reach a time from which on everything is flushed and received, both answer latest queries alike (unless events of both tie) and both return the same timeseries (of partitions without a limit).", "quantifier": "All endless schedules of register, flush, cleanup and restarts of both backends, notifications, answers, deliveries and progress of both clients, with any number of connections lost before, in which each part of the connection acts again and again", "why_tests_cant": "That synchronisation ends is a statement about endless schedules; a test waits for one schedule, and a run that does not catch up looks like one that is slow", "anchors": ["src_py/hat/event/server/eventer_client.py:114-186", "src_py/hat/event/eventer/server.py:96-128", "src_py/hat/event/eventer/server.py:236-248", "src_py/hat/event/server/eventer_client_runner.py:77-112", "src_py/hat/event/backends/lmdb/backend.py:291-315"]}
{"id": "C89", "title": "Redundant servers with engines end up with the same events", "statement": "Two servers that synchronise each other run engines, which are stopped, restarted, or killed before events were flushed, in any order, with the clock of each server not set back and a configuration whose partitions take all events. Each server's events then stay ordered by id and timestamp as far as they survive, although ids of lost events are used again; once everything is flushed and received, both servers answer latest queries alike (unless events of both tie) and return the same timeseries; and if the engines register nothing more while both stay connected, that state is reached.", "quantifier": "All histories and endless schedules of creation, requests, modules, failures and closing of engines on both servers, flush, cleanup and end of both processes, and all actions of both connections", "why_tests_cant": "Ids of an engine depend on what the backend stored before the engine was created, which depends on restarts and on what the other server sent; a test runs one order of failures", "anchors": ["src_py/hat/event/server/engine.py:28-44", "src_py/hat/event/server/engine.py:114-216", "src_py/hat/event/server/engine_runner.py:61-93", "src_py/hat/event/server/eventer_client.py:114-186", "src_py/hat/event/backends/lmdb/backend.py:170-194"]}
{"id": "C90", "title": "Calls of register end", "statement": "If the register loop of an engine goes on, all calls of modules and of the backend return and modules do not answer each other for ever within one session, every call of register that got into the queue gets a result, the error of a closed engine or a cancellation; if there are only so many calls, also those that have to wait for room in the queue. An engine that is closed, or whose module or backend raises an exception, ends its loop, and every call made before or after gets an outcome. Conversely no call with events ends while the loop is inside a call of a module, so a module may not wait in process for its own call of register, and a module that answers each event with an event keeps the engine busy for ever.", "quantifier": "All endless schedules of calls, cancellations, waiting callers, steps of the loop, modules, the backend and closing, for all modules and queue sizes", "why_tests_cant": "That a call ends is a statement about endless schedules; a test waits for a few calls with modules that are written to return", "anchors": ["src_py/hat/event/server/engine.py:28-64", "src_py/hat/event/server/engine.py:80-95", "src_py/hat/event/server/engine.py:114-193"]}
{"id": "C91", "title": "The encoding of the database file does not show", "statement": "A backend that keeps encoded keys and values in its file, searches and compares them as bytes and decodes what it finds answers all queries, reports the same events and stays open exactly as if it kept the events themselves in sorted tables; at any time the file holds the encodings of these tables, entry by entry.", "quantifier": "All histories of register, flush, cleanup and reopening with any configurations, all queries, all events whose payload hat-json reads back", "why_tests_cant": "Differences between the order of bytes and the order of entries, empty values and ends of tables show up only for particular contents of the file; tests use few small tables", "anchors": ["src_py/hat/event/backends/lmdb/common.py:90-143", "src_py/hat/event/backends/lmdb/backend.py:108-123", "src_py/hat/event/backends/lmdb/backend.py:318-334", "src_py/hat/event/backends/lmdb/timeseriesdb.py:192-393", "src_py/hat/event/backends/lmdb/refdb.py:105-230", "src_py/hat/event/backends/lmdb/environment.py:48-84"]}
{"id": "C92", "title": "The component gets to the active event server and stays with it", "statement": "If the monitor state stops changing while it names an active event server, the component sooner or later connects to that server, keeps to it, and tries again and again whenever the connection ends; if it names none, the component stops connecting. This holds for every capacity of the queue of server data, also when a callback has to wait for room in it.", "quantifier": "All endless schedules of monitor states, callbacks, loop steps and connection attempts in which waiting ends again and again and the runner is not closed; all capacities", "why_tests_cant": "An endless schedule cannot be run; a callback that waits for room in a full queue needs over a thousand state changes during one closing of a client", "anchors": ["src_py/hat/event/component.py:141-152", "src_py/hat/event/component.py:166-177", "src_py/hat/event/component.py:179-224"]}
{"id": "C93", "title": "The engine becomes operational again, and stopping ends", "statement": "As long as no other server is active, an engine runner that is not stopped becomes operational again and again, however often restarts are requested, and stays operational if there are no further restarts; once it is cancelled or its engine closes, it ends and the last status it announced is STANDBY. Without a connected client of another server nothing holds the engine back.", "quantifier": "All endless schedules of restart requests, reports of remote servers, connection changes and steps of the runner in which waiting ends again and again", "why_tests_cant": "Liveness over endless schedules; tests look at one restart", "anchors": ["src_py/hat/event/server/engine_runner.py:62-127", "src_py/hat/event/server/eventer_client_runner.py:64-134"]}
{"id": "C94", "title": "Requests of a client end", "statement": "If a client, the server it is connected to and their connection go on and all callbacks return, every call of register with response and of query ends: with the result the callback of the server gave for this very call, with ConnectionError if the connection was closed, or cancelled; if the connection stays open and the call is not cancelled, it is answered. A callback of the client that waits for a call of its own client blocks it for ever.", "quantifier": "All endless schedules of calls, cancellations, messages of both directions, callbacks of both sides, other clients, notifications and closing of either side", "why_tests_cant": "That a call ends is a statement about endless schedules; a test waits for one answer in the order of events its own loop happens to produce", "anchors": ["src_py/hat/event/eventer/client.py:129-158", "src_py/hat/event/eventer/client.py:160-211", "src_py/hat/event/eventer/client.py:213-256", "src_py/hat/event/eventer/server.py:130-202", "src_py/hat/event/eventer/server.py:204-234", "src_py/hat/event/eventer/common.py:14-34"]}
{"id": "C95", "title": "Registrations are held back while flushes are slow", "statement": "However long flushes take and however many calls of register are made, the number of registered events that no flush has begun to write is bounded by the configured limit, the size of the flush queue, the length of the lists and the number of callers that wait, as long as no caller gives up. When flush returns, everything registered before the call has been written, also if the call had to wait for room in the queue. If no flush fails, a backend that has ended has written everything that was registered, in order.", "quantifier": "All histories of register, flush, cancellation, closing and steps of the flush loop; all sizes of the queue, all limits", "why_tests_cant": "The queue has 4096 places and the limit is 262144 events, so tests never fill them; the bound is about all interleavings of callers with a flush that goes on", "anchors": ["src_py/hat/event/backends/lmdb/backend.py:24-28", "src_py/hat/event/backends/lmdb/backend.py:140-194", "src_py/hat/event/backends/lmdb/backend.py:213-271", "src_py/hat/event/backends/lmdb/backend.py:291-315"]}
{"id": "C96", "title": "Calls of register and flush end, in order and with the right error", "statement": "If the flush loop and callbacks go on, every call of register and flush of the backend ends, and a closed backend ends its loop and closes its environment. The registered events callback gets lists in the order in which they were registered; a call of register that raises has stored nothing.", "quantifier": "All endless schedules of register, flush, waiting callers, cancellation, closing and steps of the flush loop; all sizes of the queue, all limits", "why_tests_cant": "A full flush queue needs more than 4096 requests during one flush, and closing before the first step of the loop is a matter of one turn of the event loop", "anchors": ["src_py/hat/event/backends/lmdb/backend.py:97-99", "src_py/hat/event/backends/lmdb/backend.py:140-194", "src_py/hat/event/backends/lmdb/backend.py:213-271", "src_py/hat/event/backends/lmdb/backend.py:291-315"]}
{"id": "C97", "title": "Acknowledged notifications are processed and return", "statement": "When the server has received the acknowledgment of a notification, the client has got exactly the events of this notification and its callback has ended. If both sides go on, every call of notify_events with acknowledgment returns; when it has returned, the clients it was meant for that are still connected have got their events.", "quantifier": "All endless schedules of the server and its clients, all events, subscriptions and numbers of clients, all points in time at which connections are lost", "why_tests_cant": "An acknowledgment that arrives before its future exists, or a connection that is lost at this moment, is a matter of one turn of the event loop; a call that waits for ever is not observed by a test that ends", "anchors": ["src_py/hat/event/eventer/server.py:96-128", "src_py/hat/event/eventer/server.py:173-211", "src_py/hat/event/eventer/server.py:261-285", "src_py/hat/event/eventer/client.py:155-211"]}
{"id": "C98", "title": "Requests of the adminer client end", "statement": "If client, connection and server go on, every call of get_log_conf and set_log_conf ends. A returned configuration is the one the server had when it processed this request, at a time between the call and its end; when set_log_conf has returned, the server has taken over the configuration; AdminerError says that the server could not and has kept its configuration; ConnectionError says that the client is closed. While nobody closes the connection and no call is cancelled, the client stays open and every call gets the response of the server.", "quantifier": "All endless schedules of client, connection and server, all configurations, all numbers of concurrent calls and of other clients, all points in time at which the connection is closed", "why_tests_cant": "A call that waits for ever is not observed by a test that ends; a response that overtakes the end of send_msg or a connection that is lost before the receive loop has started is a matter of one turn of the event loop", "anchors": ["src_py/hat/event/adminer/client.py:28-40", "src_py/hat/event/adminer/client.py:56-125", "src_py/hat/event/adminer/server.py:46-111", "src_py/hat/event/server/adminer_server.py:10-43"]}
{"id": "C99", "title": "What one client has registered, another client finds", "statement": "When a call of register of a client has returned events, they are, in order and one for each register event, made from the register events of this very call. When afterwards the same or another client asks for latest events and gets a result, each of these events that the database is configured to show and that is asked for, or an event of its type that is not older, is in the result. The clock of the server must not be set back.", "quantifier": "All histories of a server process with any number of clients, connections, engines one after the other, backend flushes and cleanups, events of other servers and foreign programs, all register events, all types asked for, all contents of the database before", "why_tests_cant": "The way of an event leads through client, connection, server, engine and backend, each with its own queue and tasks; tests look at one of them at a time with others replaced by stand-ins, or at few interleavings of two clients", "anchors": ["src_py/hat/event/eventer/client.py:129-158", "src_py/hat/event/eventer/server.py:173-259", "src_py/hat/event/server/eventer_server.py:80-119", "src_py/hat/event/server/engine.py:76-216", "src_py/hat/event/server/engine_runner.py:61-111", "src_py/hat/event/backends/lmdb/backend.py:140-211"]}
{"id": "C100", "title": "A client is notified about its own events before its call of register returns", "statement": "When a call of register of a client returns events, the events callback of this client has already been called with those of them the client is subscribed to. Other clients the server knew when the call was made have by then been sent those they are subscribed to, or their connections are lost.", "quantifier": "All histories of a server process with any number of clients, connections, engines one after the other, other notifications, backend flushes and foreign programs, all register events, all subscriptions and server filters", "why_tests_cant": "Notification and response are made by different tasks (register loop of the engine, loop of the connection) and meet on one connection; tests wait for both without looking at their order, and see few interleavings", "anchors": ["src_py/hat/event/backends/lmdb/backend.py:140-194", "src_py/hat/event/server/main_runner.py:78-96,187-191", "src_py/hat/event/eventer/server.py:96-128,213-239,270-299", "src_py/hat/event/server/engine.py:115-160", "src_py/hat/event/eventer/client.py:129-158,195-260"]}
{"id": "C101", "title": "Calls of register and query end in a server process that goes on", "statement": "Every call of register with response and every query of a client ends if the process, the client and the connection go on: with a response of the kind of the request, with ConnectionError if the connection was closed, or cancelled by the caller; if the client stays open and is not cancelled, it is answered. Every request that reaches an engine gets an outcome.", "quantifier": "All endless schedules of a server process with any number of clients, connections, engines one after the other, modules and foreign programs in which every task gets its turn again and again, modules do not register for ever within a session, the queues of the engines have room and the backend stays open", "why_tests_cant": "Termination under all fair schedules of at least six tasks (client call, receive loop, connection loop, register loop, backend callback, notifications to other clients) cannot be observed; tests see one schedule and a time limit", "anchors": ["src_py/hat/event/eventer/client.py:129-211", "src_py/hat/event/eventer/server.py:96-128,173-211", "src_py/hat/event/server/eventer_server.py:80-108", "src_py/hat/event/server/engine.py:80-195", "src_py/hat/event/backends/lmdb/backend.py:140-194", "src_py/hat/event/server/main_runner.py:187-191"]}
{"id": "C102", "title": "What a client has registered is found after restarts and crashes", "statement": "A client registers events, the call returns them, and some time later the backend has flushed. Whatever happens then (the process ends or crashes, other processes use the database with other configurations, with other server ids, with clocks that are set back, and end or crash as well), each latest query of a client of a later process returns each of the events, or one of its type that is not older, if it was and is to be shown.", "quantifier": "All histories of two server processes with any clients, connections, engines and modules, and any operations on the database before, between and after; conditions of later configurations do not reject what earlier ones have shown", "why_tests_cant": "Crashes at any moment, any number of restarts and any configurations can not be tested exhaustively; the claim spans client, server, engine, backend and file of several processes", "anchors": ["src_py/hat/event/eventer/client.py:129-170", "src_py/hat/event/eventer/server.py:173-211", "src_py/hat/event/server/eventer_server.py:80-108", "src_py/hat/event/server/engine.py:120-195", "src_py/hat/event/backends/lmdb/backend.py:64-112,140-194,213-289", "src_py/hat/event/backends/lmdb/latestdb.py:14-91", "src_py/hat/event/server/main_runner.py:43-116"]}
{"id": "C103", "title": "What one client has registered, timeseries queries of another client find", "statement": "A client registers events and the call returns them. A timeseries query that the same or another client makes afterwards returns each of these events that it asks for and that a partition without limit keeps for it, or says that more follows; then the event comes after everything returned. The same holds for a query that continues after one of the events.", "quantifier": "All histories of a server process with any number of clients, connections, engines and modules, any flushes and cleanups, any earlier contents of the database and any requests in between", "why_tests_cant": "The result depends on the interleaving of the tasks of clients, server, engine and database thread and on everything registered before; tests can only try some histories", "anchors": ["src_py/hat/event/eventer/client.py:129-211", "src_py/hat/event/eventer/server.py:173-211", "src_py/hat/event/server/eventer_server.py:80-108", "src_py/hat/event/server/engine.py:120-195", "src_py/hat/event/backends/lmdb/backend.py:140-211", "src_py/hat/event/backends/lmdb/timeseriesdb.py:57-190", "src_py/hat/event/server/main_runner.py:43-116"]}
{"id": "C104", "title": "What a client has registered, timeseries queries find after restarts of the server", "statement": "A client registers events, the call returns them, and the database is flushed after that. Then the server ends or crashes, and further processes use the file. A timeseries query of a client of a later process returns each of these events that it asks for and that belongs to a partition that is configured in both processes, or says that more follows; then the event comes after everything returned. The order of configured partitions, further partitions, and what happened in other processes do not matter, as long as no configuration limited the partition.", "quantifier": "All histories of a server process, of other processes that use the file and of the later process, any configurations, crashes and number of clients", "why_tests_cant": "The result depends on identities that were given to partitions in earlier processes, on the interleaving of tasks and on when processes crash; tests can only try some histories", "anchors": ["src_py/hat/event/eventer/client.py:129-211", "src_py/hat/event/eventer/server.py:173-211", "src_py/hat/event/server/engine.py:120-195", "src_py/hat/event/backends/lmdb/backend.py:37-124", "src_py/hat/event/backends/lmdb/timeseriesdb.py:32-190", "src_py/hat/event/backends/lmdb/timeseriesdb.py:190-232", "src_py/hat/event/server/main_runner.py:43-116"]}
{"id": "C105", "title": "What a client registers reaches every other client that asked for it", "statement": "While a server process and its clients go on, a client that stays open registers events. The call is answered, and each event of the answer is later passed to the callback of every other client that asked for such events, was known to the server when the call was made and stays connected.", "quantifier": "All endless schedules of a server process in which tasks that can run get their turn, any number of clients, registrations and engines", "why_tests_cant": "That something happens eventually can not be observed by a test, and it depends on the interleaving of the tasks of clients, connections, engine and backend", "anchors": ["src_py/hat/event/eventer/client.py:129-250", "src_py/hat/event/eventer/server.py:95-241", "src_py/hat/event/server/engine.py:64-195", "src_py/hat/event/server/eventer_server.py:20-90", "src_py/hat/event/server/main_runner.py:43-116"]}
{"id": "C106", "title": "The memory and the LMDB backend answer latest queries alike", "statement": "A memory backend and an LMDB backend on a new file get the same calls of register, with events of any servers whose identifiers increase and whose timestamps do not decrease for each server. Then each latest query gets the same events from both, whatever flushes and cleanups the LMDB backend has done.", "quantifier": "All histories of registrations, flushes and cleanups, any number of servers, any event types and queries", "why_tests_cant": "The backends compare events in different ways (one replaces an event that is less, the other keeps one that is greater), and events of different servers are not totally ordered; tests compare only a few histories", "anchors": ["src_py/hat/event/backends/memory.py:32-71", "src_py/hat/event/backends/memory.py:144-148", "src_py/hat/event/backends/lmdb/backend.py:140-211", "src_py/hat/event/backends/lmdb/latestdb.py:48-105", "src_py/hat/event/common/common.py:100-140"]}
{"id": "C107", "title": "What a client was told as persisted is there after a crash", "statement": "A client that asked for persisted events is notified of an event of the server. Whatever happens after that, a crash of the process included, and whatever processes use the file then: a latest query of a client of a later process that asks for the event gets it, or an event of its type that is not older; a timeseries query gets it if the event belongs to a partition that is configured in both processes and not limited, or says that more follows.", "quantifier": "All histories of a server process with any number of clients, engines, flushes and crashes, and of the processes that use the file after it", "why_tests_cant": "Whether the notification is sent before or after the transaction is on disk can not be seen without a crash in between, and it depends on the interleaving of the flush loop, engine and connections", "anchors": ["src_py/hat/event/backends/lmdb/backend.py:243-315", "src_py/hat/event/server/main_runner.py:82-88", "src_py/hat/event/server/main_runner.py:187-191", "src_py/hat/event/eventer/server.py:96-128", "src_py/hat/event/eventer/client.py:129-211"]}
{"id": "C108", "title": "What is registered reaches every client that asked for persisted events", "statement": "Whenever events are passed to the backend of a server, by its engine or by the connection to another server, each client that asked for persisted events, is known to the server and stays connected is notified of those of the events that match its subscriptions and its server filter: the flush loop writes each list once, announces it, and the notification is sent and read, provided that the flush loop, the process and the client go on.", "quantifier": "All endless schedules of a server process with any number of clients, engines and flushes", "why_tests_cant": "The notification is sent by the flush loop, at any time after the registration, while other registrations, flushes, announcements and connections go on; tests see a few interleavings and end after a finite time", "anchors": ["src_py/hat/event/backends/lmdb/backend.py:140-192", "src_py/hat/event/backends/lmdb/backend.py:243-315", "src_py/hat/event/server/main_runner.py:82-88", "src_py/hat/event/server/main_runner.py:187-191", "src_py/hat/event/eventer/server.py:96-128", "src_py/hat/event/eventer/client.py:129-211"]}
{"id": "C109", "title": "Paging through a timeseries query while the database changes", "statement": "Repeating a timeseries query with last_event_id set to the id of the last received event until more_follows is false, while events are registered, flushed and cleaned up between the pages, yields no event twice, keeps the requested order, returns only events that match and are stored, and yields every matching event that is stored from the first page to the last one.", "quantifier": "All histories of registrations, flushes and cleanups before and between the pages, all page sizes, all query parameters", "why_tests_cant": "Pages of a query are separate requests; whether events change their places between two of them depends on which events are pending, flushed or removed at each page, in unboundedly many histories", "anchors": ["src_py/hat/event/backends/lmdb/timeseriesdb.py:85-108", "src_py/hat/event/backends/lmdb/timeseriesdb.py:150-190", "src_py/hat/event/backends/lmdb/timeseriesdb.py:229-292", "src_py/hat/event/backends/lmdb/timeseriesdb.py:396-511", "src_py/hat/event/backends/lmdb/backend.py:243-315"]}
{"id": "C110", "title": "Paging through a server query while the database changes", "statement": "Repeating a server query with last_event_id set to the id of the last received event until more_follows is false, while events are registered, flushed and cleaned up between the pages, yields events of the server with strictly increasing ids, none twice, each stored at some time between the first and the last page, and yields every event that is stored when the first page is asked for and still stored when the last one is; with persisted=true the same for permanently stored events.", "quantifier": "All histories of registrations, flushes and cleanups before and between the pages, all page sizes, all servers", "why_tests_cant": "A synchronising server asks for pages while the other server goes on registering, flushing and cleaning up; all histories between all pages have to be considered", "anchors": ["src_py/hat/event/backends/lmdb/refdb.py:64-98", "src_py/hat/event/backends/lmdb/refdb.py:105-156", "src_py/hat/event/backends/lmdb/refdb.py:158-230", "src_py/hat/event/backends/lmdb/backend.py:243-315", "src_py/hat/event/server/eventer_client.py"]}
{"id": "C111", "title": "Paging through persisted events of a server survives restarts", "statement": "A client that pages through the persisted events of a server (QueryServerParams with persisted, last_event_id of the last received event) receives increasing identifiers, no event twice, only events that were persisted meanwhile, and every event that was persisted at the first page and still is at the last one - also if the event server is stopped or crashes between pages at any point and is started again, possibly with another configuration.", "quantifier": "all histories of registrations, flushes, cleanups, crashes and restarts between the pages, all page sizes, all configurations whose conditions keep accepting latest events", "why_tests_cant": "crashes may happen at any point between pages and leave any part of the registered events unwritten; tests try a few", "anchors": ["src_py/hat/event/backends/lmdb/refdb.py:RefDb.query", "src_py/hat/event/backends/lmdb/refdb.py:_ext_query_events", "src_py/hat/event/backends/lmdb/backend.py:create", "src_py/hat/event/server/eventer_client.py:EventerClient._synchronize"]}
{"id": "C112", "title": "Paging through a timeseries survives restarts with the same configuration", "statement": "A client that pages through a timeseries query (last_event_id of the last received event) of a database whose partitions have no limit receives events in the order asked for, none twice, every event that matched at the first page, and only events that match at the last page - also if registrations, flushes, cleanups and crashes or restarts with the same configuration happen between pages, provided that no registered event was unwritten whenever a page was asked for.", "quantifier": "all histories of registrations, flushes, cleanups, crashes and restarts between the pages, all page sizes, all partitionings without limits", "why_tests_cant": "crashes may happen at any point between pages; tests try a few histories", "anchors": ["src_py/hat/event/backends/lmdb/timeseriesdb.py:TimeseriesDb.query", "src_py/hat/event/backends/lmdb/timeseriesdb.py:_ext_init_partitions", "src_py/hat/event/backends/lmdb/backend.py:create", "src_py/hat/event/backends/lmdb/backend.py:LmdbBackend.query"]}
{"id": "C113", "title": "The kinds of queries agree about events", "statement": "Every event that a latest or timeseries query returns, with whatever parameters, is received by paging through a server query of its server. Events with the same identifier that are returned by any two queries at the same time are the same in all fields. The event that a server query for persisted events returned for an identifier is the one that every later query returns for this identifier, also after crashes and restarts.", "quantifier": "all histories of registrations, flushes, cleanups, crashes and restarts, all query parameters and page sizes, all configurations whose conditions keep accepting latest events", "why_tests_cant": "three databases, each with pending changes and a stored part, have to agree after every interleaving; tests compare them for a few histories", "anchors": ["src_py/hat/event/backends/lmdb/backend.py:LmdbBackend.query", "src_py/hat/event/backends/lmdb/latestdb.py:LatestDb.query", "src_py/hat/event/backends/lmdb/timeseriesdb.py:TimeseriesDb.query", "src_py/hat/event/backends/lmdb/refdb.py:RefDb.query"]}
{"id": "C114", "title": "A flush does not change what queries return", "statement": "After a successful flush every latest, timeseries and server query returns the same events in the same order as just before it: whether an event is already written to the file or still pending does not show, except to queries for persisted events.", "quantifier": "all histories of registrations, flushes, cleanups, crashes and restarts before the flush, all query parameters", "why_tests_cant": "answers are put together from pending and stored events in many ways; tests flush at a few points", "anchors": ["src_py/hat/event/backends/lmdb/backend.py:LmdbBackend.flush", "src_py/hat/event/backends/lmdb/backend.py:LmdbBackend.query", "src_py/hat/event/backends/lmdb/timeseriesdb.py:TimeseriesDb.query", "src_py/hat/event/backends/lmdb/refdb.py:RefDb.query"]}
{"id": "C115", "title": "A cleanup only takes events out of the answers", "statement": "After a successful cleanup latest queries return the same as before, paging through a server query returns no event that it did not return before, and a timeseries query that returned everything before returns no event that it did not return before, and exactly the same events if no partition with the requested order has a limit.", "quantifier": "all histories before the cleanup, all limits, all times of the cleanup, all query parameters", "why_tests_cant": "which events a cleanup removes depends on counts, sizes and durations; tests try a few limits", "anchors": ["src_py/hat/event/backends/lmdb/backend.py:_ext_cleanup", "src_py/hat/event/backends/lmdb/timeseriesdb.py:TimeseriesDb.ext_cleanup", "src_py/hat/event/backends/lmdb/refdb.py:RefDb.ext_cleanup", "src_py/hat/event/backends/lmdb/backend.py:LmdbBackend.query"]}
