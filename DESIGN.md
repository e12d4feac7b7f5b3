# Formal model of hat-event: design

The model is written in Lean 4 (`lean/`), as shallow, total, computable
functions that follow the Python and C functions branch by branch, with
exceptions as values.  Stateful parts are an initial state and step functions;
histories are lists of steps; crash points are "drop the volatile part of the
state and reopen".

Layout (all below `lean/Verif/`):

* `Model/*.lean`: the model.  Every definition cites the file and lines of
  `/repo` it models and says where it simplifies.
* `Spec/*.lean`: small independent specifications (mathematical wording of the
  properties, no use of model helpers).
* `Proof/*.lean`: helper lemmas and invariants.
* `Props/*.lean`: the property theorems, next to concrete instances
  (`example`) that meet their hypotheses.

If the code violates a property, the negation is proved with a concrete
witness (`..._refuted`), and the strongest part that does hold is proved under
the suffix `_partial`.  Status of each property and the exact theorem names are
in `MANIFEST.json`; the statements are in `properties.jsonl`.

## Per property

### Event types, subscriptions, collections (`Props/Subscription`, `Props/Collection`, `Props/LmdbLookup`)

| id | modelled | how proved |
|----|----------|------------|
| C01 | `matches_query_type` | equivalence with the inductive relation `Spec.Matches`, both directions by induction |
| C02 | python trie: `_add_query_type`, `_matches`, constructor with `ValueError` | trie invariant (unique keys, `*` alone); language of an insertion = language + new type; induction over the list |
| C03 | C trie: `add_query_type`, `matches` (with `strcmp` on C strings) | same as C02; with NUL characters the implementations differ (`C03_nul_differs`) |
| C04 | `node_to_query_types`, C `get_query_types` | language of the listed types = language of the trie, listed types well formed, for created, united and intersected subscriptions |
| C05 | `union` | language, by induction on depth |
| C06 | `intersection` | **violated**: `('a','*')` with `('a',)` loses `('a',)` (`C06_intersection_refuted`).  Partial: sound for all, exact where no `*` stands for an empty tail |
| C07 | python `_isdisjoint` | exact for subscriptions made from query types; **violated** on results of `intersection` (empty branches count as overlap).  A positive answer is always right |
| C08 | C `isdisjoint` | **violated**: `('a',)` and `('a','b')` are reported not disjoint.  A positive answer is always right; exact when no type of one side ends where the other continues |
| C09 | PyList, PyTree, CTree (linked cells as lists of tagged cells), `create_event_type_collection` | refinement of a list of live (subscription, value) pairs over all histories of add/remove/get.  **Violated** by PyTree: adding a value again forgets the types added before when it is removed |
| C65 | `_ctree.c` with addresses, `malloc` that may fail, `free`, reference counts (`Model/CTreeHeap.lean`) | the memory is a separating sum of nodes, linked lists and `ref_t` objects; invariant over histories, for every pattern of failing allocations |
| C66 | `_csubscription.c` with allocations that may fail and owned references (`Model/CSubscriptionMem.lean`) | what is owned equals what the tree needs, before and after each step, for every pattern of failures; refuted: `add_query_type` does not release its reference to `*` (l.54-68), and `get_query_types` does not check `PyTuple_New` (l.106); `_partial` for query types without `*`, and for no failing allocation |

### Events, time, encodings (`Props/Event`, `Props/Codec`, `Props/Sbs`, `Props/Time`, `Props/Conditions`)

| id | modelled | how proved |
|----|----------|------------|
| C10 | `Event.__lt__`, `Event.__gt__` | case analysis; transitive when each server's timestamps follow its ids; refuted without that, and `__lt__` alone is not asymmetric |
| C11 | `timestamp_to/from_bytes` at byte level | big endian digit lemmas; byte order = time order; exact set of accepted values |
| C12 | key codecs at byte level | same, composition lemma for fixed width fields |
| C13 | `_encode/_decode_event_refs` | induction over the list of refs; `_reads` (C11 to C13): whatever bytes are accepted are the encoding of the result, so cut off or unknown data is rejected |
| C14, C15 | SBS conversions as functions into a data tree, and the SBS schema | case analysis, list induction.  The JSON text codec is a parameter that reads its own output back for the payload at hand |
| C16 | `Timestamp.add` | integer arithmetic; float rounding is a parameter with the error bound of double precision |
| C17 | datetime conversions | **violated** for negative whole seconds and from year 2514 on; proved otherwise |
| C47 | conditions (`all`, `any`, `json`) with hat-json `get` and Python equality | structural induction against `Spec.Conditions` |
| C56 | float conversions | rational arithmetic with the rounding parameter |

### Engine (`Props/Engine`, `Props/EngineLmdb`)

| id | modelled | how proved |
|----|----------|------------|
| C18 | sessions of the register loop with arbitrary modules | invariants over machine histories |
| C19 | results of `register` | same |
| C20 | register queue and futures | at most once for all histories; **violated** when the engine closes before its loop first runs |
| C21 | sessions and module calls | every registered session is a complete session of one request, FIFO; modules see matching events once, in order |
| C22 | STARTED / STOPPED events | **violated** in one corner: an engine stopped during its first session registers only STOPPED |
| C50 | engine and LMDB backend over restarts; engines on the dummy backend (`Model/Dummy.lean`) | **violated** if events are not selected for storage or are lost in a crash, and for all engines that follow one another on the dummy backend (`C50_dummy_refuted`); ids are new with respect to all stored events |

### LMDB backend (`Props/Lmdb*`)

The sequential model (`Model/Lmdb`) executes register, flush, cleanup, query and
reopening at once; histories are arbitrary lists of these, including failed
flushes, crashes (volatile state dropped) and reopening with another
configuration.  `Model/LmdbAsync` splits everything at its `await`s and at the
database thread; theorem `C36_partial` and the C35 theorems are refinements of
the sequential model.

| id | modelled | how proved |
|----|----------|------------|
| C23–C25 | system, latest db, register | invariants over all histories relative to an abstract store (`Spec.Lmdb`) |
| C26 | reopening | simulation: reopening answers from the flushed data only; a failed operation leaves the file unchanged |
| C27 | reference db | invariant `RefsConsistent` over all histories in which later conditions keep accepting latest events |
| C28 | reconfiguration | **violated**: after conditions become stricter a server query returns an event twice |
| C29, C30 | counters, cleanup with limits | invariants; exact set of removed entries |
| C31, C32 | server queries, paging | exact result; induction on the remaining sequence |
| C34 | paging through timeseries queries (`Props/LmdbPages`) | all pages, of any size and in any state, are what the query without limit returns (`C34`): what a query looks at is one list with different ids, whatever the order of pending events is; with events in order it is all matching events (`C34_complete`) |
| C33 | timeseries queries | **violated** for unflushed events that are older than earlier ones, and for the choice of the partition with C subscriptions (C08); proved for all other histories |
| C35, C58–C60 | flush loop, flushed notification | **violated** after a failed flush: an ascending query changes the dictionary the database thread iterates over, and the flush done when the loop ends skips the failed lists; proved as long as no flush fails |
| C36 | queries concurrent with flushes | every result is that of a sequential history between start and end of the query, as long as no flush fails |
| C46 | `_ext_validate_settings` | case analysis; induction over openings |
| C48 | `_ext_init_partitions` | invariant over configurations |
| C53 | key encoding errors in flush | **violated** for source timestamps outside the byte representation; proved for storable events |
| C57 | creation of the environment | **violated**: a process that ends between the creation of two named databases leaves a file that can never be opened |
| C49 | `manager/copy.py` | tables by induction; references stay consistent with any of the two options |
| C63 | `manager/query.py` | exact lists for the five working subactions, JSON is injective; `ref` and `latest` are **broken** (refuted) |
| C54 | converters on decoded tables | induction over entries with the invariants "references are exactly the stored events" and "last id bounds stored ids"; **violated** for 0.6 files with events of several servers |
| C75 | `main` and `convert` of `convert/main.py` with files (`Model/ConvertFiles.lean`) | case analysis over the rounds; **violated**: the temporary file is the destination with `.v07` appended, and an existing file of this name is removed (l.74-75) even if it is the source; a failed conversion leaves a destination without version and content, which a backend opens as a new empty database (`systemdb.py:81-82`); `_partial`: all files of other names |
| C91 | all of `_ext_create_dbs`, `_ext_flush`, `_ext_cleanup` and the queries once more, on tables of bytes ordered as bytes: the database definitions of `common.py:90-143` with the formats of C12, C13 and C14, `cursor.get` and `cursor.pop` that take an empty value for a missing one, what `cursor.delete()` returns at the end of a table (`Model/LmdbBytes`); hat-json, hat-sbs and the result of `cursor.delete()` are parameters (`ByteEnv`, `LawfulEnv`) | `C91_same_partial`, `C91_file`: simulation of each function (`Proof/LmdbBytes`, `Proof/LmdbBytesOps`, `Proof/LmdbBytesRun`), from injective, order-preserving keys and values that are read back; that a table of bytes is read to its end uses the exact counters of C29. **Violated** for a negative `min_entries`, which the schema accepts: `_ext_cleanup_partition` goes on after the last entry of the table with the empty key of the cursor, `decode_key` raises and the backend closes (`C91_same_refuted`) |

### Servers and clients (`Props/EventerServer`, `Props/ReqClient`, `Props/Sync`, `Props/SyncReport`, `Props/Duo`, `Props/DuoSeries`, `Props/Runner`, `Props/Component`, `Props/AdminClient`, `Props/AdminServer`, `Props/EventerHost`, `Props/MainRunner`, `Props/MonitorReady`, `Props/Shutdown`, `Props/CompClient`, `Props/CliOutput`)

All are step machines: one action per piece of code between two `await`s.  The
theorems hold for every list of actions, i.e. every schedule.

| id | modelled | how proved |
|----|----------|------------|
| C37, C38 | `_synchronize`, `_on_events` against a remote log and a FIFO connection | invariant relating queue, messages in flight and remote log; the remote server may remove events at any time (`C37_order`, `C37_gapless`, `C37_quiet`).  C37 is **violated** in two ways (an event may be registered twice; an event the remote does not store may be registered) |
| C39–C41 | connection table, notify, token, status | invariants; per connection view of sent messages |
| C42 | acknowledgments | **violated**: a connection loop that stops fails the futures of all connections |
| C43, C61 | eventer client conversations, callbacks | invariants; **violated** when the response overtakes the return of `send_msg` and when the connection closes before the loop starts |
| C44, C45, C62 | eventer client runner, engine runner | invariants; C44 **violated**: another server may become active while `set_status(STARTING)` is awaited, and the flag lags behind a delayed status callback |
| C51 | memory backend | latest query by induction; timeseries and server queries and `get_last_event_id` are **broken** (refuted) |
| C52, C92 | component server data loop with its bounded queue, including a callback that waits for room | invariant, convergence (C52); endless schedules: a measure of what is left to do that every other step keeps and the next step lowers (C92) |
| C93 | the engine runner and the client runner of C44, C62 in endless schedules | the same kind of measure along the states of `_run`; that no other server is active from some time on is a hypothesis, met if no client is connected (`C93_alone`) |
| C94 | the client and the server of C68 with the messages of both directions in endless schedules (`Model/Wire.lean`) | a call that never ends is contradicted step by step: the server takes the request, its callback answers it, the client reads the response, the future is waited for; what the server takes is what the client has sent (`Wire.Ok`, which also discharges the hypothesis `Faithful` of C67, C68); **violated** when the response overtakes the return of `send_msg` and when the client is closed before its receive loop starts (`C94_overtaken_refuted`, `C94_unstarted_refuted`), `_partial` without these two cases |
| C97 | as for C94, with calls of `notify_events` with acknowledgment; a call with several clients is one server seen by each of its clients | conversations of notifications are unique (`NotesFresh`) and acknowledgments are traced from the server back to the message the client has read (`AcksTell`); a delivery that never ends is contradicted step by step (`NoteStuck`): the client connects, the message is sent, read and acknowledged, the server takes the acknowledgment, or the connection loop ends and fails the future; **violated** when the acknowledgment is received, or the connection loop ends, after the message is sent and before the future is created (`C97_early_refuted`, `C97_lost_refuted`): `notify_events` waits for ever; `_partial` without these cases, and for what a returned call tells without those of C42 |
| C55 | adminer client | **violated**: a response for a cancelled request ends the receive loop |
| C98 | adminer client and server with the messages in both directions (`Model/AdminWire.lean`: `Model/AdminClient.lean`, `Model/AdminServer.lean`, messages on their way, closing noticed later) | conversations are unique and responses are traced back to the request they answer (`answers_from`, `answered_at`), which gives the meaning of every end (`AdminOwn`); a call that waits for ever is contradicted step by step (`waits_ends`): the client stays open, the connection is not lost, the server receives the request, its response is received.  **violated** in two cases: a client that is closed before the task of its receive loop has started (l.34) never fails its calls; a response that is received before `send_msg` has returned (l.72-82) ends the receive loop, which closes the client |
| C99 | one process of the event server with its clients (`Model/Station.lean`: `Model/ReqClient.lean`, `Model/EventerHost.lean`, `Model/Engine.lean`, `Model/Lmdb.lean` put together as in `server/main_runner.py`; results of callbacks are what this engine and this backend have returned) | an invariant of each connection with its client (`Linked`): what the loop handles was sent by the client, the call of `Engine.register` it waits for was made for this request, responses have what engine and backend returned; an invariant of engines and database (`DataOk`), built on C18, C19 and the refinement of the backend (C80), which holds also when engines are replaced; both meet in the calls of the two clients (`answered_call`).  The clock only matters until the registration is answered; after that nothing replaces what is shown by something older (`kept_more`).  **violated** if the clock is set back before (`C99_clock_refuted`), as in C80.  Not part of it: the end of the process, the memory backend, `create_eventer_client` of other servers (their events arrive at any time) |
| C100 | `Model/Station.lean` with the callback of `Backend.register` (`Model/Relay.lean`: the backend returns events to the engine only after `notify_events` of its callback has returned; other calls of `notify_events` are made at any time) | an invariant (`Heard`) over all histories after the call: the call of `Engine.register` the connection waits for is a new one, a callback for it has the client among its targets, its end means that the notification was sent or the connection lost, and on the connection of the caller it precedes the response; with C39 and the order of messages the client has processed it before (`Gets`).  **violated** for clients with the persisted flag (`C100_persisted_refuted`: they are notified after a flush), hence `_partial`.  Not part of it: the memory backend, the end of the process |
| C101 | `Model/Relay.lean` with endless schedules (`Spec/RelayLive.lean`: `ProcessGoesOn`, `ClientGoesOn`, `TaskGoesOn` say who gets a turn again and again) | the schedule of the process is projected on each engine (`Proof/RelayEngineLive.lean`: a schedule of `Model/Engine.lean` in which the reply of the backend is missing until its callback has returned; the callback returns because each of its targets gets its turn) and on each connection (`Proof/RelayWire.lean`, `Proof/RelayWireLive.lean`: a schedule of `Model/Wire.lean`, one block of actions for each action of the process, `Proof/Flatten.lean`); the liveness theorems of engine (C90) and connection (C94) then apply.  **violated** if the response is received before `send_msg` of the request has returned (`C101_ends_refuted`, as in C94), hence `_partial`.  Assumed: room in the queues of the engines (C90 needs finitely many callers otherwise), backend open, modules that stop registering in a session |
| C102 | two processes of `Model/Station.lean` on one file, with any operations of `Model/Lmdb.lean` between them (crash: the backend is opened again without flush; end in order: after a flush) | the registration as in C99 (`answered_registered`); what is shown at a flush is stored permanently, and no operation of any configuration replaces it by an older event (`stored_more`: induction over the operations, for the volatile and the permanent store together, with what the conditions of all later configurations accept); the query as in C99 (`answered_query`).  **violated** for what was not flushed before a crash (`C102_crash_refuted`; `flush_period` is the time that may be lost although `register` has returned) and for conditions of a later configuration that reject a newer event of the type (`C102_conditions_refuted`: the older one is gone although it would be accepted) |
| C103 | `Model/Station.lean` as in C99, timeseries queries of `Model/Lmdb.lean` | as C99: `DataOk` also says that events of the engines are kept in partitions without limit (`KeepsAt`), later actions keep them (`kept_more`); with C33 the result of the query is a page of a sorted list that has all of them (`answered_series`).  **violated** for events that are not flushed and out of order (`C103_refuted`, as in C33 and C83); assumed are, as there, that everything is flushed whenever the query may be answered or that there are only events of one server and the query is by timestamp, and that the clock is not set back before |
| C104 | `Model/Station.lean` and `Model/Lmdb.lean` as in C102 and C103 | what is in a partition when all is flushed stays there through all actions, crashes and configurations that do not limit it (`entries_more`); partitions of later processes with the same ordering and query types have the same identity (`partition_identity`, from C48); with C33 the result is a page of a sorted list that has the event (`series_found`).  Proved with the assumptions of C103 on order and clock (`C104_partial`).  **violated** for events that were not flushed (`C104_crash_refuted`), if the query types of a partition change although it still takes the event (`C104_partition_refuted`), and if a configuration used meanwhile has a limit (`C104_limit_refuted`) |
| C105 | `Model/Relay.lean` with the endless schedules of C101 | the call is answered by C101; at that time the notifications were sent on the connections of the others (C100); a client that stays connected reads everything sent to it (`relay_reads`: the projection of the process on one connection of `Proof/RelayWireLive.lean`, `WireAlive.reads_all` of C94), and what it has read its callback was called with (`Gets`).  Proved for clients that do not ask for persisted events (`C105_reaches_partial`, for any answered registration; `C105_answered_partial`, with the answer).  Persisted clients are notified after flushes, which are arbitrary calls in this model, so nothing is claimed for them.  **violated** if the response overtakes the end of `send_msg` (`C105_answered_refuted`, the race of C101): the call is never answered |
| C106 | `Model/Memory.lean` and `Model/Lmdb.lean` side by side, one process of the LMDB backend on a new file | the latest events of the LMDB store are those the loop of the memory backend finds (`ShowsFound`, induction over the events: `previous < event` and `not previous > event` agree for events in order, also for equal timestamps of different servers, C10); filtering by type commutes with the loop (`found_filter`), C25 for the LMDB side (`C106_partial`).  **violated** if the clock of a server is set back: the LMDB backend does not store the event (`C106_clock_refuted`) |
| C107 | `Model/Announcer.lean`: the server process of `Model/Station.lean` with the callback of flushes | everything the flush loop announces was registered before a flush that was done (`AnnounceOk`, invariant of all histories); a connection that asked for persisted events is only sent what was announced (`AsksPersisted`); C102 and C104 then give what later processes find (`Station.latest_later`, `Station.series_later`; `C107_partial`, `C107_series_partial`).  **violated** if the clock is set back: events that the backend rejects are announced as persisted all the same (`C107_clock_refuted`) |
| C108 | `Model/Herald.lean`: the event server with its clients of `Model/Relay.lean` and the callback of flushes; a flush writes what was registered up to its beginning in one action | lists passed to the backend wait for a flush, are then written, then announced, in this order and none is lost (`herald_account`); with the fairness of `HeraldGoesOn` each is announced (`herald_announced`); calls of `notify_events` end (`relay_over`) and clients read what is sent to them (`relay_reads`), as in C101 and C105 (`C108_reaches`); the events of an answer to a registration were passed to the backend after the call (`Station.answered_since`, invariant `Since`), so they reach those clients as well (`C108_answered`) |
| C109 | the backend of C33 and C34, with any actions between the pages (`Spec/PagesDuring.lean`, relation `PagesDuring`); a page is one query, answered at once (that a query overlapping a flush sees each event once is C36) | if pending events are in key order (timestamp, identifier) when a page is asked for, the answer is strictly sorted (`series_spec`); registrations and flushes keep timeseries entries (`grown_more`), so what follows the last received event still follows it at the next page; induction on the pages (`pages_during`, `C109_partial`, `C109_observed_partial`). The condition holds for flushed databases and for events of one server by timestamp (`C109_in_order`). Violations of the code: a flush between two pages reorders pending events with equal timestamps, so that one is lost (`C109_lost_refuted`) or received twice (`C109_twice_refuted`); a cleanup that removes the last received event ends the paging early (`C109_cleanup_refuted`) |
| C110 | the backend of C31 and C32 with any actions except a restart between the pages (`PagesDuring` of `Spec/PagesDuring.lean`); a page is one query, answered at once | stored events never get new places (`offers_back`) and what was flushed is not superseded and restored (`behind_run`), so an event that is stored at the first and at the last page is stored at each page (`onwards_more`); a page has what follows the last received identifier in increasing order (`server_reached`); induction on the pages (`server_pages_going`, `server_pages_during`, `C110_paging`, `C110_observed`). In contrast to C109, cleanups and pending events do no harm: pages are continued by identifier and not by position |
| C111 | as C110, for persisted events, with restarts (`reopen`: the process ends at this point, everything volatile is lost, a new backend on the same file) between the pages | what was flushed and is gone never comes back, over any action (`onwards_persisted`, `onwards_restarts`); otherwise the induction of C110 (`server_pages_restarts`, `C111_paging`, `C111_observed`). For queries that also ask for events that are not persisted the claim does not extend over restarts: an event that is lost twice and registered again behind the last received identifier is missed (`C111_pending_refuted`; a history of the backend alone, a synchronising client would not register events in this order) |
| C112 | as C109, with cleanups and with restarts (`reopen` as in C111, same configuration) between the pages | with the same configuration every restart finds the same partition identifiers (`SameParts`, `sameParts_step`); entries of a partition without limit that were flushed survive every action (`entries_restarts`); nothing is pending when a page is asked for (`NothingPending`), so the induction of C109 (`pages_going`) applies (`pages_restarts`, `C112_partial`, `C112_observed_partial`). Missing: pages asked for while events are pending: if the last received event is lost at the end of the process the next page is empty and the paging ends early (`C112_lost_refuted`); partitions with limits (`C109_cleanup_refuted`); restarts with another configuration, which may choose another partition for the query (`C112_config_refuted`) |
| C113 | the backend of C24, C31 and C33 | what latest and timeseries queries return is held in a latest slot or a timeseries entry (`returned_held`, for pending and stored events, whatever the order of the pending ones), and all held events are in the pages of a server query (`server_paging`, C32), hence `C113_found`; an identifier is stored once (`storeOk_unique`, `C113_same`); what was flushed stays in the log of stored events over every action (`onwards_restarts`, `C113_stable`). Without `persisted` the last claim does not hold: an event lost with the process may be followed by another one with its identifier (`C113_reused_refuted`; a history of the backend alone, the engine of C50 does not reuse identifiers that were persisted) |
| C114 | the backend of C24, C31 and C33; the flush is the step `flush`, a query during a flush is C36 | latest queries do not look at what is pending (`C114_latest`, equal answers); timeseries answers are determined by their elements and the order of keys if pending events are in that order (`series_chosen`, `ordered_eq`, `C114_timeseries_partial`, equal answers; otherwise `C33_unflushed_refuted`); pages of a server query lose at most events that were persisted (`C114_server_partial`). Violation: an event that was replaced as the latest of its type and is in no partition is still returned by server queries until the flush (`C114_server_refuted`), because removals that are pending are not taken into account in `RefDb.query` |
| C115 | the backend of C30; the cleanup is the step `cleanup` | a cleanup is the removal of timeseries entries of partitions with limits (`cleaned_world`), which leaves latest slots as they are (`C115_latest`), and what is held afterwards was held before (`held_drop`, `C115_server`); the answer of a timeseries query is the page of the accepted events it looks at, whatever the order of pending events and with or without a last event identifier (`series_looked`, `cut_after`), and after a cleanup it looks at a sublist of them (`extCleanup_sublist`, `looked_sublist`, `C115_timeseries`). A cleanup that fails closes the backend and is left out |
| C64 | command line options to query parameters | exact for latest, subscribe and timeseries without order options; `query server`, `--order`, `--order-by`, `--last-event-id` are **broken** (refuted) |
| C67 | eventer server and eventer client joined by a connection that delays but does not reorder (`Model/Link.lean`) | invariant: told plus what one running call still has to send is what is due; what the client has seen is the delivered part of what was sent; refuted for overlapping calls of `notify_events`, which may overtake each other (`server.py:126-128`); `_partial`: for events whose calls do not overlap, e.g. those of one server; the status part is complete |
| C68 | eventer server, eventer client and their connection (`Model/Link.lean`) | invariant per connection: conversations answered = conversations of handled requests without the one being handled; end to end: uniqueness of conversations (C43), origin of every message of the client and of every response |
| C69 | callbacks of `server/eventer_server.py` on top of the eventer server, engines as numbers that may close at any time (`Model/EventerHost.lean`) | every step moves one connection in one of thirteen ways, each with its calls of the engine; two invariants over these moves; refuted for clients that connect before the engine is started (`server/eventer_server.py:85-86`, nothing is registered in `set_status`); `_partial`: for an engine that is in use before the init request and stays |
| C70 | the same | without engine and with a returning engine by computation; for all histories from the invariant of C68 and an invariant for the end of loops; refuted: `Engine.register` raises when the engine closes (`engine.py:92-93`), `_on_register` does not check `is_open`, so the connection loop ends without `MsgRegisterRes` (`eventer/server.py:197-202`); `_partial`: while the loop runs, or if nothing is lost and nothing raises |
| C71 | connection loops and callbacks of the adminer server (`Model/AdminServer.lean`) | invariant relating handled requests and responses; the stored configuration changes only with a successful write |
| C72 | `_run`, `_start`, `_stop` and the monitor callbacks of the main runner, each part as created or closed (`Model/MainRunner.lean`) | invariant over all phases: what is alive, what the rest of `_stop` closes, and three properties of the log that are kept by appending; the rest of `_stop` gets shorter |
| C73 | the readiness loop of the main runner (`Model/MonitorReady.lean`) | invariant; **violated**: `clear` (l.59) is called after `await set_ready(True)`, a request made during this await is forgotten; `_partial`: for requests made while the loop waits for one |
| C74 | client runner and engine runner (`Model/Runner.lean`) with the order of `_stop` | **violated**: `_stop` closes the client runner before the engine runner (l.150-154); the end of its connections is taken for the end of the remote activity, so a waiting engine runner starts an engine; `_partial`: nothing is started once the engine runner is cancelled |
| C76 | `_client_loop` of a component, one loop after the other (`Model/CompClient.lean`) | every entry of the log fits what is before it, invariant per place of the loop; **violated**: a loop cancelled after the runner callback has returned and before the loop is resumed forgets the runner; `_partial`: no loop is cancelled in that moment |
| C77 | the same | invariants; **violated**: if the connection is lost while the runner callback runs (in the client's group, l.251), `CancelledError` passes `except Exception` (l.279) and ends the loop while the component stays open; `_partial`: no connection is lost in that time |
| C78 | JSON printed by `manager/common.py` (`Model/CliOutput.lean`) | injectivity, by parts; hexadecimal digits |
| C79 | `register` of `manager/main.py`: options to event, outcome of the call to exit code (`Model/CliOutput.lean`, with the client of C43) | case analysis; a call without response never gets events; **violated**: `register` is called without `with_response` (l.234), so the exit code is 1 for every outcome |
| C80 | engine (C18–C22) on the LMDB backend (C23–C34); the events of the engine's server that are registered are those it passed to the backend (`Props/ReadWrites`) | invariant of the abstract store over events of one server that are registered in order, then the joins of C18, C19 and C23; **violated** when the clock is set back: the backend skips the events (`backend.py:156-158`), the engine answers with them; `_partial`: timestamps do not decrease |
| C81 | backend, its callbacks and the eventer server of one event server (`Model/Publish`): registrations, flushes with their callbacks one after another, cancelled callers, clients | the calls of `notify_events` of a history are those of a history of `Model/EventerServer`, then C39; the flush loop announces what was registered, in order, and can always finish; **violated** when the caller of `register` is cancelled in the callback (`backend.py:191-192`, the register loop of an engine that is closed): the events are stored and queryable, the clients that were not served yet are never told; `_partial`: callers that are not cancelled |
| C82 | decoders of `convert/v06.py`, encoders and decoders of `convert/v07.py`, `get_version` (`Model/OldCodec.lean`) | round trips with any bytes after the value, by the lemmas of C12; induction on the list of references; events up to the data passed to hat-sbs, as in C14; `get_version` characterised by the content of the file, then C46 and the conversion. A file left by a failed conversion to 0.9 has no version (`C82_unfinished`) |
| C83 | engine (C18–C22) on the LMDB backend (C23–C34), as for C80 (`Props/ReadSeries`) | invariant of the abstract store: entries of the events of one server that are registered in order stay in partitions without a limit (`Proof/ReadSeries`), then C18, C19, C33 and C34; **violated** for events that are not flushed when the query is by source timestamp (`timeseriesdb.py:396-454` takes them as sorted); `_partial`: timestamps do not decrease, and everything is flushed or there is one server and the query is by timestamp |
| C84 | two LMDB backends (C23–C34), each synchronised from the other by the client of C37: questions are answered by the backend of the remote server, received events are registered in the local backend beside its own; connection losses and restarts of both at any point (`Model/Duo` is one direction, `Model/Pair` both) | `C84_flushed` (what a server shows of the other one was flushed there), `C84_received` (it has received everything, or shows something later), `C84_latest_partial` (both show the same): invariant over histories that keeps, beside the abstract stores of both, that the invariant of C37 holds with what the remote server has stored permanently, and that the local one has no gaps below its last id (`Proof/Duo`, `Proof/DuoStore`, `Proof/Pair`); **violated** for ties: of two events of different servers with one type and timestamp a server shows the one it registered last, and the orders differ (`latestdb.py:57-60`), `C84_refuted`; `_partial`: no such ties, each server registers its own events in order, and both show the same types |
| C85 | `_set_synced`, `_on_status` and the places of `_synchronize` that call them, `EngineRunner.set_synced`, with status messages of the remote server (`Model/SyncReport`, on top of `Model/Sync`) | `C85_states`, `C85_count`: one invariant per place of `_synchronize`, relating counter, answers and registered events; `C85_synced`: from C37, as the synchronisation of a history is one of `Model/Sync`; `C85_remote`: a report follows each time the engine of the remote server is started; `C85_local`; **violated**: a local engine that closes while it is given a report ends the connection (`engine.py:92-93,144-145`, `eventer_client.py:184-186`), `C85_interrupted_refuted`, `C85_open_partial` without that |
| C86 | the event loop and the database thread as in C35 (`Model/LmdbAsync`), with endless schedules (`Spec/LmdbLive`: `upTo`, `Fair`) | liveness: calls of `flush` and queries are conserved as multisets by every step (`flushCall_step`, `queryCall_step`); each stage of the flush loop has a measure that fair steps decrease (`leads`, `awaiting_resumed`, `resumed_done`, `idle_awaiting`, `closed_ends`); a query advances to the front of the jobs, then of the results (`jobs_done`, `reads_done`). The closing of the LMDB environment after the flush loop is not modelled |
| C95 | `register`, `flush` and the flush loop with the queue between them, which has a limited number of places (`Model/FlushQueue`): `backend.py:59-61,140-271,291-315` without the content of the database | invariant: the count of events is at most the limit plus the length of lists times the requests in the queue, in the hands of the loop or waiting (`bounded_step`); flushed, being flushed and registered lists make up the accepted ones (`Good.split`); without the hypothesis that nobody gives up there is no bound (`C95_cancelled`) |
| C96 | as for C95, with endless schedules | each step moves a call or the loop on (`Moves`, `LoopMoves`), and a measure that fair steps decrease (`descend`); **violated**: a call of `register` that finds the queue full may be overtaken by a later one, so that the registered events callback gets lists in another order (`C96_order_refuted`), or raises `QueueClosedError` although its events are written (`C96_error_refuted`); a backend closed before its loop has started never ends a call of `flush` and never closes its environment (`C96_unstarted_refuted`); proved for calls that find room, for calls made one by one, and for a loop that has started |
| C87 | the two servers of C84 with timeseries | `C87_event` (for each event that all partitions for the query take and keep), `C87_lists` (the whole result, with python subscriptions, where the choice of a partition is determined): the invariant of C84, generalised by what a configuration takes (`Terms` in `Proof/DuoStore`), beside the invariant that entries of partitions without limits stay (`Proof/KeptSeries`); identifiers of partitions agree as both databases are first opened with the same configuration. No condition on ties. Partitions with a limit are out of scope: each server removes entries at its own times |
| C88 | endless schedules (`Spec/Schedule`) of the actions of C84 and C87 | `C88_shown` (one direction: an event that the primary keeps showing is shown by the standby, or a newer one, from some time on), `C88_settled`, `C88_latest`, `C88_event`, `C88_lists` (both directions, no more events are given): a measure on the task of the client, the messages on their way and the pages still to come decreases with each fair round (`Proof/SyncLive`), carried over to backends by a simulation of each step of `Duo` by steps of `Sync` (`Proof/DuoLive`) and to both directions by symmetry (`Proof/PairLive`). Assumed and needed: the event stays shown, as a primary that replaces events faster than pages are read may be paged for ever, and the events of its session are flushed together, as the engine does; fairness of each part |
| C89 | engines of C18–C20 on the servers of C84: an engine is created with the last id of the backend, its calls of `register` go to the backend, the end of a process drops the engine and what was not flushed (`Model/Plant`); modules, requests, failures and answers of the backend to the engine are arbitrary | `C89_order` (the assumptions of C84, C87 and C88 about the order of events hold), `C89_latest`, `C89_lists` (their conclusions for servers with engines), `C89_settles`, `C89_settles_latest`, `C89_settles_lists` (endless schedules): induction over histories of both servers together, since that a new engine continues after all surviving ids needs the invariant of C84 for what happened so far (`Proof/Plant`); timestamps of an engine (`Proof/EngineTimes`). Assumed: clocks are not set back, and partitions take all events, as otherwise ids may be used twice (C50) |
| C90 | the engine of C18–C20 in endless schedules; that the loop goes on means that its steps, the returns of modules and of the backend and the end of closing happen again and again (`Spec.LoopFair`), that callers waiting for room are woken is the action `wake 0`; `Spec.Calm` says that in each session modules return finitely many events | `C90_answered` (calls in the queue), `C90_all` (all calls, if there are finitely many), `C90_stops`, `C90_closes` (an engine that stops, for whatever reason, closes, and every call gets an outcome): a session has a rank (part, events that modules may still return plus those not passed on, calls left) that falls lexicographically whenever what it waits for happens; `C90_endless` (without `Calm` a call never gets an outcome: one module that answers each event with an event), `C90_inside` (while the loop is inside a call of a module no call with events gets an outcome). Not claimed: that a call waiting for room in the queue gets in while newer calls keep coming — the queue of hat-aio lets a newer call take the place that was freed, so it can be overtaken for ever. |

## Modelled code

`common/`: `common.py` (types, `Timestamp.add`, `Event` order), `encoder.py`,
`matches.py`, `subscription/*`, `collection/*`, `module.py` as an interface;
`src_c/py/subscription/_csubscription.c`, `src_c/py/collection/_ctree.c`;
`backends/memory.py`, `backends/dummy.py`; `backends/lmdb/`: `backend.py`, `common.py`,
`conditions.py`, `environment.py`, `latestdb.py`, `refdb.py`, `systemdb.py`,
`timeseriesdb.py`, `manager/{common,copy,query}.py`,
`convert/{convert_v06_to_v07,convert_v07_to_v09,main,v06,v07,version}.py`;
`server/engine.py`, `server/engine_runner.py`, `server/eventer_client.py`,
`server/eventer_client_runner.py`, `server/eventer_server.py`,
`server/adminer_server.py`, `server/main_runner.py`;
`eventer/client.py`, `eventer/server.py`; `adminer/client.py`,
`adminer/server.py`; `component.py`;
`manager/main.py`, `manager/common.py` (without the `server` action, which is not
implemented).

## Not modelled

* Python interpreter, asyncio and hat-aio internals.  Assumed: between two
  `await`s nothing else runs on the event loop; `aio.Group.close` cancels tasks;
  a task cancelled before its first step never runs; `aio.Queue` is FIFO; one
  thread executes jobs in order of submission.  Every `await` may suspend.
* hat-drivers chatter and TCP: messages arrive in order; `send` hands a message
  over when it is called.
* hat-sbs and hat-json byte and text formats (see C14), JSON schema validation of
  configurations (configurations are taken as valid).
* LMDB internals: named databases are sorted tables, write transactions are
  atomic and durable; the map size is not modelled.
* C memory management is C65 (`_ctree.c`) and C66 (`_csubscription.c`).  Code run by
  `Py_DECREF` of a value, and memory inside `hat_ht`, are not modelled.
* Program entry points and log configuration (`server/main.py`,
  `manager/main.py` outside options, exit code of `register` and printed JSON).
  Closing of a server beyond the order of its parts (C72).
* A part whose creation is cancelled by `MainRunner` is taken as not created;
  that its constructor cleans up after itself is not modelled.

Keys and values of the current database and of old versions are encoded as in
C12, C13 and C82; the models of the backend (C24 and later) work with the decoded
entries, which C91 shows to be what the file of bytes amounts to.  A file that was
written by something else, with entries that cannot be decoded, is not modelled.

## Notes on the code

Observed while modelling, in addition to the refuted properties:

* In the sequential model a failed flush closes the backend with the file
  unchanged.  In the code the `finally` of the flush loop flushes once more;
  that is covered by the asynchronous model (C35, C59).  C26 and C27 are
  statements about the sequential model.
* Calling `query` of the eventer client inside its events callback never
  returns, because the receive loop awaits the callback.
* The engine is not stopped when a remote server becomes active while it runs.
* Converted partitions keep the order of their subscriptions, so opening the
  database with the same configuration may create a new partition.
* A failed `dictConfig` may have changed logging partly, while the adminer
  server still reports the former configuration.  `server/adminer_server.py` uses
  `logging.config` without importing it (`server/main.py` does).
* `manager/query.py` has `_query_latest`, which is not used.

## Trusted base

* Lean 4.33.0 kernel; Mathlib modules imported individually.
* Axioms: every theorem depends at most on `propext`, `Classical.choice` and
  `Quot.sound`.  No `sorry`, `native_decide`, `bv_decide` or added axioms.
* The reading of the Python and C sources into the model (comments cite lines).

## Mutation testing

`seeded/LOG.jsonl` lists edits of the model that look like realistic bugs, the
claim that each breaks and the theorems that stopped to hold.
