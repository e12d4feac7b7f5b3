import Verif.Model.Lmdb

/-!
# LMDB backend on the event loop

`Model/Lmdb.lean` executes flushes, cleanups and queries at once.  Here they
are split at their `await`s: database functions are jobs of a single thread
(`environment.py:18,44`), executed in the order of their submission; other
coroutines run between the submission of a job, its execution and the
continuation of the coroutine that submitted it.  One state machine describes one
open backend, from `backend.py:50-105` until it is closed.

Assumptions: jobs start in the order in which they were submitted (`aio.Executor`
with one thread; the tasks that submit them start in the order of their
creation); a job is one LMDB transaction.  A Python object that is shared
between coroutines (the changes of the timeseries and the reference database) is
represented by its generation number, `create_changes` (`timeseriesdb.py:110-113`,
`refdb.py:100-103`) starts a new generation.
-/

namespace HatEvent

/-- The partition a query is about, `timeseriesdb.py:96-108`. -/
def selectPartition (params : QueryTimeseriesParams) (subscription : Option Sub) :
    List (Int × Partition) → Except PyErr (Option Int)
  | [] => .ok none
  | (partitionId, partition) :: r => do
    if partition.orderBy ≠ params.orderBy then selectPartition params subscription r
    else do
      let disjoint ← unrelated subscription partition
      if disjoint then selectPartition params subscription r
      else return some partitionId

/-- The filter of a query, `timeseriesdb.py:155-161`. -/
def newFilter (params : QueryTimeseriesParams) (subscription : Option Sub) (maxResults : Int) : Filter :=
  ⟨subscription, params.tFrom, params.tTo, params.sourceTFrom, params.sourceTTo, maxResults + 1,
    params.lastEventId⟩

/-- The local variables of a query that waits for the database. -/
inductive Waiting where
  /-- `refdb.py:76-79`. -/
  | server (params : QueryServerParams) (maxResults : Int)
  /-- `timeseriesdb.py:173-175`. -/
  | ascending (partitionId : Int) (params : QueryTimeseriesParams) (filter : Filter) (maxResults : Int)
  /-- `timeseriesdb.py:168-170`, with the events found so far. -/
  | descending (partitionId : Int) (params : QueryTimeseriesParams) (filter : Filter) (maxResults : Int)
    (events : List Event)

/-- A query that waits for the database.  `gen` is the generation of the changes
it refers to; `since` is the number of `register` calls before it (for the
statements only). -/
structure AsyncQuery where
  params : QueryParams
  gen : Nat
  waiting : Waiting
  since : Nat

/-- What the database functions return. -/
inductive ReadResult where
  | server (events : Except PyErr (List Event))
  | series (events : Except PyErr (List Event × Filter))

/-- `_ext_query_events` or `_ext_query_partition_events`, `refdb.py:172-209`,
`timeseriesdb.py:229-245`. -/
def Waiting.read (conf : Conf) (disk : Disk) : Waiting → ReadResult
  | .server params maxResults =>
    .server (extQueryEvents conf disk params.serverId (maxResults + 1) params.lastEventId)
  | .ascending partitionId params filter _ => .series (partitionEvents conf disk partitionId params filter)
  | .descending partitionId params filter _ _ =>
    .series (partitionEvents conf disk partitionId params filter)

/-- The end of a query, with the content of the changes it refers to,
`refdb.py:81-98`, `timeseriesdb.py:173-189`. -/
def Waiting.finish (timeseries : TimeseriesChanges) (ref : RefChanges) :
    Waiting → ReadResult → Except PyErr QueryResult
  | .server params maxResults, .server events => do
    let events ← events
    cutResults (withPending ref params maxResults events) maxResults
  | .ascending partitionId params _ maxResults, .series r => do
    let r ← r
    if r.2.maxResults < 1 then cutSeries r.1 maxResults
    else do
      let r' ← partitionChanges ((Dict.get timeseries partitionId).getD []) params r.2
      cutSeries (r.1 ++ r'.1) maxResults
  | .descending _ _ _ maxResults events, .series r => do
    let r ← r
    cutSeries (events ++ r.1) maxResults
  | _, _ => .error (.exception "no such result")

/-- The partition whose pending events the end of a query looks up (which
inserts the partition in the `defaultdict`), `timeseriesdb.py:177-179`. -/
def Waiting.lookup : Waiting → ReadResult → Option Int
  | .ascending partitionId _ _ _, .series (.ok r) => if r.2.maxResults < 1 then none else some partitionId
  | _, _ => none

/-- A job of the database thread. -/
inductive Job where
  | query (q : AsyncQuery)
  /-- `_ext_flush` with the changes of a generation. -/
  | flush (gen : Nat)
  | cleanup (fl : Rat → Rat) (sizeEntries : Rat → Option Int) (now : Timestamp)

/-- State of `_flush_loop`, `backend.py:222-271`; `final` is the flush at the
end of the loop (l.225-229). -/
inductive Flusher where
  /-- Waiting for a flush request or the end of the period. -/
  | idle
  /-- Waiting for the job, `backend.py:308`. -/
  | waiting (registered : List (List Event)) (final : Bool)
  /-- Calling the flushed events callback, `backend.py:313-315`. -/
  | notifying (registered : List (List Event)) (final : Bool)
  /-- The job raised. -/
  | failed (final : Bool)
  | ended

/-- An open backend. -/
structure Async where
  conf : Conf
  disk : Disk
  mem : Mem
  /-- Generation of the changes in `mem`. -/
  gen : Nat
  /-- Changes of earlier generations. -/
  old : Nat → Changes
  /-- Submitted jobs that are not done. -/
  jobs : List Job
  /-- The first job is a flush that has been started. -/
  running : Bool
  /-- Something was inserted in the changes of a flush that has been started. -/
  raced : Bool
  /-- Queries whose job is done. -/
  read : List (AsyncQuery × ReadResult)
  flusher : Flusher
  isOpen : Bool
  /-- Waiting calls of `flush`, with the number of `register` calls before them. -/
  requests : List Nat
  /-- Calls of `flush` that are being served. -/
  serving : List Nat
  /-- Calls of the flushed events callback. -/
  cb : List (List Event)
  /-- For the statements: `register` calls; results of queries, with the number
  of `register` calls before the query and before the result; number of
  `register` calls before each call of `flush` that returned, or that raised; a
  flush has failed. -/
  calls : List (List Event)
  results : List (QueryParams × Nat × Except PyErr QueryResult × Nat)
  flushed : List Nat
  refused : List Nat
  lost : Bool

/-- What the event loop and the database thread may do next. -/
inductive Act where
  | register (events : List Event)
  | query (params : QueryParams)
  | request
  | flush
  | cleanup (fl : Rat → Rat) (sizeEntries : Rat → Option Int) (now : Timestamp)
  /-- The thread starts a flush. -/
  | start
  /-- The thread finishes a job.  `raise`: insertions during the flush raise. -/
  | job (raise : Bool)
  /-- The query with this position continues. -/
  | finish (i : Nat)
  /-- The flush loop continues. -/
  | notify
  | close

/-- The state of `backend.py:50-105` after a successful opening. -/
def Async.create (conf : Conf) (disk : Disk) (mem : Mem) : Async where
  conf := conf
  disk := disk
  mem := mem
  gen := 0
  old := fun _ => ⟨⟨[], []⟩, ⟨[], []⟩, [], []⟩
  jobs := []
  running := false
  raced := false
  read := []
  flusher := .idle
  isOpen := true
  requests := []
  serving := []
  cb := []
  calls := []
  results := []
  flushed := []
  refused := []
  lost := false

/-- `changes[partition_id]` of a `defaultdict`, `timeseriesdb.py:34,165,179`. -/
def touchChanges (changes : TimeseriesChanges) (partitionId : Int) : TimeseriesChanges :=
  Dict.set changes partitionId ((Dict.get changes partitionId).getD [])

/-- The same for the current changes. -/
def Mem.touch (m : Mem) (partitionId : Int) : Mem :=
  { m with timeseries := { m.timeseries with changes := touchChanges m.timeseries.changes partitionId } }

/-- The same for the changes of a generation. -/
def Async.touch (s : Async) (gen : Nat) (partitionId : Int) : Async :=
  if gen = s.gen then { s with mem := s.mem.touch partitionId }
  else
    { s with
      old := fun g => if g = gen then
        { s.old g with timeseries := touchChanges (s.old g).timeseries partitionId } else s.old g
      raced := s.raced || (s.running && decide (gen + 1 = s.gen) &&
        (Dict.get (s.old gen).timeseries partitionId).isNone) }

/-- The result of a query. -/
def Async.answer (s : Async) (params : QueryParams) (since : Nat) (r : Except PyErr QueryResult) : Async :=
  { s with results := s.results ++ [(params, since, r, s.calls.length)] }

/-- `self._env.execute(...)` of a query. -/
def Async.submit (s : Async) (params : QueryParams) (w : Waiting) : Async :=
  { s with jobs := s.jobs ++ [.query ⟨params, s.gen, w, s.calls.length⟩] }

/-- `_query_partition` until the first `await`, `timeseriesdb.py:150-175`. -/
def Async.queryPartition (s : Async) (partitionId : Int) (params : QueryTimeseriesParams) (filter : Filter)
    (maxResults : Int) : Async :=
  match params.order with
  | .descending =>
    let changes := (Dict.get s.mem.timeseries.changes partitionId).getD []
    let s := s.touch s.gen partitionId
    match partitionChanges changes params filter with
    | .error e => s.answer (.timeseries params) s.calls.length (.error e)
    | .ok r =>
      if r.2.maxResults < 1 then s.answer (.timeseries params) s.calls.length (cutSeries r.1 maxResults)
      else s.submit (.timeseries params) (.descending partitionId params r.2 maxResults r.1)
  | .ascending => s.submit (.timeseries params) (.ascending partitionId params filter maxResults)

/-- `TimeseriesDb.query` until the first `await`, `timeseriesdb.py:85-108`. -/
def Async.queryTimeseries (s : Async) (params : QueryTimeseriesParams) : Async :=
  match querySubscription s.conf params.eventTypes with
  | .error e => s.answer (.timeseries params) s.calls.length (.error e)
  | .ok subscription =>
    let maxResults := limitResults params.maxResults s.conf.maxResults
    match selectPartition params subscription s.mem.timeseries.partitions with
    | .error e => s.answer (.timeseries params) s.calls.length (.error e)
    | .ok none => s.answer (.timeseries params) s.calls.length (.ok ⟨[], false⟩)
    | .ok (some partitionId) =>
      s.queryPartition partitionId params (newFilter params subscription maxResults) maxResults

/-- `RefDb.query` until the first `await`, `refdb.py:64-79`. -/
def Async.queryServer (s : Async) (params : QueryServerParams) : Async :=
  if wrongServer params then
    s.answer (.server params) s.calls.length (.error (.valueError "invalid server id"))
  else s.submit (.server params) (.server params (limitResults params.maxResults refMaxResults))

/-- `LmdbBackend.query` until the first `await`, `backend.py:196-211`.  Queries of a
closed backend raise and are not recorded. -/
def Async.query (s : Async) (params : QueryParams) : Async :=
  if s.isOpen then
    match params with
    | .latest eventTypes => s.answer params s.calls.length (s.mem.latest.query s.conf eventTypes)
    | .timeseries params => s.queryTimeseries params
    | .server params => s.queryServer params
  else s

/-- `LmdbBackend.register`, `backend.py:140-194`.  An exception in the loop is not
modelled further (it does not happen, `vol_register`). -/
def Async.register (s : Async) (events : List Event) : Async :=
  if s.isOpen then
    match s.mem.register s.conf events with
    | .ok m => { s with mem := m, calls := s.calls ++ [events] }
    | .error _ => s
  else s

/-- `_flush` until the first `await`, `backend.py:291-308`.  The flush loop takes
all waiting requests (l.248-249); when the backend is closed, it refuses them
(l.260-267) and flushes once more.  (Registrations between l.249 and l.295 are
not modelled: they are flushed, too.) -/
def Async.startFlush (s : Async) : Async :=
  match s.flusher with
  | .idle =>
    { s with
      mem := { s.mem.createChanges.2 with registered := [] }
      old := fun g => if g = s.gen then s.mem.createChanges.1 else s.old g
      gen := s.gen + 1
      jobs := s.jobs ++ [.flush s.gen]
      flusher := .waiting s.mem.registered (!s.isOpen)
      requests := []
      serving := if s.isOpen then s.requests else []
      refused := if s.isOpen then s.refused else s.refused ++ s.requests }
  | _ => s

/-- The end of the job of a flush. -/
def Flusher.done (ok : Bool) : Flusher → Flusher
  | .waiting registered final => if ok then .notifying registered final else .failed final
  | f => f

/-- The thread executes the first job, `backend.py:318-334`, `refdb.py:172-209`,
`timeseriesdb.py:229-245`.  A cleanup that raises closes the backend (`backend.py:285-289`). -/
def Async.runJob (s : Async) (raise : Bool) : Async :=
  match s.jobs with
  | [] => s
  | .query q :: r => { s with jobs := r, read := s.read ++ [(q, q.waiting.read s.conf s.disk)] }
  | .cleanup fl sizeEntries now :: r =>
    match extCleanup fl sizeEntries now s.mem.timeseries.partitions s.disk with
    | .ok res => { s with jobs := r, disk := res.1 }
    | .error _ => { s with jobs := r, isOpen := false }
  | .flush gen :: r =>
    if s.raced && raise then
      { s with jobs := r, running := false, raced := false, flusher := s.flusher.done false, lost := true }
    else
      match extFlush s.disk (s.old gen) with
      | .ok disk =>
        { s with jobs := r, running := false, raced := false, disk := disk, flusher := s.flusher.done true }
      | .error _ =>
        { s with jobs := r, running := false, raced := false, flusher := s.flusher.done false, lost := true }

/-- The first job is a flush and starts. -/
def Async.startJob (s : Async) : Async :=
  match s.jobs with
  | .flush _ :: _ => { s with running := true }
  | _ => s

/-- The changes of a generation. -/
def Async.changes (s : Async) (gen : Nat) : TimeseriesChanges × RefChanges :=
  if gen = s.gen then (s.mem.timeseries.changes, s.mem.ref.changes)
  else ((s.old gen).timeseries, (s.old gen).ref)

/-- The insertion at the end of a query. -/
def Async.touchLookup (s : Async) (gen : Nat) : Option Int → Async
  | some partitionId => s.touch gen partitionId
  | none => s

/-- The rest of a query, `refdb.py:81-98`, `timeseriesdb.py:173-189`. -/
def Async.finish (s : Async) (i : Nat) : Async :=
  match s.read[i]? with
  | none => s
  | some (q, r) =>
    let result := q.waiting.finish (s.changes q.gen).1 (s.changes q.gen).2 r
    let s := s.touchLookup q.gen (q.waiting.lookup r)
    { s with read := s.read.eraseIdx i }.answer q.params q.since result

/-- The flush loop after the job, `backend.py:252-271,310-315`.  If the backend
was closed meanwhile, the calls of `flush` being served are refused (the
cancellation is raised at l.250, before their results are set); after an error
the backend is closed (l.257-261). -/
def Async.notify (s : Async) : Async :=
  match s.flusher with
  | .notifying (events :: r) final => { s with cb := s.cb ++ [events], flusher := .notifying r final }
  | .notifying [] final =>
    { s with
      flusher := if final then .ended else .idle
      serving := []
      flushed := if s.isOpen then s.flushed ++ s.serving else s.flushed
      refused := if s.isOpen then s.refused else s.refused ++ s.serving }
  | .failed final =>
    { s with
      flusher := if final then .ended else .idle
      isOpen := false
      serving := []
      refused := s.refused ++ s.serving }
  | _ => s

/-- One step. -/
def Async.step (s : Async) : Act → Async
  | .register events => s.register events
  | .query params => s.query params
  | .request => if s.isOpen then { s with requests := s.requests ++ [s.calls.length] } else s
  | .flush => s.startFlush
  | .cleanup fl sizeEntries now =>
    if s.isOpen then { s with jobs := s.jobs ++ [.cleanup fl sizeEntries now] } else s
  | .start => s.startJob
  | .job raise => s.runJob raise
  | .finish i => s.finish i
  | .notify => s.notify
  | .close => { s with isOpen := false }

/-- A schedule. -/
def Async.run (s : Async) (acts : List Act) : Async := acts.foldl Async.step s

end HatEvent
