import Verif.Model.Event

/-!
# The flush queue of the LMDB backend

`register` and `flush` of the backend with the queue that leads to the flush loop (`backends/lmdb/backend.py:59-61,140-271,291-315`).  The queue has
a limited number of places, and a call that finds it full waits.  `Model/LmdbAsync.lean` has the database and the queries, with a queue without limit.

* What `register` does with each event is left out (`backend.py:146-183`, `Model/Lmdb.lean`), as is the content of the database.
* A call of `flush` goes on as soon as its future has a result.
* A flush and its callbacks (`backend.py:308-315`) are one step, which succeeds or raises.  The environment is open until the loop closes it (l.229,292).
* `aio.Queue`: `put` of a full queue waits; if there is room when the caller gets its turn, the item is put, otherwise it waits again; closing the queue wakes all
  callers, which get `QueueClosedError`.  The timeout of `aio.wait_for` may occur at any time.
-/

namespace HatEvent

/-- How a call of `register` or `flush` ends: it returns, raises `BackendClosedError` or `QueueClosedError`, or is cancelled. -/
inductive QueueEnd where
  | done
  | closed
  | queueClosed
  | cancelled
  deriving DecidableEq

/-- Where a call is: `register` waits for room (l.189) or for its callback (l.192), `flush` waits for room (l.216) or its future (l.217).  `seen` is the number of
lists registered before the call (for the statements). -/
inductive QueueCall where
  | absent
  | regPutting (events : List Event)
  | regCalling (events : List Event)
  | flushPutting (seen : Nat)
  | flushWaiting (seen : Nat)
  | finished (result : QueueEnd)

/-- Where the flush loop is: not started, cancelled before it started, waiting for an item (l.234), an item was taken from the queue and
the loop has not gone on (l.234-235), all items were taken and `_flush` has not begun (l.250), in `_flush` (l.308), in the last flush (l.225-229,271), which has begun
or not, ended. -/
inductive FlushAt where
  | spawned
  | never
  | waiting
  | got (item : Option Nat)
  | ready (items : List (Option Nat))
  | flushing (items : List (Option Nat)) (lists : List (List Event))
  | closing (lists : Option (List (List Event)))
  | ended

/-- The backend, `backend.py:59-61`.  `capacity` is `flush_queue_size` (l.25), `limit` is `max_registered_count` (l.27); items of the queue are calls of `flush`, or `none` if put by
`register`; `count` and `registered` are `_registered_count` and `_registered_queue`; for the statements: `accepted` are the lists of all calls of
`register` that were not refused, `told` the calls of the registered events callback, `flushed` the lists of successful flushes. -/
structure FlushQueue where
  capacity : Nat
  limit : Nat
  isOpen : Bool := true
  queueOpen : Bool := true
  envOpen : Bool := true
  queue : List (Option Nat) := []
  count : Nat := 0
  registered : List (List Event) := []
  loop : FlushAt := .spawned
  nextCall : Nat := 0
  calls : Nat → QueueCall := fun _ => .absent
  accepted : List (List Event) := []
  told : List (List Event) := []
  flushed : List (List Event) := []

/-- What may happen: calls of `register` and `flush`, the turn of a call that waits for room, the end of a callback, cancelling of a call; the loop starts, an item is taken from the
queue, the loop goes on with it or after a timeout, `_flush` begins and ends; the backend is closed, and the loop is cancelled. -/
inductive QueueAct where
  | register (events : List Event)
  | flush
  | enter (call : Nat)
  | called (call : Nat)
  | cancel (call : Nat)
  | start
  | get
  | drain
  | begin
  | done (ok : Bool)
  | close
  | stop

namespace FlushQueue

/-- A call moves on. -/
def setCall (s : FlushQueue) (k : Nat) (c : QueueCall) : FlushQueue :=
  { s with calls := fun i => if i = k then c else s.calls i }

/-- The queue has no free place, `backend.py:59`. -/
def full (s : FlushQueue) : Bool := 0 < s.capacity && s.capacity ≤ s.queue.length

/-- `register` has put its request or needs none, `backend.py:191-192`. -/
def tell (s : FlushQueue) (k : Nat) (events : List Event) : FlushQueue :=
  { s.setCall k (.regCalling events) with told := s.told ++ [events] }

/-- `put` in `register`, `backend.py:189`. -/
def putRegister (s : FlushQueue) (k : Nat) (events : List Event) : FlushQueue :=
  if s.queueOpen then
    if s.full then s.setCall k (.regPutting events)
    else { s with queue := s.queue ++ [none] }.tell k events
  else s.setCall k (.finished .queueClosed)

/-- `put` in `flush`, `backend.py:214-220`. -/
def putFlush (s : FlushQueue) (k seen : Nat) : FlushQueue :=
  if s.queueOpen then
    if s.full then s.setCall k (.flushPutting seen)
    else { s with queue := s.queue ++ [some k] }.setCall k (.flushWaiting seen)
  else s.setCall k (.finished .closed)

/-- The end of `register`, `backend.py:185-192`. -/
def store (s : FlushQueue) (k : Nat) (events : List Event) : FlushQueue :=
  let s := { s with registered := s.registered ++ [events], accepted := s.accepted ++ [events], count := s.count + events.length }
  if s.limit < s.count then s.putRegister k events else s.tell k events

/-- `register`, `backend.py:140-194`. -/
def register (s : FlushQueue) (events : List Event) : FlushQueue :=
  let k := s.nextCall
  let s := { s with nextCall := k + 1 }
  if s.isOpen then s.store k events else s.setCall k (.finished .closed)

/-- `flush`, `backend.py:213-220`.  It does not check whether the backend is open. -/
def flush (s : FlushQueue) : FlushQueue :=
  { s with nextCall := s.nextCall + 1 }.putFlush s.nextCall s.accepted.length

/-- A call that waits for room gets its turn, `backend.py:189,216`. -/
def enter (s : FlushQueue) (k : Nat) : FlushQueue :=
  match s.calls k with
  | .regPutting events => s.putRegister k events
  | .flushPutting seen => s.putFlush k seen
  | _ => s

/-- The callback has returned, `backend.py:192-194`. -/
def called (s : FlushQueue) (k : Nat) : FlushQueue :=
  match s.calls k with
  | .regCalling _ => s.setCall k (.finished .done)
  | _ => s

/-- The task of a call is cancelled at l.189, 192, 216 or 217 of `backend.py`. -/
def cancel (s : FlushQueue) (k : Nat) : FlushQueue :=
  match s.calls k with
  | .absent => s
  | .finished _ => s
  | _ => s.setCall k (.finished .cancelled)

/-- The futures of items get a result or an exception, unless they are done, `backend.py:252-255,267-269`. -/
def resolve (s : FlushQueue) (items : List (Option Nat)) (result : QueueEnd) : FlushQueue :=
  { s with
    calls := fun k =>
      match s.calls k with
      | .flushWaiting seen => if some k ∈ items then .finished result else .flushWaiting seen
      | c => c }

/-- The end of the loop up to its last flush, `backend.py:260-271`. -/
def finalise (s : FlushQueue) (items : List (Option Nat)) : FlushQueue :=
  { s.resolve (items ++ s.queue) .closed with isOpen := false, queueOpen := false, queue := [], loop := .closing none }

/-- The loop starts, `backend.py:97,222-235`. -/
def start (s : FlushQueue) : FlushQueue :=
  match s.loop with
  | .spawned => { s with loop := .waiting }
  | _ => s

/-- An item is taken from the queue, `backend.py:234`. -/
def get (s : FlushQueue) : FlushQueue :=
  match s.loop, s.queue with
  | .waiting, item :: rest => { s with loop := .got item, queue := rest }
  | _, _ => s

/-- The loop goes on with an item or after the period and takes all items, `backend.py:234-249`. -/
def drain (s : FlushQueue) : FlushQueue :=
  match s.loop with
  | .waiting => { s with loop := .ready s.queue, queue := [] }
  | .got item => { s with loop := .ready (item :: s.queue), queue := [] }
  | _ => s

/-- The beginning of `_flush`, `backend.py:291-297`. -/
def begin (s : FlushQueue) : FlushQueue :=
  match s.loop with
  | .ready items => { s with loop := .flushing items s.registered, registered := [], count := 0 }
  | .closing none => { s with loop := .closing (some s.registered), registered := [], count := 0 }
  | _ => s

/-- `_flush` of the loop has returned, `backend.py:250-255`; if the backend was closed meanwhile, the loop is cancelled at l.250. -/
def flushedOk (s : FlushQueue) (items : List (Option Nat)) (lists : List (List Event)) : FlushQueue :=
  let s := { s with flushed := s.flushed ++ lists }
  if s.isOpen then { s.resolve items .done with loop := .waiting } else s.finalise items

/-- The end of `_flush`, `backend.py:225-229,250-271`.  If it raises, the loop ends. -/
def done (s : FlushQueue) (ok : Bool) : FlushQueue :=
  match s.loop with
  | .flushing items lists => if ok then s.flushedOk items lists else s.finalise items
  | .closing (some lists) =>
    { s with loop := .ended, envOpen := false, flushed := if ok then s.flushed ++ lists else s.flushed }
  | _ => s

/-- The loop of a closed backend is cancelled, `backend.py:241-246,260-271`; not in `_flush` (l.250,271). -/
def stop (s : FlushQueue) : FlushQueue :=
  if s.isOpen then s
  else
    match s.loop with
    | .spawned => { s with loop := .never }
    | .waiting => s.finalise []
    | .got item => s.finalise [item]
    | _ => s

/-- Effect of an action. -/
def step (s : FlushQueue) : QueueAct → FlushQueue
  | .register events => s.register events
  | .flush => s.flush
  | .enter k => s.enter k
  | .called k => s.called k
  | .cancel k => s.cancel k
  | .start => s.start
  | .get => s.get
  | .drain => s.drain
  | .begin => s.begin
  | .done ok => s.done ok
  | .close => { s with isOpen := false }
  | .stop => s.stop

/-- A history. -/
def run (s : FlushQueue) (acts : List QueueAct) : FlushQueue := acts.foldl step s

/-- A new backend, `backend.py:55-61,97`. -/
def init (capacity limit : Nat) : FlushQueue := { capacity := capacity, limit := limit }

end FlushQueue
end HatEvent
