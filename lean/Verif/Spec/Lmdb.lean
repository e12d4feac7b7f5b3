import Verif.Model.Lmdb
import Verif.Spec.Codec
import Verif.Spec.Subscription

/-!
# Specification vocabulary for the LMDB backend
-/

namespace HatEvent
namespace Spec

/-! ## Cleanup -/

/-- The entries of a partition, oldest first. -/
def entriesOf (t : Table TimeseriesKey Event) (p : Int) : Table TimeseriesKey Event :=
  t.filter fun x => x.1.partition = p

/-- `n` entries exceed the configured number of entries or the number of
entries that fit in the configured size. -/
def TooMany (sizeEntries : Rat → Option Int) (limit : Limit) (n : Nat) : Prop :=
  (∃ m, limit.maxEntries = some m ∧ m < (n : Rat)) ∨
    ∃ s c, limit.size = some s ∧ sizeEntries s = some c ∧ (c : Rat) < (n : Rat)

/-- The entry is older than the configured duration. -/
def Expired (fl : Rat → Rat) (now : Timestamp) (limit : Limit) (k : TimeseriesKey) : Prop :=
  ∃ d, limit.duration = some d ∧ TimeLt k.timestamp (now.add fl (-d))

/-- A permitted cleanup of a partition: only the oldest entries are removed
(`old`), at least `min_entries` entries are left if any are removed, and an
entry is removed only if there are too many entries left or it is expired. -/
structure Cleaned (fl : Rat → Rat) (sizeEntries : Rat → Option Int) (now : Timestamp) (limit : Limit)
    (entries old rest : Table TimeseriesKey Event) : Prop where
  split : entries = old ++ rest
  min : old ≠ [] → limit.minEntries.getD 0 < (rest.length : Rat) + 1
  reason : ∀ x q y, old = x ++ q :: y →
    TooMany sizeEntries limit (entries.length - x.length) ∨ Expired fl now limit q.1

/-- Nothing is left to be cleaned: nothing above `min_entries` is left, or the
rest is within all limits. -/
def Finished (fl : Rat → Rat) (sizeEntries : Rat → Option Int) (now : Timestamp) (limit : Limit)
    (rest : Table TimeseriesKey Event) : Prop :=
  (rest = [] ∨ (rest.length : Rat) ≤ limit.minEntries.getD 0) ∨
    (¬ TooMany sizeEntries limit rest.length ∧ ∀ x ∈ rest, ¬ Expired fl now limit x.1)

/-! ## What a backend stores

An abstract store: the sequence of events that were stored, for every event
type the event that is kept as its latest one, and the timeseries entries. -/

structure Store where
  log : List Event
  slot : EventType → Option Event
  entry : TimeseriesKey → Option Event

def Store.empty : Store := ⟨[], fun _ => none, fun _ => none⟩

/-- The event of a server that was stored last. -/
def Store.last (st : Store) (server : Int) : Option Event :=
  (st.log.filter fun e => e.id.server = server).getLast?

/-- Its identifier, or the identifier "before the first event". -/
def Store.lastId (st : Store) (server : Int) : EventId :=
  match st.last server with
  | some e => e.id
  | none => ⟨server, 0, 0⟩

/-- The event may be stored: its identifier is after and its timestamp is not
before those of the last event of its server, and the conditions hold. -/
def Admissible (conf : Conf) (st : Store) (e : Event) : Prop :=
  IdLt (st.lastId e.id.server) e.id ∧
    TimeLe (match st.last e.id.server with
      | some l => l.timestamp
      | none => minTimestamp) e.timestamp ∧
    conf.conditions e = true

/-- The event is shown by latest queries (if it is the latest of its type). -/
def Visible (conf : Conf) (e : Event) : Prop :=
  conf.conditions e = true ∧ conf.latestSub.matches e.type = true

/-- The event becomes the latest one of its type. -/
def ToLatest (conf : Conf) (st : Store) (e : Event) : Prop :=
  conf.latestSub.matches e.type = true ∧
    ∀ p, st.slot e.type = some p → Visible conf p → ¬ Newer p e

/-- `k` is an entry the event gets in a timeseries partition. -/
def InSeries (partitions : Dict Int Partition) (e : Event) (k : TimeseriesKey) : Prop :=
  k.id = e.id ∧ ∃ part, Dict.get partitions k.partition = some part ∧
    part.subscription.matches e.type = true ∧
    ((part.orderBy = .timestamp ∧ k.timestamp = e.timestamp) ∨
      (part.orderBy = .sourceTimestamp ∧ e.sourceTimestamp = some k.timestamp))

open Classical in
/-- Registering one event: stored if it is admissible and has a place. -/
noncomputable def Store.offer (conf : Conf) (partitions : Dict Int Partition) (st : Store)
    (e : Event) : Store :=
  if Admissible conf st e ∧ (ToLatest conf st e ∨ ∃ k, InSeries partitions e k) then
    { log := st.log ++ [e]
      slot := fun t => if t = e.type ∧ ToLatest conf st e then some e else st.slot t
      entry := fun k => if InSeries partitions e k then some e else st.entry k }
  else st

open Classical in
/-- Removal of timeseries entries. -/
noncomputable def Store.drop (st : Store) (removed : TimeseriesKey → Prop) : Store :=
  { st with entry := fun k => if removed k then none else st.entry k }

/-- The backend as seen from outside.  `cur` is what the open backend holds,
`flushed` what survives the end of the process. -/
structure World where
  conf : Conf
  partitions : Dict Int Partition
  cur : Store
  flushed : Store
  isOpen : Bool

def World.new (conf : Conf) : World := ⟨conf, [], .empty, .empty, false⟩

/-- The configured partitions and their identities. -/
def Configured (conf : Conf) (parts : Dict Int Partition) : Prop :=
  (Dict.keys parts).Nodup ∧
  (∀ i p, Dict.get parts i = some p → p ∈ conf.partitions) ∧
  (∀ p ∈ conf.partitions, ∃ i q, Dict.get parts i = some q ∧ q.orderBy = p.orderBy ∧
    q.subscription.getQueryTypes.Perm p.subscription.getQueryTypes)

/-- One action.  A flush makes everything permanent or fails and ends the
backend, a cleanup removes entries that are permanent and belong to a partition
with a limit, a new backend starts with what was permanent. -/
inductive Step : World → BackendOp → World → Prop
  | closed {w op} : w.isOpen = false → (∀ c, op ≠ .reopen c) → Step w op w
  | register {w events} : w.isOpen = true →
      Step w (.register events)
        { w with cur := events.foldl (Store.offer w.conf w.partitions) w.cur }
  | touch {w p} : w.isOpen = true → Step w (.touch p) w
  | flush {w} : w.isOpen = true → Step w .flush { w with flushed := w.cur }
  | flushFail {w} : w.isOpen = true → Step w .flush { w with cur := w.flushed, isOpen := false }
  | cleanup {w fl sizeEntries now} (removed : TimeseriesKey → Prop) : w.isOpen = true →
      (∀ k, removed k → (∃ e, w.flushed.entry k = some e) ∧
        ∃ part limit, Dict.get w.partitions k.partition = some part ∧ part.limit = some limit) →
      Step w (.cleanup fl sizeEntries now)
        { w with cur := w.cur.drop removed, flushed := w.flushed.drop removed }
  | cleanupFail {w fl sizeEntries now} : w.isOpen = true →
      Step w (.cleanup fl sizeEntries now) { w with cur := w.flushed, isOpen := false }
  | reopen {w conf parts} : Configured conf parts →
      Step w (.reopen conf) ⟨conf, parts, w.flushed, w.flushed, true⟩
  | reopenFail {w conf} :
      Step w (.reopen conf) { w with conf := conf, cur := w.flushed, isOpen := false }

/-- A history of actions of a backend on a new file.  Whether the backend is
open after an action (a flush, cleanup or opening succeeded) is as it is for the
modelled backend. -/
inductive Run (conf : Conf) : List BackendOp → World → Prop
  | nil : Run conf [] (.new conf)
  | snoc {ops w op w'} : Run conf ops w → Step w op w' →
      w'.isOpen = ((Backend.new conf).run (ops ++ [op])).mem.isSome → Run conf (ops ++ [op]) w'

/-- The event type collection of the configuration finds exactly the partitions
whose subscription matches, each once (`C09`). -/
def LookupLaw (conf : Conf) : Prop :=
  ∀ (d : Dict Int Partition) (t : EventType), (Dict.keys d).Nodup → (∀ x ∈ d, x.2 ∈ conf.partitions) →
    (conf.lookup d t).Nodup ∧
      ∀ x, x ∈ conf.lookup d t ↔ x ∈ d ∧ x.2.subscription.matches t = true

/-- All configurations used in a history satisfy the law. -/
def LookupLaws (ops : List BackendOp) : Prop := ∀ c, .reopen c ∈ ops → LookupLaw c

/-- Later configurations have any partitions and any latest subscription, but
their conditions do not reject a latest event of an earlier one (of a type whose
latest event is kept). -/
def KeepsAccepted (ops : List BackendOp) : Prop :=
  (ops.filterMap fun op => match op with | .reopen c => some c | _ => none).Pairwise
    fun c c' => ∀ e, Visible c e → c'.latestSub.matches e.type = true → c'.conditions e = true

/-- All configurations show the same events. -/
def SameShown (ops : List BackendOp) : Prop :=
  ∀ c c', .reopen c ∈ ops → .reopen c' ∈ ops → ∀ e, Visible c e ↔ Visible c' e

/-! ## Server queries -/

/-- The event is kept as the latest of its type or in a timeseries partition. -/
def Store.Held (st : Store) (e : Event) : Prop :=
  st.slot e.type = some e ∨ ∃ k, st.entry k = some e

/-- The events satisfying `held` of a server after an identifier, sorted. -/
structure ServerList (held : Event → Prop) (server : Int) (after : Option EventId)
    (full : List Event) : Prop where
  sorted : full.Pairwise fun a b => IdLt a.id b.id
  mem : ∀ e, e ∈ full ↔ held e ∧ e.id.server = server ∧ ∀ l, after = some l → IdLt l e.id

/-- What a query returns if `full` are all matching events. -/
def page (full : List Event) (max : Nat) : QueryResult := ⟨full.take max, decide (max < full.length)⟩

/-- Repeating a query with the identifier of the last received event until
nothing follows: `all` is everything received. -/
inductive Pages (query : Option EventId → Except PyErr QueryResult) : Option EventId → List Event → Prop
  | last {i events} : query i = .ok ⟨events, false⟩ → Pages query i events
  | more {i events x rest} : query i = .ok ⟨events, true⟩ → events.getLast? = some x →
      Pages query (some x.id) rest → Pages query i (events ++ rest)

/-! ## Timeseries queries -/

/-- The event satisfies everything a timeseries query asks for. -/
structure TsMatches (params : QueryTimeseriesParams) (e : Event) : Prop where
  tFrom : ∀ t, params.tFrom = some t → TimeLe t e.timestamp
  tTo : ∀ t, params.tTo = some t → TimeLe e.timestamp t
  sourceTFrom : ∀ t, params.sourceTFrom = some t → ∃ s, e.sourceTimestamp = some s ∧ TimeLe t s
  sourceTTo : ∀ t, params.sourceTTo = some t → ∃ s, e.sourceTimestamp = some s ∧ TimeLe s t
  types : ∀ types, params.eventTypes = some types → MatchesAny types e.type

/-- The partition is ordered as the query asks and gets events of some type the
query asks for. -/
def Related (params : QueryTimeseriesParams) (part : Partition) : Prop :=
  part.orderBy = params.orderBy ∧ ∀ types, params.eventTypes = some types →
    ∃ t, MatchesAny types t ∧ part.subscription.matches t = true

/-- Event `a` may be returned before event `b`. -/
def OrderOk (params : QueryTimeseriesParams) (a b : Event) : Prop :=
  ∃ s t, orderTimestamp params.orderBy a = some s ∧ orderTimestamp params.orderBy b = some t ∧
    (match params.order with
     | .ascending => TimeLe s t
     | .descending => TimeLe t s)

/-- All matching events of a partition, each once, in the requested order. -/
structure SeriesList (conf : Conf) (st : Store) (partition : Int) (params : QueryTimeseriesParams)
    (full : List Event) : Prop where
  sorted : full.Pairwise (OrderOk params)
  unique : full.Pairwise fun a b => a.id ≠ b.id
  mem : ∀ e, e ∈ full ↔ (∃ k, k.partition = partition ∧ st.entry k = some e) ∧
    conf.conditions e = true ∧ TsMatches params e

/-- Events that are not flushed are not older than the events before them. -/
def PendingInOrder (fl cur : Store) (o : OrderBy) : Prop :=
  ∀ pre p post, cur.log = pre ++ p :: post → fl.log.length ≤ pre.length →
    ∀ a ∈ pre, ∀ s t, orderTimestamp o a = some s → orderTimestamp o p = some t → TimeLe s t

/-- The largest identifier. -/
def maxId : EventId := ⟨2 ^ 64 - 1, 2 ^ 64 - 1, 2 ^ 64 - 1⟩

/-- The event's timestamps are valid and its identifier is not the largest one. -/
def Ordinary (e : Event) : Prop :=
  TimeLe e.timestamp maxTimestamp ∧ (∀ s, e.sourceTimestamp = some s → TimeLe s maxTimestamp) ∧
    e.id ≠ maxId

end Spec
end HatEvent
