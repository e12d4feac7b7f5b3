import Verif.Model.Table
import Verif.Model.Time
import Verif.Model.Collection
import Mathlib.Data.List.Sort

/-!
# LMDB backend

Models `backends/lmdb/{systemdb,latestdb,timeseriesdb,refdb,backend}.py`.

Simplifications: event payload bytes, LMDB map size, the asynchronous structure
(`Model/LmdbAsync.lean` adds it) and the size of the event type cache are not
modelled.  A Python `set` is a list without repetitions.
-/

namespace HatEvent

/-! ## Configuration and disk -/

/-- `Limit`, `timeseriesdb.py:19-23`.  JSON numbers are rationals. -/
structure Limit where
  minEntries : Option Rat := none
  maxEntries : Option Rat := none
  duration : Option Rat := none
  size : Option Rat := none

/-- `Partition`, `timeseriesdb.py:26-29`. -/
structure Partition where
  orderBy : OrderBy
  subscription : Sub
  limit : Option Limit

/-- Stored description of a partition, `timeseriesdb.py:214-215`. -/
structure PartitionData where
  order : OrderBy
  subscriptions : List EventType
  deriving DecidableEq, Repr

/-- Stored as JSON (`backends/lmdb/common.py:133-137`); the bytes are not modelled. -/
instance : Encodable PartitionData := ⟨fun _ => .ok []⟩

/-- `SettingsId`, `backends/lmdb/common.py:74-76`. -/
inductive SettingsId where
  | version | identifier
  deriving DecidableEq, Repr

/-- The databases of one environment, `backends/lmdb/common.py:30-39`. -/
structure Disk where
  settings : Dict SettingsId String
  lastEventId : Table Int EventId
  lastTimestamp : Table Int Timestamp
  ref : Table EventId (List EventRef)
  latestData : Table Int Event
  latestType : Table Int EventType
  tsData : Table TimeseriesKey Event
  tsPartition : Table Int PartitionData
  tsCount : Table Int Int

/-- A new environment. -/
def Disk.empty : Disk := ⟨[], [], [], [], [], [], [], [], []⟩

/-- Configuration, `backend.py:50-95`, with the parts of the environment whose
behaviour is a choice of the interpreter:
`lookup` is the event type collection of `timeseriesdb.py:49-55` (see `lookupPartitions`),
`pick` the choice of `util.first` from a set (an index),
`useC` says if the C subscriptions are available. -/
structure Conf where
  identifier : Option String
  conditions : Event → Bool
  latestSub : Sub
  partitions : List Partition
  maxResults : Int := 4096
  lookup : Dict Int Partition → EventType → List (Int × Partition)
  pick : List EventRef → Nat
  useC : Bool

/-- `create_subscription`, `common/subscription/__init__.py:18-22`. -/
def createSubscription (useC : Bool) (queryTypes : List EventType) : Except PyErr Sub :=
  if useC then Sub.createC queryTypes else Sub.createPy queryTypes

/-- The three event type collections, `common/collection/__init__.py:22-27`. -/
inductive CollImpl where
  | list | pytree | ctree

/-- `get` of a collection created from a list of subscriptions and values,
`pylist.py:8-22`, `pytree.py:9-39`, `ctree.py:10-28`. -/
def CollImpl.get {V : Type} [DecidableEq V] (i : CollImpl) (items : List (Sub × V)) (t : EventType) :
    Except PyErr (List V) :=
  let ops := items.map fun x => CollOp.add x.1 x.2
  match i with
  | .list => (PyList.run ops).map (·.get t)
  | .pytree => (PyTree.run ops).map (·.get t)
  | .ctree => (CTree.run ops).map (·.get t)

/-- The partitions of an event type, `timeseriesdb.py:49-55`.  The values of the
collection are pairs of a partition id and the partition; as the ids are keys of
a `dict`, the model uses the ids only.  The cache (l.53-55) is not modelled. -/
def lookupPartitions (i : CollImpl) (d : Dict Int Partition) (t : EventType) : List (Int × Partition) :=
  match i.get (d.map fun x => (x.2.subscription, x.1)) t with
  | .ok ids => ids.filterMap fun id => (Dict.get d id).map fun p => (id, p)
  | .error _ => []

/-! ## System database -/

/-- `Changes`, `systemdb.py:9-11`. -/
structure SystemChanges where
  lastEventIds : Dict Int EventId
  lastTimestamps : Dict Int Timestamp

/-- `SystemDb`, `systemdb.py:34`. -/
structure SystemDb where
  lastEventIds : Dict Int EventId
  lastTimestamps : Dict Int Timestamp
  changes : SystemChanges

/-- `version`, `backend.py:33`. -/
def backendVersion : String := "0.9"

/-- The version check of `_ext_validate_settings`, `systemdb.py:81-88`. -/
def validateVersion (settings : Dict SettingsId String) (version : String) :
    Except PyErr (Dict SettingsId String) :=
  match Dict.get settings .version with
  | none => .ok (Dict.set settings .version version)
  | some v =>
    if v = version then .ok (Dict.del settings .version)
    else .error (.exception "invalid version")

/-- The identifier check of `_ext_validate_settings`, `systemdb.py:90-100`. -/
def validateIdentifier (settings : Dict SettingsId String) (identifier : Option String) :
    Except PyErr (Dict SettingsId String) :=
  match identifier with
  | none => .ok (Dict.del settings .identifier)
  | some identifier =>
    match Dict.get settings .identifier with
    | none => .ok (Dict.set settings .identifier identifier)
    | some i =>
      if i = identifier then .ok (Dict.del settings .identifier)
      else .error (.exception "invalid identifier")

/-- `_ext_validate_settings`, `systemdb.py:78-102`. -/
def validateSettings (stored : Dict SettingsId String) (version : String)
    (identifier : Option String) : Except PyErr (Dict SettingsId String) := do
  let settings ← validateVersion stored version
  let settings ← validateIdentifier settings identifier
  return settings.foldl (fun d p => Dict.set d p.1 p.2) stored

/-- `systemdb.ext_create`, `systemdb.py:25-31` (after validation). -/
def SystemDb.create (disk : Disk) : SystemDb :=
  ⟨disk.lastEventId, disk.lastTimestamp, ⟨[], []⟩⟩

/-- `SystemDb.get_last_event_id`, `systemdb.py:36-44`. -/
def SystemDb.getLastEventId (db : SystemDb) (serverId : Int) : EventId :=
  match Dict.get db.lastEventIds serverId with
  | some i => i
  | none => ⟨serverId, 0, 0⟩

/-- `SystemDb.set_last_event_id`, `systemdb.py:46-48`. -/
def SystemDb.setLastEventId (db : SystemDb) (i : EventId) : SystemDb :=
  { db with
    changes := { db.changes with lastEventIds := Dict.set db.changes.lastEventIds i.server i }
    lastEventIds := Dict.set db.lastEventIds i.server i }

/-- `SystemDb.get_last_timestamp`, `systemdb.py:50-56`. -/
def SystemDb.getLastTimestamp (db : SystemDb) (serverId : Int) : Timestamp :=
  match Dict.get db.lastTimestamps serverId with
  | some t => t
  | none => minTimestamp

/-- `SystemDb.set_last_timestamp`, `systemdb.py:58-62`. -/
def SystemDb.setLastTimestamp (db : SystemDb) (serverId : Int) (t : Timestamp) : SystemDb :=
  { db with
    changes := { db.changes with lastTimestamps := Dict.set db.changes.lastTimestamps serverId t }
    lastTimestamps := Dict.set db.lastTimestamps serverId t }

/-- `SystemDb.ext_write`, `systemdb.py:68-75`. -/
def systemWrite (changes : SystemChanges) (disk : Disk) : Except PyErr Disk := do
  let ids ← Table.write disk.lastEventId changes.lastEventIds
  let timestamps ← Table.write disk.lastTimestamp changes.lastTimestamps
  return { disk with lastEventId := ids, lastTimestamp := timestamps }

/-! ## Latest database -/

/-- `Changes`, `latestdb.py:11-13`. -/
structure LatestChanges where
  data : Dict Int Event
  types : Dict Int EventType

/-- `LatestDb`, `latestdb.py:48`. -/
structure LatestDb where
  eventTypeRefs : Dict EventType Int
  events : Dict EventType Event
  nextRef : Int
  changes : LatestChanges

/-- `latestdb.ext_create`, `latestdb.py:21-45`. -/
def LatestDb.create (conf : Conf) (disk : Disk) : LatestDb :=
  let eventTypeRefs := disk.latestType.foldl (fun d p => Dict.set d p.2 p.1) []
  let events := (disk.latestData.filter fun p =>
      conf.conditions p.2 && conf.latestSub.matches p.2.type &&
      Dict.get eventTypeRefs p.2.type == some p.1).foldl
    (fun d p => Dict.set d p.2.type p.2) []
  ⟨eventTypeRefs, events, (eventTypeRefs.map Prod.snd).foldl max 0 + 1, ⟨[], []⟩⟩

/-- `AddResult`, `latestdb.py:16-18`. -/
structure AddResult where
  addedRef : Option EventRef
  removedRef : Option (EventId × EventRef)

/-- The reference of an event type, allocated on first use, `latestdb.py:62-66`. -/
def LatestDb.typeRef (db : LatestDb) (type : EventType) : Int × LatestDb :=
  match Dict.get db.eventTypeRefs type with
  | some ref => (ref, db)
  | none =>
    (db.nextRef,
     { db with
       nextRef := db.nextRef + 1
       changes := { db.changes with types := Dict.set db.changes.types db.nextRef type }
       eventTypeRefs := Dict.set db.eventTypeRefs type db.nextRef })

/-- `previous and previous > event`, `latestdb.py:58-60`. -/
def previousNewer (previous : Option Event) (event : Event) : Bool :=
  match previous with
  | some p => p.gt event
  | none => false

/-- `LatestDb.add`, `latestdb.py:50-75`. -/
def LatestDb.add (conf : Conf) (db : LatestDb) (event : Event) : LatestDb × AddResult :=
  if conf.latestSub.matches event.type = false then (db, ⟨none, none⟩)
  else
    let previous := Dict.get db.events event.type
    if previousNewer previous event = true then (db, ⟨none, none⟩)
    else
      let r := db.typeRef event.type
      ({ r.2 with
         changes := { r.2.changes with data := Dict.set r.2.changes.data r.1 event }
         events := Dict.set r.2.events event.type event },
       ⟨some (.latest r.1), previous.map fun p => (p.id, .latest r.1)⟩)

/-- The events selected by `LatestDb.query` for a set of event types,
`latestdb.py:84-100`. -/
def latestSelect (conf : Conf) (db : LatestDb) (eventTypes : List EventType) :
    Except PyErr (List Event) :=
  if ["*"] ∈ eventTypes then .ok (db.events.map Prod.snd)
  else if eventTypes.any fun t => "*" ∈ t ∨ "?" ∈ t then
    (createSubscription conf.useC eventTypes).map fun subscription =>
      (db.events.map Prod.snd).filter fun e => subscription.matches e.type
  else if eventTypes.length < db.events.length then
    .ok (eventTypes.filterMap fun t => Dict.get db.events t)
  else
    .ok ((db.events.map Prod.snd).filter fun e => e.type ∈ eventTypes)

/-- `LatestDb.query`, `latestdb.py:77-103`. -/
def LatestDb.query (conf : Conf) (db : LatestDb) (eventTypes : Option (List EventType)) :
    Except PyErr QueryResult :=
  match eventTypes with
  | none => .ok ⟨db.events.map Prod.snd, false⟩
  | some eventTypes => (latestSelect conf db (toSet eventTypes)).map fun events => ⟨events, false⟩

/-- `LatestDb.ext_write`, `latestdb.py:109-116`. -/
def latestWrite (changes : LatestChanges) (disk : Disk) : Except PyErr Disk := do
  let data ← Table.write disk.latestData changes.data
  let types ← Table.write disk.latestType changes.types
  return { disk with latestData := data, latestType := types }

/-! ## Timeseries database -/

/-- `Changes`, `timeseriesdb.py:14-16`. -/
abbrev TimeseriesChanges := Dict Int (List (Timestamp × Event))

/-- `TimeseriesDb`, `timeseriesdb.py:60`. -/
structure TimeseriesDb where
  partitions : Dict Int Partition
  changes : TimeseriesChanges

/-- Comparison of event types, as used by `sorted`, `timeseriesdb.py:213`. -/
def typeLe : EventType → EventType → Bool
  | [], _ => true
  | _ :: _, [] => false
  | a :: l, b :: m => if a = b then typeLe l m else decide (a < b)

/-- The description stored for a partition, `timeseriesdb.py:213-218`. -/
def partitionData (partition : Partition) : PartitionData :=
  ⟨partition.orderBy, partition.subscription.getQueryTypes.insertionSort fun a b => typeLe a b = true⟩

/-- State of the loop of `_ext_init_partitions`, `timeseriesdb.py:199-226`. -/
structure InitPartitions where
  cache : Dict PartitionData Int
  next : Int
  table : Table Int PartitionData
  result : Dict Int Partition

/-- One round of the loop, `timeseriesdb.py:212-226`; the result is stored in a
`dict` (`timeseriesdb.py:47`). -/
def initPartition (s : InitPartitions) (partition : Partition) : Except PyErr InitPartitions := do
  let data := partitionData partition
  match Dict.get s.cache data with
  | some partitionId => return { s with result := Dict.set s.result partitionId partition }
  | none =>
    let table ← Table.write s.table [(s.next, data)]
    return { cache := Dict.set s.cache data s.next
             next := s.next + 1
             table := table
             result := Dict.set s.result s.next partition }

/-- `_ext_init_partitions`, `timeseriesdb.py:192-226`. -/
def initPartitions (table : Table Int PartitionData) (partitions : List Partition) :
    Except PyErr InitPartitions :=
  partitions.foldlM initPartition
    { cache := table.foldl (fun c p => Dict.set c p.2 p.1) []
      next := (table.map Prod.fst).foldl max 0 + 1
      table := table
      result := [] }

/-- The timestamp used by a partition, `timeseriesdb.py:68-75`. -/
def orderTimestamp (orderBy : OrderBy) (event : Event) : Option Timestamp :=
  match orderBy with
  | .timestamp => some event.timestamp
  | .sourceTimestamp => event.sourceTimestamp

/-- The loop of `TimeseriesDb.add`, `timeseriesdb.py:67-83`. -/
def timeseriesAdd (event : Event) : List (Int × Partition) → TimeseriesChanges →
    TimeseriesChanges × List EventRef
  | [], changes => (changes, [])
  | (partitionId, partition) :: r, changes =>
    match orderTimestamp partition.orderBy event with
    | none => timeseriesAdd event r changes
    | some timestamp =>
      let res := timeseriesAdd event r (Dict.set changes partitionId
        (((Dict.get changes partitionId).getD []) ++ [(timestamp, event)]))
      (res.1, .timeseries ⟨partitionId, timestamp, event.id⟩ :: res.2)

/-- `TimeseriesDb.add`, `timeseriesdb.py:62-83`. -/
def TimeseriesDb.add (conf : Conf) (db : TimeseriesDb) (event : Event) :
    TimeseriesDb × List EventRef :=
  let res := timeseriesAdd event (conf.lookup db.partitions event.type) db.changes
  ({ db with changes := res.1 }, res.2)

/-- `_ext_inc_partition_count`, `timeseriesdb.py:308-320`. -/
def incCounts : Table Int Int → List (Int × Int) → Except PyErr (Table Int Int)
  | t, [] => .ok t
  | t, (partitionId, count) :: r => do
    let t ← Table.write t [(partitionId, ((Dict.get t partitionId).getD 0) + count)]
    incCounts t r

/-- The entries written by `TimeseriesDb.ext_write`, `timeseriesdb.py:118-120`. -/
def timeseriesEntries (changes : TimeseriesChanges) : List (TimeseriesKey × Event) :=
  changes.flatMap fun p => p.2.map fun q => (⟨p.1, q.1, q.2.id⟩, q.2)

/-- `TimeseriesDb.ext_write`, `timeseriesdb.py:115-125`. -/
def timeseriesWrite (changes : TimeseriesChanges) (disk : Disk) : Except PyErr Disk := do
  let data ← Table.write disk.tsData (timeseriesEntries changes)
  let counts ← incCounts disk.tsCount
    (changes.map fun p => (p.1, (p.2.length : Int)))
  return { disk with tsData := data, tsCount := counts }

/-- State of `_Filter`, `timeseriesdb.py:457-473`. -/
structure Filter where
  subscription : Option Sub
  tFrom : Option Timestamp
  tTo : Option Timestamp
  sourceTFrom : Option Timestamp
  sourceTTo : Option Timestamp
  maxResults : Int
  lastEventId : Option EventId

/-- `bound is not None and (t is None or t < bound)`, `timeseriesdb.py:490-491,496-499`. -/
def tooEarly (bound t : Option Timestamp) : Bool :=
  match bound with
  | some b =>
    match t with
    | some t => t.lt b
    | none => true
  | none => false

/-- `bound is not None and (t is None or bound < t)`, `timeseriesdb.py:493-494,501-504`. -/
def tooLate (bound t : Option Timestamp) : Bool :=
  match bound with
  | some b =>
    match t with
    | some t => b.lt t
    | none => true
  | none => false

/-- `subscription and not subscription.matches(type)`, `timeseriesdb.py:506-508`. -/
def wrongType (subscription : Option Sub) (type : EventType) : Bool :=
  match subscription with
  | some s => !s.matches type
  | none => false

/-- The tests of `_Filter.process` on one event, `timeseriesdb.py:490-508`. -/
def Filter.accepts (f : Filter) (event : Event) : Bool :=
  if tooEarly f.tFrom (some event.timestamp) then false
  else if tooLate f.tTo (some event.timestamp) then false
  else if tooEarly f.sourceTFrom event.sourceTimestamp then false
  else if tooLate f.sourceTTo event.sourceTimestamp then false
  else if wrongType f.subscription event.type then false
  else true

/-- `_Filter.process`, `timeseriesdb.py:479-511`: the events that pass and the
filter afterwards. -/
def Filter.process : Filter → List Event → List Event × Filter
  | f, [] => ([], f)
  | f, event :: r =>
    if f.maxResults < 1 then ([], f)
    else match f.lastEventId with
      | some i =>
        if event.id = i then Filter.process { f with lastEventId := none } r
        else Filter.process f r
      | none =>
        if f.accepts event then
          let (l, f') := Filter.process { f with maxResults := f.maxResults - 1 } r
          (event :: l, f')
        else Filter.process f r

/-- The entries in descending order from the one before the position of
`set_range` on, or from the last one, `timeseriesdb.py:271-274`. -/
def entriesBefore (data : Table TimeseriesKey Event) (key : TimeseriesKey) : Table TimeseriesKey Event :=
  match Table.fromKey data key with
  | _ :: _ => Table.beforeKey data key
  | [] => data.reverse

/-- `_ext_query_partition_events_range`, `timeseriesdb.py:248-291`. -/
def partitionRange (data : Table TimeseriesKey Event) (partitionId : Int)
    (tFrom tTo : Option Timestamp) (order : Order) : Except PyErr (List Event) := do
  let fromKey : TimeseriesKey := ⟨partitionId, tFrom.getD minTimestamp, ⟨0, 0, 0⟩⟩
  let _ ← encodeTimeseriesKey fromKey
  let toKey : TimeseriesKey :=
    ⟨partitionId, tTo.getD maxTimestamp, ⟨2 ^ 64 - 1, 2 ^ 64 - 1, 2 ^ 64 - 1⟩⟩
  let _ ← encodeTimeseriesKey toKey
  match order with
  | .descending =>
    return ((entriesBefore data toKey).takeWhile fun p => !DbKey.lt p.1 fromKey).map Prod.snd
  | .ascending =>
    return ((Table.fromKey data fromKey).takeWhile fun p => !DbKey.lt toKey p.1).map Prod.snd

/-- The range of the timestamps by which the partition is ordered,
`timeseriesdb.py:231-238,400-447`. -/
def QueryTimeseriesParams.range (params : QueryTimeseriesParams) : Option Timestamp × Option Timestamp :=
  match params.orderBy with
  | .timestamp => (params.tFrom, params.tTo)
  | .sourceTimestamp => (params.sourceTFrom, params.sourceTTo)

/-- `_ext_query_partition_events`, `timeseriesdb.py:229-245`. -/
def partitionEvents (conf : Conf) (disk : Disk) (partitionId : Int) (params : QueryTimeseriesParams)
    (filter : Filter) : Except PyErr (List Event × Filter) := do
  let events ← partitionRange disk.tsData partitionId params.range.1 params.range.2 params.order
  return filter.process (events.filter fun e => conf.conditions e)

/-- The pending events looked at, `timeseriesdb.py:396-452`.  A missing source
timestamp does not count (see `partitionChanges`). -/
def pendingRange (events : List Event) (params : QueryTimeseriesParams) : List Event :=
  match params.order with
  | .descending =>
    ((events.reverse.dropWhile fun e => tooLate params.range.2 (orderTimestamp params.orderBy e)).takeWhile
      fun e => !tooEarly params.range.1 (orderTimestamp params.orderBy e))
  | .ascending =>
    ((events.dropWhile fun e => tooEarly params.range.1 (orderTimestamp params.orderBy e)).takeWhile
      fun e => !tooLate params.range.2 (orderTimestamp params.orderBy e))

/-- `_query_partition_changes`, `timeseriesdb.py:396-454`.  Comparing a missing
source timestamp raises `TypeError`; the code does so only when it reaches the
event, the model at once (pending entries of a source ordered partition always
have one, `timeseriesdb.py:72-73`). -/
def partitionChanges (entries : List (Timestamp × Event)) (params : QueryTimeseriesParams)
    (filter : Filter) : Except PyErr (List Event × Filter) :=
  let events := entries.map Prod.snd
  if (params.range.1.isSome || params.range.2.isSome) &&
      events.any fun e => (orderTimestamp params.orderBy e).isNone then .error .typeError
  else .ok (filter.process (pendingRange events params))

/-- Cutting off the result, `timeseriesdb.py:184-189`: `events.pop()` until the length fits. -/
def cutSeries (events : List Event) (maxResults : Int) : Except PyErr QueryResult :=
  if maxResults < 0 then .error .indexError
  else .ok ⟨events.take maxResults.toNat, decide ((events.length : Int) > maxResults)⟩

/-- `TimeseriesDb._query_partition`, `timeseriesdb.py:150-189`. -/
def queryPartition (conf : Conf) (disk : Disk) (db : TimeseriesDb) (partitionId : Int)
    (params : QueryTimeseriesParams) (subscription : Option Sub) (maxResults : Int) :
    Except PyErr QueryResult := do
  let filter : Filter := ⟨subscription, params.tFrom, params.tTo, params.sourceTFrom,
    params.sourceTTo, maxResults + 1, params.lastEventId⟩
  let changes := (Dict.get db.changes partitionId).getD []
  match params.order with
  | .descending => do
    let r ← partitionChanges changes params filter
    if r.2.maxResults < 1 then cutSeries r.1 maxResults
    else do
      let r' ← partitionEvents conf disk partitionId params r.2
      cutSeries (r.1 ++ r'.1) maxResults
  | .ascending => do
    let r ← partitionEvents conf disk partitionId params filter
    if r.2.maxResults < 1 then cutSeries r.1 maxResults
    else do
      let r' ← partitionChanges changes params r.2
      cutSeries (r.1 ++ r'.1) maxResults

/-- `subscription and subscription.isdisjoint(partition.subscription)`, `timeseriesdb.py:100-102`. -/
def unrelated (subscription : Option Sub) (partition : Partition) : Except PyErr Bool :=
  match subscription with
  | some s => s.isdisjoint partition.subscription
  | none => .ok false

/-- The loop of `TimeseriesDb.query`, `timeseriesdb.py:96-108`. -/
def queryPartitions (conf : Conf) (disk : Disk) (db : TimeseriesDb) (params : QueryTimeseriesParams)
    (subscription : Option Sub) (maxResults : Int) :
    List (Int × Partition) → Except PyErr QueryResult
  | [] => .ok ⟨[], false⟩
  | (partitionId, partition) :: r => do
    if partition.orderBy ≠ params.orderBy then
      queryPartitions conf disk db params subscription maxResults r
    else do
      let disjoint ← unrelated subscription partition
      if disjoint then queryPartitions conf disk db params subscription maxResults r
      else queryPartition conf disk db partitionId params subscription maxResults

/-- `max_results` of a query, `timeseriesdb.py:91-94`, `refdb.py:71-74`. -/
def limitResults (requested : Option Int) (maximum : Int) : Int :=
  match requested with
  | some n => if n < maximum then n else maximum
  | none => maximum

/-- The subscription of a query, `timeseriesdb.py:88-89`. -/
def querySubscription (conf : Conf) (eventTypes : Option (List EventType)) :
    Except PyErr (Option Sub) :=
  match eventTypes with
  | some types => (createSubscription conf.useC types).map some
  | none => .ok none

/-- `TimeseriesDb.query`, `timeseriesdb.py:85-108`. -/
def TimeseriesDb.query (conf : Conf) (disk : Disk) (db : TimeseriesDb) (params : QueryTimeseriesParams) :
    Except PyErr QueryResult := do
  let subscription ← querySubscription conf params.eventTypes
  queryPartitions conf disk db params subscription (limitResults params.maxResults conf.maxResults)
    db.partitions

/-- `max_results is not None and result_count >= max_results`, `timeseriesdb.py:367`. -/
def resultsReached (maxResults : Option Int) (resultCount : Int) : Bool :=
  match maxResults with
  | some n => decide (resultCount ≥ n)
  | none => false

/-- `max_entries is None or count <= max_entries`, `timeseriesdb.py:377-378`. -/
def withinMaxEntries (maxEntries : Option Rat) (count : Rat) : Bool :=
  match maxEntries with
  | some n => decide (count ≤ n)
  | none => true

/-- `encoded_duration_key is None or encoded_key >= encoded_duration_key`,
`timeseriesdb.py:379-380`. -/
def withinDuration (durationKey : Option TimeseriesKey) (key : TimeseriesKey) : Bool :=
  match durationKey with
  | some k => !DbKey.lt key k
  | none => true

/-- The loop of `_ext_cleanup_partition`, `timeseriesdb.py:361-389`: the keys
removed, given the entries from the cursor on. -/
def cleanupLoop (maxResults : Option Int) (minEntries : Rat) (maxEntries : Option Rat)
    (durationKey : Option TimeseriesKey) (stopKey : TimeseriesKey) (entriesCount : Int) :
    Int → Table TimeseriesKey Event → List TimeseriesKey
  | _, [] => []
  | resultCount, (key, _) :: r =>
    if resultsReached maxResults resultCount then []
    else if ((entriesCount - resultCount : Int) : Rat) ≤ minEntries then []
    else if !DbKey.lt key stopKey then []
    else if withinMaxEntries maxEntries ((entriesCount - resultCount : Int) : Rat) &&
        withinDuration durationKey key then []
    else key :: cleanupLoop maxResults minEntries maxEntries durationKey stopKey entriesCount
      (resultCount + 1) r

/-- `max_entries` of `_ext_cleanup_partition`, `timeseriesdb.py:341-353`.
`sizeEntries` is the number of entries computed from the size limit and the
LMDB statistics (l.341-349), if there are any. -/
def limitMaxEntries (sizeEntries : Rat → Option Int) (limit : Limit) : Option Rat :=
  match limit.size.bind sizeEntries, limit.maxEntries with
  | none, m => m
  | some (n : Int), none => some (n : Rat)
  | some n, some m => some (min (n : Rat) m)

/-- `encoded_duration_key` of `_ext_cleanup_partition`, `timeseriesdb.py:355-359`. -/
def limitDurationKey (fl : Rat → Rat) (now : Timestamp) (partitionId : Int) (limit : Limit) :
    Except PyErr (Option TimeseriesKey) :=
  match limit.duration with
  | none => .ok none
  | some duration => do
    let key : TimeseriesKey := ⟨partitionId, now.add fl (-duration), ⟨0, 0, 0⟩⟩
    let _ ← encodeTimeseriesKey key
    return some key

/-- `_ext_cleanup_partition`, `timeseriesdb.py:323-393`: the removed keys and
the databases. -/
def cleanupPartition (fl : Rat → Rat) (sizeEntries : Rat → Option Int) (now : Timestamp)
    (partitionId : Int) (limit : Limit) (maxResults : Option Int)
    (data : Table TimeseriesKey Event) (counts : Table Int Int) :
    Except PyErr (List TimeseriesKey × Table TimeseriesKey Event × Table Int Int) := do
  let startKey : TimeseriesKey := ⟨partitionId, minTimestamp, ⟨0, 0, 0⟩⟩
  let stopKey : TimeseriesKey := ⟨partitionId + 1, minTimestamp, ⟨0, 0, 0⟩⟩
  let _ ← encodeTimeseriesKey startKey
  let _ ← encodeTimeseriesKey stopKey
  let durationKey ← limitDurationKey fl now partitionId limit
  let entriesCount := (Dict.get counts partitionId).getD 0
  let removed := cleanupLoop maxResults (limit.minEntries.getD 0)
    (limitMaxEntries sizeEntries limit) durationKey stopKey entriesCount 0
    (Table.fromKey data startKey)
  let counts ← Table.write counts
    (if removed = [] then [] else [(partitionId, entriesCount - removed.length)])
  return (removed, removed.foldl Dict.del data, counts)

/-- The loop of `TimeseriesDb.ext_cleanup`, `timeseriesdb.py:127-148`. -/
def cleanupPartitions (fl : Rat → Rat) (sizeEntries : Rat → Option Int) (now : Timestamp)
    (maxResults : Option Int) : List (Int × Partition) → List TimeseriesKey →
    Table TimeseriesKey Event → Table Int Int →
    Except PyErr (List TimeseriesKey × Table TimeseriesKey Event × Table Int Int)
  | [], result, data, counts => .ok (result, data, counts)
  | (partitionId, partition) :: r, result, data, counts =>
    match partition.limit with
    | none => cleanupPartitions fl sizeEntries now maxResults r result data counts
    | some limit =>
      let partitionMax := maxResults.map fun n => n - (result.length : Int)
      if (match partitionMax with | some n => decide (n < 1) | none => false) then
        .ok (result, data, counts)
      else do
        let (removed, data, counts) ←
          cleanupPartition fl sizeEntries now partitionId limit partitionMax data counts
        cleanupPartitions fl sizeEntries now maxResults r (result ++ removed) data counts

/-! ## Reference database -/

/-- `ServerChanges`, `refdb.py:14-19`. -/
structure ServerChanges where
  added : Dict EventId (Event × List EventRef)
  removed : Dict EventId (List EventRef)

/-- `_create_server_changes`, `refdb.py:233-234`. -/
def ServerChanges.empty : ServerChanges := ⟨[], []⟩

/-- `Changes`, `refdb.py:22`. -/
abbrev RefChanges := Dict Int ServerChanges

/-- `RefDb`, `refdb.py:25-33`. -/
structure RefDb where
  lastEventIds : Dict Int EventId
  changes : RefChanges

/-- `max_results` of `RefDb.__init__`, `refdb.py:29`. -/
def refMaxResults : Int := 4096

/-- `RefDb.add`, `refdb.py:35-45`. -/
def RefDb.add (db : RefDb) (event : Event) (refs : List EventRef) : Except PyErr RefDb :=
  if (match Dict.get db.lastEventIds event.id.server with
      | some last => event.id.lt last
      | none => false) then .error (.exception "event older than last")
  else
    let sc := (Dict.get db.changes event.id.server).getD .empty
    .ok { lastEventIds := Dict.set db.lastEventIds event.id.server event.id
          changes := Dict.set db.changes event.id.server
            { sc with added := Dict.set sc.added event.id (event, toSet refs) } }

/-- `RefDb.remove` for the changes of one server, `refdb.py:51-62`. -/
def ServerChanges.remove (sc : ServerChanges) (eventId : EventId) (ref : EventRef) :
    ServerChanges :=
  let removed := Dict.set sc.removed eventId (setAdd ((Dict.get sc.removed eventId).getD []) ref)
  match Dict.get sc.added eventId with
  | some (event, refs) =>
    if ref ∈ refs then
      let refs := refs.filter (· ≠ ref)
      if refs = [] then { sc with added := Dict.del sc.added eventId }
      else { sc with added := Dict.set sc.added eventId (event, refs) }
    else { sc with removed := removed }
  | none => { sc with removed := removed }

/-- `RefDb.remove`, `refdb.py:47-62`. -/
def RefDb.remove (db : RefDb) (eventId : EventId) (ref : EventRef) : RefDb :=
  let sc := (Dict.get db.changes eventId.server).getD .empty
  { db with changes := Dict.set db.changes eventId.server (sc.remove eventId ref) }

/-- `_ext_get_event`, `refdb.py:212-230`. -/
def getEvent (disk : Disk) (ref : EventRef) : Option Event :=
  match ref with
  | .latest key => Dict.get disk.latestData key
  | .timeseries key => Dict.get disk.tsData key

/-- The loop of `_ext_query_events`, `refdb.py:194-207`, over the entries from
the cursor on.  An empty reference set would make the loop run forever
(`continue` without moving the cursor, l.199-200). -/
def queryRefs (conf : Conf) (disk : Disk) (stopKey : EventId) :
    Int → Table EventId (List EventRef) → Except PyErr (List Event)
  | _, [] => .ok []
  | n, (key, refs) :: r =>
    if n < 1 then .ok []
    else if !EventId.lt key stopKey then .ok []
    else match refs[conf.pick refs % refs.length]? with
      | none => .error (.exception "infinite loop")
      | some ref =>
        match getEvent disk ref with
        | some event => do
          let l ← queryRefs conf disk stopKey (n - 1) r
          return event :: l
        | none => queryRefs conf disk stopKey n r

/-- `_ext_query_events`, `refdb.py:172-209`. -/
def extQueryEvents (conf : Conf) (disk : Disk) (serverId : Int) (maxResults : Int)
    (lastEventId : Option EventId) : Except PyErr (List Event) := do
  let startKey : EventId := lastEventId.getD ⟨serverId, 0, 0⟩
  let stopKey : EventId := ⟨serverId + 1, 0, 0⟩
  let _ ← encodeEventId startKey
  let _ ← encodeEventId stopKey
  let entries :=
    match Table.fromKey disk.ref startKey with
    | (k, v) :: r => if k = startKey then r else (k, v) :: r
    | [] => []
  queryRefs conf disk stopKey maxResults entries

/-- `_query_changes`, `refdb.py:158-169`. -/
def queryChanges (changes : RefChanges) (serverId : Int) (maxResults : Int)
    (lastEventId : Option EventId) : List Event :=
  match Dict.get changes serverId with
  | none => []
  | some sc =>
    let events := sc.added.map fun (p : EventId × Event × List EventRef) => p.2.1
    let events :=
      match lastEventId with
      | some last => events.dropWhile fun (e : Event) => e.id.le last
      | none => events
    events.take maxResults.toNat

/-- The check of the identifier, `refdb.py:67-69`. -/
def wrongServer (params : QueryServerParams) : Bool :=
  match params.lastEventId with
  | some i => decide (i.server ≠ params.serverId)
  | none => false

/-- The identifier after which pending events follow, `refdb.py:81-82`. -/
def pendingAfter (events : List Event) (lastEventId : Option EventId) : Option EventId :=
  match events.getLast? with
  | some e => some e.id
  | none => lastEventId

/-- Cutting off the result, `refdb.py:89-98`.  `itertools.islice` rejects
negative counts. -/
def cutResults (events : List Event) (maxResults : Int) : Except PyErr QueryResult :=
  if (events.length : Int) > maxResults then
    if maxResults < 0 then .error (.valueError "invalid count")
    else .ok ⟨events.take maxResults.toNat, true⟩
  else .ok ⟨events, false⟩

/-- Events on the disk followed by pending ones, `refdb.py:81-87`. -/
def withPending (changes : RefChanges) (params : QueryServerParams) (maxResults : Int)
    (events : List Event) : List Event :=
  if !params.persisted && decide ((events.length : Int) ≤ maxResults) then
    events ++ queryChanges changes params.serverId (maxResults + 1 - events.length)
      (pendingAfter events params.lastEventId)
  else events

/-- `RefDb.query`, `refdb.py:64-98`. -/
def RefDb.query (conf : Conf) (disk : Disk) (db : RefDb) (params : QueryServerParams) :
    Except PyErr QueryResult :=
  if wrongServer params then .error (.valueError "invalid server id")
  else do
    let maxResults := limitResults params.maxResults refMaxResults
    let events ← extQueryEvents conf disk params.serverId (maxResults + 1) params.lastEventId
    cutResults (withPending db.changes params maxResults events) maxResults

/-- References of an event after adding and removing, `refdb.py:121-127`. -/
def refValue (sc : ServerChanges) (value : List EventRef) (eventId : EventId) : List EventRef :=
  let value :=
    match Dict.get sc.added eventId with
    | some (_, refs) => setUnion value refs
    | none => value
  match Dict.get sc.removed eventId with
  | some refs => setDiff value refs
  | none => value

/-- One event of `RefDb.ext_write`, `refdb.py:115-133`. -/
def refWriteOne (sc : ServerChanges) (t : Table EventId (List EventRef)) (eventId : EventId) :
    Except PyErr (Table EventId (List EventRef)) := do
  let _ ← encodeEventId eventId
  let value := refValue sc ((Dict.get t eventId).getD []) eventId
  let t := Dict.del t eventId
  if value = [] then return t
  else do
    let _ ← encodeEventRefs value
    return Table.put t eventId value

/-- `RefDb.ext_write` for one server, `refdb.py:112-133`. -/
def refWriteServer (t : Table EventId (List EventRef)) (sc : ServerChanges) :
    Except PyErr (Table EventId (List EventRef)) :=
  (toSet (Dict.keys sc.added ++ Dict.keys sc.removed)).foldlM (refWriteOne sc) t

/-- `RefDb.ext_write`, `refdb.py:105-133`. -/
def refWrite (changes : RefChanges) (disk : Disk) : Except PyErr Disk := do
  let t ← (changes.map Prod.snd).foldlM refWriteServer disk.ref
  return { disk with ref := t }

/-- `RefDb.ext_cleanup`, `refdb.py:135-155`. -/
def refCleanup : Table EventId (List EventRef) → List TimeseriesKey →
    Except PyErr (Table EventId (List EventRef))
  | t, [] => .ok t
  | t, key :: r => do
    let _ ← encodeEventId key.id
    match Dict.get t key.id with
    | none => refCleanup t r
    | some value =>
      let t := Dict.del t key.id
      let value := value.filter (· ≠ .timeseries key)
      if value = [] then refCleanup t r
      else do
        let _ ← encodeEventRefs value
        refCleanup (Table.put t key.id value) r

/-! ## Backend -/

/-- `Changes`, `backend.py:43-47`. -/
structure Changes where
  system : SystemChanges
  latest : LatestChanges
  timeseries : TimeseriesChanges
  ref : RefChanges

/-- The volatile state of an open `LmdbBackend`, `backend.py:54-95`. -/
structure Mem where
  system : SystemDb
  latest : LatestDb
  timeseries : TimeseriesDb
  ref : RefDb
  registered : List (List Event)

/-- `_ext_create_dbs`, `backend.py:108-123`, one transaction. -/
def createDbs (conf : Conf) (disk : Disk) : Except PyErr (Disk × Mem) := do
  let settings ← validateSettings disk.settings backendVersion conf.identifier
  let parts ← initPartitions disk.tsPartition conf.partitions
  return ({ disk with settings := settings, tsPartition := parts.table },
    { system := SystemDb.create disk
      latest := LatestDb.create conf disk
      timeseries := ⟨parts.result, []⟩
      ref := ⟨[], []⟩
      registered := [] })

/-- Removal of a replaced reference, `backend.py:173-174`. -/
def RefDb.removeRef (db : RefDb) : Option (EventId × EventRef) → RefDb
  | some (i, r) => db.remove i r
  | none => db

/-- Storing an event that passed the checks, `backend.py:166-183`. -/
def storeEvent (conf : Conf) (m : Mem) (event : Event) : Except PyErr Mem :=
  let l := m.latest.add conf event
  let ref := m.ref.removeRef l.2.removedRef
  let t := m.timeseries.add conf event
  let refs := l.2.addedRef.toList ++ t.2
  if refs = [] then .ok { m with latest := l.1, timeseries := t.1, ref := ref }
  else do
    let ref ← ref.add event refs
    return { m with
      latest := l.1
      timeseries := t.1
      ref := ref
      system := (m.system.setLastEventId event.id).setLastTimestamp event.id.server event.timestamp }

/-- One round of the loop of `LmdbBackend.register`, `backend.py:146-183`. -/
def registerEvent (conf : Conf) (m : Mem) (event : Event) : Except PyErr Mem :=
  if event.id.le (m.system.getLastEventId event.id.server) = true then .ok m
  else if event.timestamp.lt (m.system.getLastTimestamp event.id.server) = true then .ok m
  else if conf.conditions event = false then .ok m
  else storeEvent conf m event

/-- `LmdbBackend.register`, `backend.py:140-194`. -/
def Mem.register (conf : Conf) (m : Mem) (events : List Event) : Except PyErr Mem := do
  let m ← events.foldlM (registerEvent conf) m
  return { m with registered := m.registered ++ [events] }

/-- `LmdbBackend.query`, `backend.py:196-211`. -/
def Mem.query (conf : Conf) (disk : Disk) (m : Mem) : QueryParams → Except PyErr QueryResult
  | .latest eventTypes => m.latest.query conf eventTypes
  | .timeseries params => m.timeseries.query conf disk params
  | .server params => m.ref.query conf disk params

/-- `create_changes` of all databases, `backend.py:299-302`. -/
def Mem.createChanges (m : Mem) : Changes × Mem :=
  (⟨m.system.changes, m.latest.changes, m.timeseries.changes, m.ref.changes⟩,
   { m with
     system := { m.system with changes := ⟨[], []⟩ }
     latest := { m.latest with changes := ⟨[], []⟩ }
     timeseries := { m.timeseries with changes := [] }
     ref := { m.ref with changes := [] } })

/-- `_ext_flush`, `backend.py:318-323`, one transaction. -/
def extFlush (disk : Disk) (changes : Changes) : Except PyErr Disk := do
  let disk ← systemWrite changes.system disk
  let disk ← latestWrite changes.latest disk
  let disk ← timeseriesWrite changes.timeseries disk
  refWrite changes.ref disk

/-- `cleanup_max_results`, `backend.py:23`. -/
def cleanupMaxResults : Int := 1024

/-- `_ext_cleanup`, `backend.py:326-334`, one transaction.  The result says if
the cleanup is to be repeated at once. -/
def extCleanup (fl : Rat → Rat) (sizeEntries : Rat → Option Int) (now : Timestamp)
    (partitions : Dict Int Partition) (disk : Disk) : Except PyErr (Disk × Bool) := do
  let (removed, data, counts) ←
    cleanupPartitions fl sizeEntries now (some cleanupMaxResults) partitions [] disk.tsData disk.tsCount
  if removed = [] then return (disk, false)
  else do
    let ref ← refCleanup disk.ref removed
    return ({ disk with tsData := data, tsCount := counts, ref := ref },
      decide ((removed.length : Int) ≥ cleanupMaxResults))

/-- The backend and its database file.  `mem` is `none` if no backend is open;
`flushedCb` are the calls of the flushed events callback so far. -/
structure Backend where
  disk : Disk
  conf : Conf
  mem : Option Mem
  flushedCb : List (List Event)

/-- One action.  `register`, `flush` (`backend.py:291-315`) and `cleanup`
(`backend.py:273-289`) are the actions of an open backend; `touch` is the side effect of a
timeseries query on the `defaultdict` of pending entries (`timeseriesdb.py:165,179`);
`reopen` is the end
of the process at this point (everything volatile is lost) and the creation of
a new backend on the same file (`backend.py:50-105`). -/
inductive BackendOp where
  | register (events : List Event)
  | touch (partitionId : Int)
  | flush
  | cleanup (fl : Rat → Rat) (sizeEntries : Rat → Option Int) (now : Timestamp)
  | reopen (conf : Conf)

/-- Effect of an action.  An exception in `register` leaves a partly modified
backend, which is not modelled further (it does not happen, see
`register_total`): the backend counts as closed.  An exception in a flush or
cleanup aborts the transaction and closes the backend (`backend.py:257-271`,
`285-289`). -/
def Backend.step (b : Backend) : BackendOp → Backend
  | .register events =>
    match b.mem with
    | none => b
    | some m =>
      match m.register b.conf events with
      | .ok m => { b with mem := some m }
      | .error _ => { b with mem := none }
  | .touch partitionId =>
    match b.mem with
    | none => b
    | some m =>
      let ts := m.timeseries
      let changes := Dict.set ts.changes partitionId ((Dict.get ts.changes partitionId).getD [])
      { b with mem := some { m with timeseries := { ts with changes := changes } } }
  | .flush =>
    match b.mem with
    | none => b
    | some m =>
      let (changes, m') := m.createChanges
      match extFlush b.disk changes with
      | .ok disk =>
        { b with
          disk := disk
          mem := some { m' with registered := [] }
          flushedCb := b.flushedCb ++ m.registered }
      | .error _ => { b with mem := none }
  | .cleanup fl sizeEntries now =>
    match b.mem with
    | none => b
    | some m =>
      match extCleanup fl sizeEntries now m.timeseries.partitions b.disk with
      | .ok (disk, _) => { b with disk := disk }
      | .error _ => { b with mem := none }
  | .reopen conf =>
    match createDbs conf b.disk with
    | .ok (disk, m) => { b with disk := disk, conf := conf, mem := some m }
    | .error _ => { b with conf := conf, mem := none }

/-- `LmdbBackend.query`, `backend.py:196-211`. -/
def Backend.query (b : Backend) (params : QueryParams) : Except PyErr QueryResult :=
  match b.mem with
  | none => .error (.exception "backend closed")
  | some m => m.query b.conf b.disk params

/-- `LmdbBackend.get_last_event_id`, `backend.py:132-138`. -/
def Backend.getLastEventId (b : Backend) (serverId : Int) : Except PyErr EventId :=
  match b.mem with
  | none => .error (.exception "backend closed")
  | some m => .ok (m.system.getLastEventId serverId)

/-- A history of actions. -/
def Backend.run (b : Backend) (ops : List BackendOp) : Backend := ops.foldl Backend.step b

/-- A backend that has not been created yet, on a new file. -/
def Backend.new (conf : Conf) : Backend := ⟨.empty, conf, none, []⟩

end HatEvent
