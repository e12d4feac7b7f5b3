import Verif.Model.Lmdb
import Verif.Model.Sbs

/-!
# LMDB backend on bytes

The functions of `Model/Lmdb.lean` that touch the database file, once more, on
tables of encoded keys and values: `backends/lmdb/common.py:90-143`,
`environment.py:64-84` and the `ext_*` functions of `systemdb.py`,
`latestdb.py`, `timeseriesdb.py`, `refdb.py` as they are written there, with
every encoding and decoding.

Simplifications: a range of entries is decoded at once, not when the consumer
asks for the next one; limits of LMDB (map size) are not modelled.
-/

namespace HatEvent

/-! ## Bytes -/

/-- `memcmp` order of LMDB keys; also `<` of Python `bytes` (`refdb.py:196`). -/
def bytesLt : Bytes → Bytes → Bool
  | [], [] => false
  | [], _ :: _ => true
  | _ :: _, [] => false
  | a :: l, b :: m => if a = b then bytesLt l m else decide (a < b)

/-- Keys of a database file are bytes (`environment.py:82-84`). -/
instance : DbKey Bytes where
  encode b := .ok b
  lt := bytesLt

/-- A named database of the file, `environment.py:105-108`. -/
abbrev ByteTable := Table Bytes Bytes

/-- The byte level of hat-sbs for the type `HatEventer.Event`, `backends/lmdb/common.py:258,262`. -/
structure SbsCodec where
  encode : Sbs → Bytes
  decode : Bytes → Except PyErr Sbs

/-- What is not code of this repository: JSON texts (hat-json), SBS bytes
(hat-sbs), and what `cursor.delete()` of py-lmdb returns when it removed the last entry of the
database (`timeseriesdb.py:386`; there is no current entry after that). -/
structure ByteEnv where
  json : JsonCodec
  sbs : SbsCodec
  deleteLast : Bool

/-- `str.encode('utf-8')`, `backends/lmdb/common.py:273`. -/
def encodeText (s : String) : Bytes := s.toByteArray.data.toList

/-- `str(data_bytes, encoding='utf-8')`, `backends/lmdb/common.py:277`. -/
def decodeText (b : Bytes) : Except PyErr String :=
  match String.fromUTF8? ⟨b.toArray⟩ with
  | some s => .ok s
  | none => .error (.valueError "invalid utf-8")

/-- `_encode_json`, `backends/lmdb/common.py:272-273`. -/
def ByteEnv.encodeJson (env : ByteEnv) (data : Json) : Bytes := encodeText (env.json.encode data)

/-- `_decode_json`, `backends/lmdb/common.py:276-277`. -/
def ByteEnv.decodeJson (env : ByteEnv) (data : Bytes) : Except PyErr Json := do
  env.json.decode (← decodeText data)

/-- `_encode_event`, `backends/lmdb/common.py:256-258`. -/
def ByteEnv.encodeEvent (env : ByteEnv) (event : Event) : Bytes :=
  env.sbs.encode (eventToSbs env.json event)

/-- `_decode_event`, `backends/lmdb/common.py:261-269`. -/
def ByteEnv.decodeEvent (env : ByteEnv) (data : Bytes) : Except PyErr Event := do
  eventFromSbs env.json (← env.sbs.decode data)

/-- A JSON string (Python does not check; anything else is reported here). -/
def Json.readStr : Json → Except PyErr String
  | .str s => .ok s
  | _ => .error .typeError

/-- The elements of a JSON array. -/
def Json.readList : Json → Except PyErr (List Json)
  | .arr l => .ok l
  | _ => .error .typeError

/-- `data[name]` of a JSON object. -/
def Json.readField (name : String) : Json → Except PyErr Json
  | .obj fields =>
    match Dict.get fields name with
    | some v => .ok v
    | none => .error .keyError
  | _ => .error .typeError

/-- `list(event_type)`, `backends/lmdb/common.py:124`, `timeseriesdb.py:215`. -/
def typeToJson (t : EventType) : Json := .arr (t.map .str)

/-- `tuple(...)` of the elements, `backends/lmdb/common.py:125`, `timeseriesdb.py:196-197`. -/
def typeFromJson (data : Json) : Except PyErr EventType := do mapE Json.readStr (← data.readList)

/-- The orders that can be stored.  (The code compares the string, `timeseriesdb.py:195`;
other strings are never written.) -/
def orderFromValue (s : String) : Except PyErr OrderBy :=
  if s = "timestamp" then .ok .timestamp
  else if s = "sourceTimestamp" then .ok .sourceTimestamp
  else .error (.valueError "unsupported order by")

/-- `partition_data`, `timeseriesdb.py:214-215`. -/
def partitionToJson (p : PartitionData) : Json :=
  .obj [("order", .str p.order.value), ("subscriptions", .arr (p.subscriptions.map typeToJson))]

/-- `data_to_cache_key`, `timeseriesdb.py:194-197`. -/
def partitionFromJson (data : Json) : Except PyErr PartitionData := do
  let order ← orderFromValue (← (← data.readField "order").readStr)
  let subscriptions ← mapE typeFromJson (← (← data.readField "subscriptions").readList)
  return ⟨order, subscriptions⟩

/-- `SettingsId`, `backends/lmdb/common.py:74-76`. -/
def SettingsId.value : SettingsId → Int
  | .version => 0
  | .identifier => 1

/-- `SettingsId(value)`, `backends/lmdb/common.py:93`. -/
def settingsIdFromValue (v : Int) : Except PyErr SettingsId :=
  if v = 0 then .ok .version
  else if v = 1 then .ok .identifier
  else .error (.valueError "invalid settings id")

/-! ## Definitions of the databases -/

/-- `DbDef`, `backends/lmdb/common.py:42-64`. -/
structure DbDef (κ υ : Type) where
  encodeKey : κ → Except PyErr Bytes
  decodeKey : Bytes → Except PyErr κ
  encodeValue : υ → Except PyErr Bytes
  decodeValue : Bytes → Except PyErr υ

/-- `DbType.SYSTEM_SETTINGS`, `backends/lmdb/common.py:91-95`; the values written are strings. -/
def settingsDef (env : ByteEnv) : DbDef SettingsId String where
  encodeKey key := encodeUint key.value
  decodeKey data := do settingsIdFromValue (← decodeUint data)
  encodeValue value := .ok (env.encodeJson (.str value))
  decodeValue data := do (← env.decodeJson data).readStr

/-- `DbType.SYSTEM_LAST_EVENT_ID`, `backends/lmdb/common.py:97-101`. -/
def lastEventIdDef : DbDef Int EventId where
  encodeKey := encodeUint
  decodeKey := decodeUint
  encodeValue := encodeEventId
  decodeValue := decodeEventId

/-- `DbType.SYSTEM_LAST_TIMESTAMP`, `backends/lmdb/common.py:103-107`. -/
def lastTimestampDef : DbDef Int Timestamp where
  encodeKey := encodeUint
  decodeKey := decodeUint
  encodeValue := timestampToBytes
  decodeValue := timestampFromBytes

/-- `DbType.REF`, `backends/lmdb/common.py:109-113`. -/
def refDef : DbDef EventId (List EventRef) where
  encodeKey := encodeEventId
  decodeKey := decodeEventId
  encodeValue := encodeEventRefs
  decodeValue data := do return toSet (← decodeEventRefs data)

/-- `DbType.LATEST_DATA`, `backends/lmdb/common.py:115-119`. -/
def latestDataDef (env : ByteEnv) : DbDef Int Event where
  encodeKey := encodeUint
  decodeKey := decodeUint
  encodeValue event := .ok (env.encodeEvent event)
  decodeValue := env.decodeEvent

/-- `DbType.LATEST_TYPE`, `backends/lmdb/common.py:121-125`. -/
def latestTypeDef (env : ByteEnv) : DbDef Int EventType where
  encodeKey := encodeUint
  decodeKey := decodeUint
  encodeValue t := .ok (env.encodeJson (typeToJson t))
  decodeValue data := do typeFromJson (← env.decodeJson data)

/-- `DbType.TIMESERIES_DATA`, `backends/lmdb/common.py:127-131`. -/
def tsDataDef (env : ByteEnv) : DbDef TimeseriesKey Event where
  encodeKey := encodeTimeseriesKey
  decodeKey := decodeTimeseriesKey
  encodeValue event := .ok (env.encodeEvent event)
  decodeValue := env.decodeEvent

/-- `DbType.TIMESERIES_PARTITION`, `backends/lmdb/common.py:133-137`, with the
conversions of `timeseriesdb.py:194-197,214-215`. -/
def tsPartitionDef (env : ByteEnv) : DbDef Int PartitionData where
  encodeKey := encodeUint
  decodeKey := decodeUint
  encodeValue p := .ok (env.encodeJson (partitionToJson p))
  decodeValue data := do partitionFromJson (← env.decodeJson data)

/-- `DbType.TIMESERIES_COUNT`, `backends/lmdb/common.py:139-143`. -/
def tsCountDef : DbDef Int Int where
  encodeKey := encodeUint
  decodeKey := decodeUint
  encodeValue := encodeUint
  decodeValue := decodeUint

/-- The database file, `backends/lmdb/common.py:30-39`. -/
structure ByteDisk where
  settings : ByteTable
  lastEventId : ByteTable
  lastTimestamp : ByteTable
  ref : ByteTable
  latestData : ByteTable
  latestType : ByteTable
  tsData : ByteTable
  tsPartition : ByteTable
  tsCount : ByteTable

/-- A new file. -/
def ByteDisk.empty : ByteDisk := ⟨[], [], [], [], [], [], [], [], []⟩

namespace DbDef
variable {κ υ : Type}

/-- `Environment.ext_write`, `environment.py:75-84`. -/
def write (d : DbDef κ υ) : ByteTable → List (κ × υ) → Except PyErr ByteTable
  | t, [] => .ok t
  | t, (k, v) :: r => do
    let encodedKey ← d.encodeKey k
    let encodedValue ← d.encodeValue v
    d.write (t.put encodedKey encodedValue) r

/-- `Environment.ext_read`, `environment.py:64-73`. -/
def read (d : DbDef κ υ) : ByteTable → Except PyErr (List (κ × υ))
  | [] => .ok []
  | (k, v) :: t => do
    let key ← d.decodeKey k
    let value ← d.decodeValue v
    let r ← d.read t
    return (key, value) :: r

/-- `decode_value(encoded_value) if encoded_value else None`, with `encoded_value` of
`cursor.get` or `cursor.pop`: `refdb.py:117-119,144-148,226-230`,
`timeseriesdb.py:299-301,314-316`.  No bytes are falsy. -/
def decodeFound (d : DbDef κ υ) (encodedValue : Option Bytes) : Except PyErr (Option υ) :=
  match encodedValue with
  | none => .ok none
  | some [] => .ok none
  | some (b :: l) => (d.decodeValue (b :: l)).map some

/-- The values of some entries in their order, `timeseriesdb.py:276-278,285-287`. -/
def values (d : DbDef κ υ) (t : ByteTable) : Except PyErr (List υ) := mapE (fun p => d.decodeValue p.2) t

end DbDef

/-! ## System and latest database -/

/-- `_ext_validate_settings`, `systemdb.py:78-102`. -/
def validateSettingsB (env : ByteEnv) (stored : ByteTable) (version : String)
    (identifier : Option String) : Except PyErr ByteTable := do
  let settings ← (settingsDef env).read stored
  let settings ← validateVersion settings version
  let settings ← validateIdentifier settings identifier
  (settingsDef env).write stored settings

/-- `SystemDb.ext_write`, `systemdb.py:68-75`. -/
def systemWriteB (changes : SystemChanges) (disk : ByteDisk) : Except PyErr ByteDisk := do
  let ids ← lastEventIdDef.write disk.lastEventId changes.lastEventIds
  let timestamps ← lastTimestampDef.write disk.lastTimestamp changes.lastTimestamps
  return { disk with lastEventId := ids, lastTimestamp := timestamps }

/-- `LatestDb.ext_write`, `latestdb.py:109-116`. -/
def latestWriteB (env : ByteEnv) (changes : LatestChanges) (disk : ByteDisk) : Except PyErr ByteDisk := do
  let data ← (latestDataDef env).write disk.latestData changes.data
  let types ← (latestTypeDef env).write disk.latestType changes.types
  return { disk with latestData := data, latestType := types }

/-! ## Timeseries database -/

/-- State of the loop of `_ext_init_partitions`, `timeseriesdb.py:199-226`. -/
structure InitPartitionsB where
  cache : Dict PartitionData Int
  next : Int
  table : ByteTable
  result : Dict Int Partition

/-- One round of the loop, `timeseriesdb.py:212-226`. -/
def initPartitionB (env : ByteEnv) (s : InitPartitionsB) (partition : Partition) :
    Except PyErr InitPartitionsB := do
  let data := partitionData partition
  match Dict.get s.cache data with
  | some partitionId => return { s with result := Dict.set s.result partitionId partition }
  | none =>
    let table ← (tsPartitionDef env).write s.table [(s.next, data)]
    return { cache := Dict.set s.cache data s.next
             next := s.next + 1
             table := table
             result := Dict.set s.result s.next partition }

/-- `_ext_init_partitions`, `timeseriesdb.py:192-226`. -/
def initPartitionsB (env : ByteEnv) (table : ByteTable) (partitions : List Partition) :
    Except PyErr InitPartitionsB := do
  let stored ← (tsPartitionDef env).read table
  partitions.foldlM (initPartitionB env)
    { cache := stored.foldl (fun c p => Dict.set c p.2 p.1) []
      next := (stored.map Prod.fst).foldl max 0 + 1
      table := table
      result := [] }

/-- `_ext_inc_partition_count`, `timeseriesdb.py:308-320`. -/
def incCountsB : ByteTable → List (Int × Int) → Except PyErr ByteTable
  | t, [] => .ok t
  | t, (partitionId, count) :: r => do
    let encodedKey ← tsCountDef.encodeKey partitionId
    let value ← tsCountDef.decodeFound (Dict.get t encodedKey)
    let encodedValue ← tsCountDef.encodeValue (value.getD 0 + count)
    incCountsB (t.put encodedKey encodedValue) r

/-- `TimeseriesDb.ext_write`, `timeseriesdb.py:115-125`. -/
def timeseriesWriteB (env : ByteEnv) (changes : TimeseriesChanges) (disk : ByteDisk) :
    Except PyErr ByteDisk := do
  let data ← (tsDataDef env).write disk.tsData (timeseriesEntries changes)
  let counts ← incCountsB disk.tsCount (changes.map fun p => (p.1, (p.2.length : Int)))
  return { disk with tsData := data, tsCount := counts }

/-- Where the descending cursor starts, `timeseriesdb.py:271-274`. -/
def entriesBeforeB (data : ByteTable) (encodedKey : Bytes) : ByteTable :=
  match Table.fromKey data encodedKey with
  | _ :: _ => Table.beforeKey data encodedKey
  | [] => data.reverse

/-- `_ext_query_partition_events_range`, `timeseriesdb.py:248-291`. -/
def partitionRangeB (env : ByteEnv) (data : ByteTable) (partitionId : Int)
    (tFrom tTo : Option Timestamp) (order : Order) : Except PyErr (List Event) := do
  let fromKey ← (tsDataDef env).encodeKey ⟨partitionId, tFrom.getD minTimestamp, ⟨0, 0, 0⟩⟩
  let toKey ← (tsDataDef env).encodeKey
    ⟨partitionId, tTo.getD maxTimestamp, ⟨2 ^ 64 - 1, 2 ^ 64 - 1, 2 ^ 64 - 1⟩⟩
  match order with
  | .descending =>
    (tsDataDef env).values ((entriesBeforeB data toKey).takeWhile fun p => !bytesLt p.1 fromKey)
  | .ascending =>
    (tsDataDef env).values ((Table.fromKey data fromKey).takeWhile fun p => !bytesLt toKey p.1)

/-- `_ext_query_partition_events`, `timeseriesdb.py:229-245`. -/
def partitionEventsB (env : ByteEnv) (conf : Conf) (disk : ByteDisk) (partitionId : Int)
    (params : QueryTimeseriesParams) (filter : Filter) : Except PyErr (List Event × Filter) := do
  let events ← partitionRangeB env disk.tsData partitionId params.range.1 params.range.2 params.order
  return filter.process (events.filter fun e => conf.conditions e)

/-- `TimeseriesDb._query_partition`, `timeseriesdb.py:150-189`. -/
def queryPartitionB (env : ByteEnv) (conf : Conf) (disk : ByteDisk) (db : TimeseriesDb) (partitionId : Int)
    (params : QueryTimeseriesParams) (subscription : Option Sub) (maxResults : Int) :
    Except PyErr QueryResult := do
  let filter : Filter := ⟨subscription, params.tFrom, params.tTo, params.sourceTFrom,
    params.sourceTTo, maxResults + 1, params.lastEventId⟩
  let changes := (Dict.get db.changes partitionId).getD []
  match params.order with
  | .descending => do
    let r ← partitionChanges changes params filter
    if r.2.maxResults < 1 then cutSeries r.1 maxResults
    else do
      let r' ← partitionEventsB env conf disk partitionId params r.2
      cutSeries (r.1 ++ r'.1) maxResults
  | .ascending => do
    let r ← partitionEventsB env conf disk partitionId params filter
    if r.2.maxResults < 1 then cutSeries r.1 maxResults
    else do
      let r' ← partitionChanges changes params r.2
      cutSeries (r.1 ++ r'.1) maxResults

/-- The loop of `TimeseriesDb.query`, `timeseriesdb.py:96-108`. -/
def queryPartitionsB (env : ByteEnv) (conf : Conf) (disk : ByteDisk) (db : TimeseriesDb)
    (params : QueryTimeseriesParams) (subscription : Option Sub) (maxResults : Int) :
    List (Int × Partition) → Except PyErr QueryResult
  | [] => .ok ⟨[], false⟩
  | (partitionId, partition) :: r => do
    if partition.orderBy ≠ params.orderBy then
      queryPartitionsB env conf disk db params subscription maxResults r
    else do
      let disjoint ← unrelated subscription partition
      if disjoint then queryPartitionsB env conf disk db params subscription maxResults r
      else queryPartitionB env conf disk db partitionId params subscription maxResults

/-- `TimeseriesDb.query`, `timeseriesdb.py:85-108`. -/
def TimeseriesDb.queryB (env : ByteEnv) (conf : Conf) (disk : ByteDisk) (db : TimeseriesDb)
    (params : QueryTimeseriesParams) : Except PyErr QueryResult := do
  let subscription ← querySubscription conf params.eventTypes
  queryPartitionsB env conf disk db params subscription (limitResults params.maxResults conf.maxResults)
    db.partitions

/-- `encoded_duration_key is None or encoded_key >= encoded_duration_key`,
`timeseriesdb.py:379-380`. -/
def withinDurationB (durationKey : Option Bytes) (key : Bytes) : Bool :=
  match durationKey with
  | some k => !bytesLt key k
  | none => true

/-- The checks of one round of the loop of `_ext_cleanup_partition`, `timeseriesdb.py:367-381`. -/
def cleanupStops (maxResults : Option Int) (minEntries : Rat) (maxEntries : Option Rat)
    (durationKey : Option Bytes) (stopKey : Bytes) (entriesCount resultCount : Int) (key : Bytes) : Bool :=
  resultsReached maxResults resultCount ||
  decide (((entriesCount - resultCount : Int) : Rat) ≤ minEntries) ||
  !bytesLt key stopKey ||
  (withinMaxEntries maxEntries ((entriesCount - resultCount : Int) : Rat) && withinDurationB durationKey key)

/-- The loop of `_ext_cleanup_partition`, `timeseriesdb.py:365-389`: the encoded and
decoded keys removed, given the entries from the cursor on.  Before the first
round `more` is what `set_range` returned (l.365); later it is what `delete`
returned (l.386), which may be true although the last entry is gone: then
`cursor.key()` is empty. -/
def cleanupLoopB (env : ByteEnv) (maxResults : Option Int) (minEntries : Rat) (maxEntries : Option Rat)
    (durationKey : Option Bytes) (stopKey : Bytes) (entriesCount : Int) :
    Int → ByteTable → Except PyErr (List (Bytes × TimeseriesKey))
  | resultCount, [] =>
    if resultCount = 0 || !env.deleteLast then .ok []
    else if cleanupStops maxResults minEntries maxEntries durationKey stopKey entriesCount resultCount []
    then .ok []
    else ((tsDataDef env).decodeKey []).map fun key => [([], key)]
  | resultCount, (encodedKey, _) :: r =>
    if cleanupStops maxResults minEntries maxEntries durationKey stopKey entriesCount resultCount encodedKey
    then .ok []
    else do
      let key ← (tsDataDef env).decodeKey encodedKey
      let l ← cleanupLoopB env maxResults minEntries maxEntries durationKey stopKey entriesCount
        (resultCount + 1) r
      return (encodedKey, key) :: l

/-- `encoded_duration_key` of `_ext_cleanup_partition`, `timeseriesdb.py:355-359`. -/
def limitDurationKeyB (env : ByteEnv) (fl : Rat → Rat) (now : Timestamp) (partitionId : Int) (limit : Limit) :
    Except PyErr (Option Bytes) :=
  match limit.duration with
  | none => .ok none
  | some duration =>
    ((tsDataDef env).encodeKey ⟨partitionId, now.add fl (-duration), ⟨0, 0, 0⟩⟩).map some

/-- `_ext_get_partition_count`, `timeseriesdb.py:294-301`. -/
def getPartitionCountB (counts : ByteTable) (partitionId : Int) : Except PyErr Int := do
  let encodedKey ← tsCountDef.encodeKey partitionId
  let value ← tsCountDef.decodeFound (Dict.get counts encodedKey)
  return value.getD 0

/-- `_ext_cleanup_partition`, `timeseriesdb.py:323-393`. -/
def cleanupPartitionB (env : ByteEnv) (fl : Rat → Rat) (sizeEntries : Rat → Option Int) (now : Timestamp)
    (partitionId : Int) (limit : Limit) (maxResults : Option Int) (data counts : ByteTable) :
    Except PyErr (List TimeseriesKey × ByteTable × ByteTable) := do
  let startKey ← (tsDataDef env).encodeKey ⟨partitionId, minTimestamp, ⟨0, 0, 0⟩⟩
  let stopKey ← (tsDataDef env).encodeKey ⟨partitionId + 1, minTimestamp, ⟨0, 0, 0⟩⟩
  let durationKey ← limitDurationKeyB env fl now partitionId limit
  let entriesCount ← getPartitionCountB counts partitionId
  let removed ← cleanupLoopB env maxResults (limit.minEntries.getD 0)
    (limitMaxEntries sizeEntries limit) durationKey stopKey entriesCount 0
    (Table.fromKey data startKey)
  let counts ← tsCountDef.write counts
    (if removed = [] then [] else [(partitionId, entriesCount - removed.length)])
  return (removed.map Prod.snd, (removed.map Prod.fst).foldl Dict.del data, counts)

/-- The loop of `TimeseriesDb.ext_cleanup`, `timeseriesdb.py:127-148`. -/
def cleanupPartitionsB (env : ByteEnv) (fl : Rat → Rat) (sizeEntries : Rat → Option Int) (now : Timestamp)
    (maxResults : Option Int) : List (Int × Partition) → List TimeseriesKey → ByteTable → ByteTable →
    Except PyErr (List TimeseriesKey × ByteTable × ByteTable)
  | [], result, data, counts => .ok (result, data, counts)
  | (partitionId, partition) :: r, result, data, counts =>
    match partition.limit with
    | none => cleanupPartitionsB env fl sizeEntries now maxResults r result data counts
    | some limit =>
      let partitionMax := maxResults.map fun n => n - (result.length : Int)
      if (match partitionMax with | some n => decide (n < 1) | none => false) then
        .ok (result, data, counts)
      else do
        let (removed, data, counts) ←
          cleanupPartitionB env fl sizeEntries now partitionId limit partitionMax data counts
        cleanupPartitionsB env fl sizeEntries now maxResults r (result ++ removed) data counts

/-! ## Reference database -/

/-- `_ext_get_event`, `refdb.py:212-230`. -/
def getEventB (env : ByteEnv) (disk : ByteDisk) (ref : EventRef) : Except PyErr (Option Event) :=
  match ref with
  | .latest key => do
    let encodedKey ← (latestDataDef env).encodeKey key
    (latestDataDef env).decodeFound (Dict.get disk.latestData encodedKey)
  | .timeseries key => do
    let encodedKey ← (tsDataDef env).encodeKey key
    (tsDataDef env).decodeFound (Dict.get disk.tsData encodedKey)

/-- The loop of `_ext_query_events`, `refdb.py:194-207`, over the entries from
the cursor on. -/
def queryRefsB (env : ByteEnv) (conf : Conf) (disk : ByteDisk) (stopKey : Bytes) :
    Int → ByteTable → Except PyErr (List Event)
  | _, [] => .ok []
  | n, (key, encodedValue) :: r =>
    if n < 1 then .ok []
    else if !bytesLt key stopKey then .ok []
    else do
      let refs ← refDef.decodeValue encodedValue
      match refs[conf.pick refs % refs.length]? with
      | none => .error (.exception "infinite loop")
      | some ref =>
        match ← getEventB env disk ref with
        | some event => do
          let l ← queryRefsB env conf disk stopKey (n - 1) r
          return event :: l
        | none => queryRefsB env conf disk stopKey n r

/-- `_ext_query_events`, `refdb.py:172-209`. -/
def extQueryEventsB (env : ByteEnv) (conf : Conf) (disk : ByteDisk) (serverId : Int) (maxResults : Int)
    (lastEventId : Option EventId) : Except PyErr (List Event) := do
  let startKey ← refDef.encodeKey (lastEventId.getD ⟨serverId, 0, 0⟩)
  let stopKey ← refDef.encodeKey ⟨serverId + 1, 0, 0⟩
  let entries :=
    match Table.fromKey disk.ref startKey with
    | (k, v) :: r => if k = startKey then r else (k, v) :: r
    | [] => []
  queryRefsB env conf disk stopKey maxResults entries

/-- `RefDb.query`, `refdb.py:64-98`. -/
def RefDb.queryB (env : ByteEnv) (conf : Conf) (disk : ByteDisk) (db : RefDb) (params : QueryServerParams) :
    Except PyErr QueryResult :=
  if wrongServer params then .error (.valueError "invalid server id")
  else do
    let maxResults := limitResults params.maxResults refMaxResults
    let events ← extQueryEventsB env conf disk params.serverId (maxResults + 1) params.lastEventId
    cutResults (withPending db.changes params maxResults events) maxResults

/-- One event of `RefDb.ext_write`, `refdb.py:115-133`. -/
def refWriteOneB (sc : ServerChanges) (t : ByteTable) (eventId : EventId) : Except PyErr ByteTable := do
  let encodedKey ← refDef.encodeKey eventId
  let value ← refDef.decodeFound (Dict.get t encodedKey)
  let t := Dict.del t encodedKey
  let value := refValue sc (value.getD []) eventId
  if value = [] then return t
  else do
    let encodedValue ← refDef.encodeValue value
    return Table.put t encodedKey encodedValue

/-- `RefDb.ext_write` for one server, `refdb.py:112-133`. -/
def refWriteServerB (t : ByteTable) (sc : ServerChanges) : Except PyErr ByteTable :=
  (toSet (Dict.keys sc.added ++ Dict.keys sc.removed)).foldlM (refWriteOneB sc) t

/-- `RefDb.ext_write`, `refdb.py:105-133`. -/
def refWriteB (changes : RefChanges) (disk : ByteDisk) : Except PyErr ByteDisk := do
  let t ← (changes.map Prod.snd).foldlM refWriteServerB disk.ref
  return { disk with ref := t }

/-- `RefDb.ext_cleanup`, `refdb.py:135-155`. -/
def refCleanupB : ByteTable → List TimeseriesKey → Except PyErr ByteTable
  | t, [] => .ok t
  | t, key :: r => do
    let encodedKey ← refDef.encodeKey key.id
    let value ← refDef.decodeFound (Dict.get t encodedKey)
    let t := Dict.del t encodedKey
    match value with
    | none => refCleanupB t r
    | some value =>
      let value := value.filter (· ≠ .timeseries key)
      if value = [] then refCleanupB t r
      else do
        let encodedValue ← refDef.encodeValue value
        refCleanupB (Table.put t encodedKey encodedValue) r

/-! ## Backend -/

/-- `_ext_create_dbs`, `backend.py:108-123`, one transaction; the reads are those of
`systemdb.py:25-31`, `latestdb.py:31-40`. -/
def createDbsB (env : ByteEnv) (conf : Conf) (disk : ByteDisk) : Except PyErr (ByteDisk × Mem) := do
  let settings ← validateSettingsB env disk.settings backendVersion conf.identifier
  let lastEventIds ← lastEventIdDef.read disk.lastEventId
  let lastTimestamps ← lastTimestampDef.read disk.lastTimestamp
  let latestType ← (latestTypeDef env).read disk.latestType
  let latestData ← (latestDataDef env).read disk.latestData
  let parts ← initPartitionsB env disk.tsPartition conf.partitions
  return ({ disk with settings := settings, tsPartition := parts.table },
    { system := ⟨lastEventIds, lastTimestamps, ⟨[], []⟩⟩
      latest := LatestDb.create conf
        { Disk.empty with latestType := latestType, latestData := latestData }
      timeseries := ⟨parts.result, []⟩
      ref := ⟨[], []⟩
      registered := [] })

/-- `LmdbBackend.query`, `backend.py:196-211`. -/
def Mem.queryB (env : ByteEnv) (conf : Conf) (disk : ByteDisk) (m : Mem) : QueryParams → Except PyErr QueryResult
  | .latest eventTypes => m.latest.query conf eventTypes
  | .timeseries params => m.timeseries.queryB env conf disk params
  | .server params => m.ref.queryB env conf disk params

/-- `_ext_flush`, `backend.py:318-323`, one transaction. -/
def extFlushB (env : ByteEnv) (disk : ByteDisk) (changes : Changes) : Except PyErr ByteDisk := do
  let disk ← systemWriteB changes.system disk
  let disk ← latestWriteB env changes.latest disk
  let disk ← timeseriesWriteB env changes.timeseries disk
  refWriteB changes.ref disk

/-- `_ext_cleanup`, `backend.py:326-334`, one transaction. -/
def extCleanupB (env : ByteEnv) (fl : Rat → Rat) (sizeEntries : Rat → Option Int) (now : Timestamp)
    (partitions : Dict Int Partition) (disk : ByteDisk) : Except PyErr (ByteDisk × Bool) := do
  let (removed, data, counts) ← cleanupPartitionsB env fl sizeEntries now (some cleanupMaxResults)
    partitions [] disk.tsData disk.tsCount
  if removed = [] then return (disk, false)
  else do
    let ref ← refCleanupB disk.ref removed
    return ({ disk with tsData := data, tsCount := counts, ref := ref },
      decide ((removed.length : Int) ≥ cleanupMaxResults))

/-- The backend and its database file, as `Backend`. -/
structure ByteBackend where
  disk : ByteDisk
  conf : Conf
  mem : Option Mem
  flushedCb : List (List Event)

/-- Effect of an action, as `Backend.step` (`backend.py:50-105,140-194,257-315`). -/
def ByteBackend.step (env : ByteEnv) (b : ByteBackend) : BackendOp → ByteBackend
  | .register events =>
    match b.mem with
    | none => b
    | some m =>
      match m.register b.conf events with
      | .ok m => { b with mem := some m }
      | .error _ => { b with mem := none }
  | .touch partitionId =>
    match b.mem with
    | none => b
    | some m =>
      let ts := m.timeseries
      let changes := Dict.set ts.changes partitionId ((Dict.get ts.changes partitionId).getD [])
      { b with mem := some { m with timeseries := { ts with changes := changes } } }
  | .flush =>
    match b.mem with
    | none => b
    | some m =>
      let (changes, m') := m.createChanges
      match extFlushB env b.disk changes with
      | .ok disk =>
        { b with
          disk := disk
          mem := some { m' with registered := [] }
          flushedCb := b.flushedCb ++ m.registered }
      | .error _ => { b with mem := none }
  | .cleanup fl sizeEntries now =>
    match b.mem with
    | none => b
    | some m =>
      match extCleanupB env fl sizeEntries now m.timeseries.partitions b.disk with
      | .ok (disk, _) => { b with disk := disk }
      | .error _ => { b with mem := none }
  | .reopen conf =>
    match createDbsB env conf b.disk with
    | .ok (disk, m) => { b with disk := disk, conf := conf, mem := some m }
    | .error _ => { b with conf := conf, mem := none }

/-- `LmdbBackend.query`, `backend.py:196-211`. -/
def ByteBackend.query (env : ByteEnv) (b : ByteBackend) (params : QueryParams) : Except PyErr QueryResult :=
  match b.mem with
  | none => .error (.exception "backend closed")
  | some m => m.queryB env b.conf b.disk params

/-- A history of actions. -/
def ByteBackend.run (env : ByteEnv) (b : ByteBackend) (ops : List BackendOp) : ByteBackend :=
  ops.foldl (ByteBackend.step env) b

/-- A backend that has not been created yet, on a new file. -/
def ByteBackend.new (conf : Conf) : ByteBackend := ⟨.empty, conf, none, []⟩

end HatEvent
