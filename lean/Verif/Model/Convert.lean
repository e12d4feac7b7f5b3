import Verif.Model.Lmdb

/-!
# Database converters

Models `backends/lmdb/convert/*.py`.

* Files are given by their decoded entries in the order of their keys; an entry that cannot be decoded is not modelled.
* `Timestamp`, `EventId`, ordered keys and references of version 0.7 have the fields and encodings of version 0.9
  (`v07.py:22-25,45-47,79-84,98` and `backends/lmdb/common.py`), so the types of version 0.9 are used.
* `get_version` (`version.py:25-55`) is represented by the kind of file.  Files and their names
  (`main.py:28-83`) are modelled in `ConvertFiles.lean`.
* Errors of a conversion step end the conversion.
-/

namespace HatEvent

/-- `SbsData`, `v06.py:27-30`, `v07.py:34-37`. -/
structure SbsData where
  module_ : Option String
  type : String
  data : List UInt8
  deriving DecidableEq, Repr

/-- `EventPayload` of versions 0.6 and 0.7, `v06.py:16-19,33-35`, `v07.py:28-31,40-42`. -/
inductive OldPayload where
  | binary (data : List UInt8)
  | json (data : Json)
  | sbs (data : SbsData)

/-! ## Version 0.6 -/

/-- `EventId`, `v06.py:22-24`. -/
structure EventId06 where
  server : Int
  instance_ : Int
  deriving DecidableEq, Repr

/-- `Event`, `v06.py:43-48`. -/
structure Event06 where
  id : EventId06
  type : EventType
  timestamp : Timestamp
  sourceTimestamp : Option Timestamp
  payload : Option OldPayload

/-- Key of ordered data, `v06.py:68-71`. -/
structure OrderedKey06 where
  partition : Int
  timestamp : Timestamp
  instance_ : Int
  deriving DecidableEq, Repr

/-- Stored description of a partition in versions 0.6 and 0.7: JSON with the number of `OrderBy` (`v07.py:14-16`). -/
structure OldPartitionData where
  order : Int
  subscriptions : List EventType
  deriving DecidableEq, Repr

/-- Stored as JSON (`v07.py:196-197`); the bytes are not modelled. -/
instance : Encodable OldPartitionData := ⟨fun _ => .ok []⟩

/-- The databases of version 0.6, `convert_v06_to_v07.py:11,35,80-82`.  The keys of `latest` are not used. -/
structure File06 where
  serverId : Int
  latest : List Event06
  ordered : List (OrderedKey06 × Event06)
  partition : List (Int × OldPartitionData)
  count : List (Int × Int)

/-! ## Version 0.7 -/

/-- `Event`, `v07.py:56-61`. -/
structure Event07 where
  id : EventId
  type : EventType
  timestamp : Timestamp
  sourceTimestamp : Option Timestamp
  payload : Option OldPayload

/-- `_encode_event`, `v07.py:466-468`; the bytes are not modelled. -/
instance : Encodable Event07 := ⟨fun _ => .ok []⟩

/-- `encode_system_db_value`, `v07.py:120-122`. -/
def encodeSystem07 (v : EventId × Timestamp) : Except PyErr Bytes := do
  let a ← encodeEventId v.1
  let b ← timestampToBytes v.2
  return a ++ b

instance : Encodable (EventId × Timestamp) := ⟨encodeSystem07⟩

/-- The databases of version 0.7, `v07.py:64-71`. -/
structure File07 where
  system : Table Int (EventId × Timestamp) := []
  latestData : Table Int Event07 := []
  latestType : Table Int EventType := []
  orderedData : Table TimeseriesKey Event07 := []
  orderedPartition : Table Int OldPartitionData := []
  orderedCount : Table Int Int := []
  ref : Table EventId (List EventRef) := []

/-! ## From 0.6 to 0.7 -/

/-- `_convert_event_id`, `convert_v06_to_v07.py:198-202`. -/
def convertEventId06 (serverId : Int) (id : EventId06) : EventId :=
  ⟨if id.server > 0 then id.server else serverId, id.instance_, id.instance_⟩

/-- `_convert_event`, `convert_v06_to_v07.py:187-195,205-213`. -/
def convertEvent06 (serverId : Int) (e : Event06) : Event07 :=
  ⟨convertEventId06 serverId e.id, e.type, e.timestamp, e.sourceTimestamp, e.payload⟩

/-- `_update_ref_db`, `convert_v06_to_v07.py:149-161`. -/
def updateRef07 (t : Table EventId (List EventRef)) (id : EventId) (ref : EventRef) :
    Except PyErr (Table EventId (List EventRef)) :=
  Table.write t [(id, setAdd ((Dict.get t id).getD []) ref)]

/-- The latest event so far, `convert_v06_to_v07.py:48-49,99-100`. -/
def laterEvent (latest : Option Event07) (e : Event07) : Option Event07 :=
  match latest with
  | none => some e
  | some l => if l.id.lt e.id then some e else some l

/-- The stored last identifier, `convert_v06_to_v07.py:171-173`. -/
def systemEventId (t : Table Int (EventId × Timestamp)) (serverId : Int) : EventId :=
  match Dict.get t serverId with
  | some v => v.1
  | none => ⟨serverId, 0, 0⟩

/-- `_update_system_db`, `convert_v06_to_v07.py:164-178`. -/
def updateSystem07 (t : Table Int (EventId × Timestamp)) (serverId : Int) (e : Event07) :
    Except PyErr (Table Int (EventId × Timestamp)) :=
  if (systemEventId t serverId).lt e.id then Table.write t [(serverId, (e.id, e.timestamp))]
  else do
    let _ ← encodeUint serverId
    return t

/-- `_update_system_db` if there is an event, `convert_v06_to_v07.py:72-76,116-120`. -/
def updateSystemLatest (t : Table Int (EventId × Timestamp)) (serverId : Int) :
    Option Event07 → Except PyErr (Table Int (EventId × Timestamp))
  | none => .ok t
  | some e => updateSystem07 t serverId e

/-- The loop of `_convert_latest`, `convert_v06_to_v07.py:43-70`; `next` is the event type reference. -/
def convertLatestLoop (serverId : Int) : List Event06 → Int → Option Event07 → File07 → Except PyErr (Option Event07 × File07)
  | [], _, latest, f => .ok (latest, f)
  | src :: rest, next, latest, f => do
    let e := convertEvent06 serverId src
    let latestData ← Table.write f.latestData [(next, e)]
    let latestType ← Table.write f.latestType [(next, e.type)]
    let ref ← updateRef07 f.ref e.id (.latest next)
    convertLatestLoop serverId rest (next + 1) (laterEvent latest e)
      { f with latestData := latestData, latestType := latestType, ref := ref }

/-- `_convert_latest`, `convert_v06_to_v07.py:34-76`. -/
def convertLatest06 (serverId : Int) (src : File06) (f : File07) : Except PyErr File07 := do
  let (latest, f) ← convertLatestLoop serverId src.latest 1 none f
  let system ← updateSystemLatest f.system serverId latest
  return { f with system := system }

/-- The loop of `_convert_ordered`, `convert_v06_to_v07.py:91-114`. -/
def convertOrderedLoop (serverId : Int) : List (OrderedKey06 × Event06) → Option Event07 → File07 →
    Except PyErr (Option Event07 × File07)
  | [], latest, f => .ok (latest, f)
  | (k, src) :: rest, latest, f => do
    let e := convertEvent06 serverId src
    let key : TimeseriesKey := ⟨k.partition, k.timestamp, e.id⟩
    let orderedData ← Table.write f.orderedData [(key, e)]
    let ref ← updateRef07 f.ref e.id (.timeseries key)
    convertOrderedLoop serverId rest (laterEvent latest e) { f with orderedData := orderedData, ref := ref }

/-- `_convert_ordered`, `convert_v06_to_v07.py:79-146`. -/
def convertOrdered06 (serverId : Int) (src : File06) (f : File07) : Except PyErr File07 := do
  let (latest, f) ← convertOrderedLoop serverId src.ordered none f
  let system ← updateSystemLatest f.system serverId latest
  let orderedPartition ← Table.write f.orderedPartition src.partition
  let orderedCount ← Table.write f.orderedCount src.count
  return { f with system := system, orderedPartition := orderedPartition, orderedCount := orderedCount }

/-- The server id used, `convert_v06_to_v07.py:12-15`. -/
def File06.server (src : File06) : Int := if src.serverId < 1 then 1 else src.serverId

/-- `convert`, `convert_v06_to_v07.py:8-31`. -/
def convert06 (src : File06) : Except PyErr File07 := do
  let f ← convertLatest06 src.server src {}
  convertOrdered06 src.server src f

/-! ## From 0.7 to 0.9 -/

/-- The name of SBS data, `convert_v07_to_v09.py:157-159`. -/
def SbsData.name (d : SbsData) : String :=
  match d.module_ with
  | some m => m ++ "." ++ d.type
  | none => d.type

/-- `_convert_payload`, `convert_v07_to_v09.py:145-163`. -/
def convertPayload07 : Option OldPayload → Option Payload
  | none => none
  | some (.binary data) => some (.binary "" data)
  | some (.json data) => some (.json data)
  | some (.sbs d) => some (.binary d.name d.data)

/-- `_convert_event`, `convert_v07_to_v09.py:111-116,135-142`. -/
def convertEvent07 (e : Event07) : Event := ⟨e.id, e.type, e.timestamp, e.sourceTimestamp, convertPayload07 e.payload⟩

/-- `_convert_partition_data`, `convert_v07_to_v09.py:166-175`. -/
def convertPartitionData (d : OldPartitionData) : Except PyErr PartitionData :=
  if d.order = 1 then .ok ⟨.timestamp, d.subscriptions⟩
  else if d.order = 2 then .ok ⟨.sourceTimestamp, d.subscriptions⟩
  else .error (.valueError "not a valid OrderBy")

/-- The loop over partitions, `convert_v07_to_v09.py:91-100`. -/
def convertPartitions : List (Int × OldPartitionData) → Table Int PartitionData → Except PyErr (Table Int PartitionData)
  | [], t => .ok t
  | (k, d) :: rest, t => do
    let d ← convertPartitionData d
    let t ← Table.write t [(k, d)]
    convertPartitions rest t

/-- `convert`, `convert_v07_to_v09.py:7-21`, with its parts (l.24-108).  References keep their keys (l.119-132); a set
of references is a list.  All in one transaction. -/
def convert07 (src : File07) : Except PyErr Disk := do
  let lastEventId ← Table.write [] (src.system.map fun p => (p.1, p.2.1))
  let lastTimestamp ← Table.write [] (src.system.map fun p => (p.1, p.2.2))
  let ref ← Table.write [] src.ref
  let latestData ← Table.write [] (src.latestData.map fun p => (p.1, convertEvent07 p.2))
  let latestType ← Table.write [] src.latestType
  let tsData ← Table.write [] (src.orderedData.map fun p => (p.1, convertEvent07 p.2))
  let tsPartition ← convertPartitions src.orderedPartition []
  let tsCount ← Table.write [] src.orderedCount
  return ⟨[(.version, "0.9")], lastEventId, lastTimestamp, ref, latestData, latestType, tsData, tsPartition, tsCount⟩

/-! ## Main -/

/-- A database of one of the versions, `version.py:19-22`. -/
inductive AnyFile where
  | v06 (f : File06)
  | v07 (f : File07)
  | v09 (d : Disk)

/-- `convert`, `main.py:52-83`. -/
def convertFile : AnyFile → Except PyErr Disk
  | .v09 _ => .error (.exception "already up to date")
  | .v07 f => convert07 f
  | .v06 f => do
    let f ← convert06 f
    convert07 f

end HatEvent
