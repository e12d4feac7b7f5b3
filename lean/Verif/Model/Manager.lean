import Verif.Model.Lmdb

/-!
# LMDB manager

Models `backends/lmdb/manager/{common,copy,query}.py`.

* Command line parsing is not modelled; event types are given as tuples (`query.py:64,74` split them).
* The databases exist and their entries can be decoded.
* Printing of JSON (`query.py:84-85`) is not modelled; the printed values are kept.
-/

namespace HatEvent

/-! ## Copying -/

/-- `_copy_db`, `copy.py:90-92`: entries are put in the order of the source. -/
def copyTable {κ υ : Type} [DecidableEq κ] [DbKey κ] (src : Table κ υ) (dst : Table κ υ) : Table κ υ :=
  src.foldl (fun t p => t.put p.1 p.2) dst

/-- `_copy_db` of the settings, `copy.py:90-92`. -/
def copySettings (src dst : Dict SettingsId String) : Dict SettingsId String :=
  src.foldl (fun t p => Dict.set t p.1 p.2) dst

/-- `isinstance(event_ref, common.LatestEventRef)`, `copy.py:62`. -/
def EventRef.isLatest : EventRef → Bool
  | .latest _ => true
  | .timeseries _ => false

/-- The references that stay, `copy.py:57-69`. -/
def keptRefs (skipLatest skipTimeseries : Bool) (refs : List EventRef) : List EventRef :=
  let refs := if skipLatest then refs.filter fun r => !r.isLatest else refs
  if skipTimeseries then refs.filter fun r => r.isLatest else refs

/-- `_copy_ref`, `copy.py:47-74`. -/
def copyRef (skipLatest skipTimeseries : Bool) : Table EventId (List EventRef) → Table EventId (List EventRef) →
    Except PyErr (Table EventId (List EventRef))
  | [], dst => .ok dst
  | (key, refs) :: src, dst =>
    if !skipLatest && !skipTimeseries then copyRef skipLatest skipTimeseries src (dst.put key refs)
    else if (keptRefs skipLatest skipTimeseries refs).isEmpty then copyRef skipLatest skipTimeseries src dst
    else do
      let _ ← encodeEventRefs (keptRefs skipLatest skipTimeseries refs)
      copyRef skipLatest skipTimeseries src (dst.put key (keptRefs skipLatest skipTimeseries refs))

/-- `copy`, `copy.py:16-37`.  All in one transaction: an error leaves no databases. -/
def copyDisk (dstExists skipLatest skipTimeseries : Bool) (src : Disk) : Except PyErr Disk :=
  if dstExists then .error (.exception "destination db already exists")
  else do
    let ref ← copyRef skipLatest skipTimeseries src.ref []
    return {
      settings := copySettings src.settings []
      lastEventId := copyTable src.lastEventId []
      lastTimestamp := copyTable src.lastTimestamp []
      ref := ref
      latestData := if skipLatest then [] else copyTable src.latestData []
      latestType := if skipLatest then [] else copyTable src.latestType []
      tsData := if skipTimeseries then [] else copyTable src.tsData []
      tsPartition := if skipTimeseries then [] else copyTable src.tsPartition []
      tsCount := if skipTimeseries then [] else copyTable src.tsCount [] }

/-! ## Queries -/

/-- `event_id_to_json`, `backends/lmdb/manager/common.py:12-15`. -/
def eventIdToJson (id : EventId) : Json :=
  .obj [("server", .int id.server), ("session", .int id.session), ("instance", .int id.instance_)]

/-- `timestamp_to_json`, `backends/lmdb/manager/common.py:18-20`. -/
def timestampToJson (t : Timestamp) : Json := .obj [("s", .int t.s), ("us", .int t.us)]

/-- A hexadecimal digit of `bytes.hex`, `backends/lmdb/manager/common.py:39`. -/
def hexDigit (n : Nat) : Char := if n < 10 then Char.ofNat (48 + n) else Char.ofNat (87 + n)

/-- `bytes(data).hex()`, `backends/lmdb/manager/common.py:39`. -/
def hexChars : List UInt8 → List Char
  | [] => []
  | b :: r => hexDigit (b.toNat / 16) :: hexDigit (b.toNat % 16) :: hexChars r

/-- `_event_payload_to_json`, `backends/lmdb/manager/common.py:32-45`. -/
def payloadToJson : Option Payload → Json
  | none => .null
  | some (.binary type data) =>
    .obj [("type", .str "BINARY"), ("subtype", .str type), ("data", .str (String.ofList (hexChars data)))]
  | some (.json data) => .obj [("type", .str "JSON"), ("data", data)]

/-- The source timestamp in `event_to_json`, `backends/lmdb/manager/common.py:27-28`. -/
def sourceTimestampToJson : Option Timestamp → Json
  | none => .null
  | some t => timestampToJson t

/-- `event_to_json`, `backends/lmdb/manager/common.py:23-29`. -/
def eventToJson (e : Event) : Json :=
  .obj [("id", eventIdToJson e.id), ("type", .arr (e.type.map .str)), ("timestamp", timestampToJson e.timestamp),
    ("source_timestamp", sourceTimestampToJson e.sourceTimestamp), ("payload", payloadToJson e.payload)]

/-- The subactions of `query`, `query.py:9-38`. -/
inductive ManagerQuery where
  | settings
  | lastEventId (serverId : Option Int)
  | lastTimestamp (serverId : Option Int)
  | ref (serverId : Option Int)
  | latest (eventTypes : Option (List EventType))
  | partition (partitionId : Option Int)
  | timeseries (partitionId serverId : Option Int) (eventTypes : Option (List EventType))

/-- What a query prints, and the exception that ends it. -/
structure Printed where
  results : List Json
  error : Option PyErr := none

/-- `x is not None and x != y` is false. -/
def wanted (x : Option Int) (y : Int) : Bool := x.isNone || x == some y

/-- `SettingsId.name`, `query.py:97`. -/
def SettingsId.name : SettingsId → String
  | .version => "VERSION"
  | .identifier => "IDENTIFIER"

/-- `_query_settings`, `query.py:88-98`. -/
def querySettings (d : Disk) : List Json :=
  d.settings.map fun p => .obj [("settings_id", .str p.1.name), ("data", .str p.2)]

/-- `_query_last_event_id`, `query.py:101-112`. -/
def queryLastEventId (d : Disk) (serverId : Option Int) : List Json :=
  (d.lastEventId.filter fun p => wanted serverId p.1).map fun p => eventIdToJson p.2

/-- `_query_last_timestamp`, `query.py:115-126`. -/
def queryLastTimestamp (d : Disk) (serverId : Option Int) : List Json :=
  (d.lastTimestamp.filter fun p => wanted serverId p.1).map fun p => timestampToJson p.2

/-- A reference in `_query_ref`, `query.py:145-160`: `DbDef` has no attribute `encoded_key` (l.147).  A set has no order; the order of the list is used. -/
def printRefs (id : EventId) : List EventRef → Printed
  | [] => ⟨[], none⟩
  | .latest _ :: _ => ⟨[], some .attributeError⟩
  | .timeseries key :: refs =>
    ⟨.obj [("event_id", eventIdToJson id), ("ref_type", .str "timeseries"), ("partition_id", .int key.partition),
      ("timestamp", timestampToJson key.timestamp)] :: (printRefs id refs).results, (printRefs id refs).error⟩

/-- `_query_ref` for all servers, `query.py:129-160`. -/
def printAllRefs : Table EventId (List EventRef) → Printed
  | [] => ⟨[], none⟩
  | (id, refs) :: t =>
    match (printRefs id refs).error with
    | some err => ⟨(printRefs id refs).results, some err⟩
    | none => ⟨(printRefs id refs).results ++ (printAllRefs t).results, (printAllRefs t).error⟩

/-- The subaction `latest`, `query.py:63-67`: calls `_query_ref` with event types as server id, so with event types every event id differs (l.140). -/
def queryLatestAction (d : Disk) : Option (List EventType) → Printed
  | none => printAllRefs d.ref
  | some _ => ⟨[], none⟩

/-- `OrderBy.value`, `common/common.py:72-74`. -/
def OrderBy.text : OrderBy → String
  | .timestamp => "timestamp"
  | .sourceTimestamp => "sourceTimestamp"

/-- JSON of a partition, `timeseriesdb.py:214-215`. -/
def partitionDataToJson (p : PartitionData) : Json :=
  .obj [("order", .str p.order.text), ("subscriptions", .arr (p.subscriptions.map fun t => .arr (t.map .str)))]

/-- `_query_partition`, `query.py:179-191`. -/
def queryPartitionAction (d : Disk) (partitionId : Option Int) : List Json :=
  (d.tsPartition.filter fun p => wanted partitionId p.1).map fun p =>
    .obj [("partition_id", .int p.1), ("data", partitionDataToJson p.2)]

/-- `_query_timeseries`, `query.py:194-215`. -/
def queryTimeseriesAction (useC : Bool) (d : Disk) (partitionId serverId : Option Int) (eventTypes : Option (List EventType)) :
    Printed :=
  match createSubscription useC (eventTypes.getD [["*"]]) with
  | .error err => ⟨[], some err⟩
  | .ok subscription =>
    ⟨(d.tsData.filter fun p => wanted partitionId p.1.partition && wanted serverId p.1.id.server &&
        subscription.matches p.2.type).map fun p => eventToJson p.2, none⟩

/-- `query`, `query.py:41-81`.  The subaction `ref` calls `_query_ref` without a server id (l.60). -/
def managerQuery (useC : Bool) (d : Disk) : ManagerQuery → Printed
  | .settings => ⟨querySettings d, none⟩
  | .lastEventId serverId => ⟨queryLastEventId d serverId, none⟩
  | .lastTimestamp serverId => ⟨queryLastTimestamp d serverId, none⟩
  | .ref _ => ⟨[], some .typeError⟩
  | .latest eventTypes => queryLatestAction d eventTypes
  | .partition partitionId => ⟨queryPartitionAction d partitionId, none⟩
  | .timeseries partitionId serverId eventTypes => queryTimeseriesAction useC d partitionId serverId eventTypes

end HatEvent
