import Verif.Model.Convert
import Verif.Model.Sbs

/-!
# Encodings of old databases

Models the encodings of `backends/lmdb/convert/v06.py` and `v07.py`, and `get_version` (`convert/version.py:25-55`).

* Key and reference encodings are those of bytes.  Events are given up to the data passed to and from hat-sbs, as in
  `Model/Sbs.lean`; JSON text is a parameter.
* The types are those of `Model/Convert.lean`.
-/

namespace HatEvent

/-! ## Version 0.7 -/

/-- `_decode_uint`, `v07.py:439-440`: the value and the remaining bytes. -/
def takeUint07 (data : Bytes) : Except PyErr (Int × Bytes) := do
  let v ← decodeUint (data.take 8)
  return (v, data.drop 8)

/-- `_decode_event_id`, `v07.py:448-454`. -/
def takeEventId07 (data : Bytes) : Except PyErr (EventId × Bytes) := do
  let i ← decodeEventId (data.take 24)
  return (i, data.drop 24)

/-- `_decode_timestamp`, `v07.py:461-463`. -/
def takeTimestamp07 (data : Bytes) : Except PyErr (Timestamp × Bytes) := do
  let t ← timestampFromBytes (data.take 12)
  return (t, data.drop 12)

/-- `decode_system_db_key`, `decode_latest_data_db_key`, `decode_latest_type_db_key`, `decode_ordered_partition_db_key`,
`decode_ordered_count_db_key` and `decode_ordered_count_db_value`, `v07.py:115-117,135-137,152-154,191-193,209-211,218-220`. -/
def decodeUint07 (data : Bytes) : Except PyErr Int := do
  let (v, _) ← takeUint07 data
  return v

/-- `decode_system_db_value`, `v07.py:125-128`. -/
def decodeSystem07 (data : Bytes) : Except PyErr (EventId × Timestamp) := do
  let (i, rest) ← takeEventId07 data
  let (t, _) ← takeTimestamp07 rest
  return (i, t)

/-- `encode_ordered_data_db_key`, `v07.py:165-169`. -/
def encodeOrderedKey07 (k : TimeseriesKey) : Except PyErr Bytes := do
  let a ← encodeUint k.partition
  let b ← timestampToBytes k.timestamp
  let c ← encodeEventId k.id
  return a ++ b ++ c

/-- `decode_ordered_data_db_key`, `v07.py:172-176`. -/
def decodeOrderedKey07 (data : Bytes) : Except PyErr TimeseriesKey := do
  let (partition, rest) ← takeUint07 data
  let (timestamp, rest) ← takeTimestamp07 rest
  let (id, _) ← takeEventId07 rest
  return ⟨partition, timestamp, id⟩

/-- `decode_ref_db_key`, `v07.py:227-229`. -/
def decodeRefKey07 (data : Bytes) : Except PyErr EventId := do
  let (i, _) ← takeEventId07 data
  return i

/-- `_encode_event_ref`, `v07.py:484-494` (`DbType.LATEST_DATA` is 1, `DbType.ORDERED_DATA` is 3, l.64-71). -/
def encodeRef07 : EventRef → Except PyErr Bytes
  | .latest key => do return 1 :: (← encodeUint key)
  | .timeseries key => do return 3 :: (← encodeOrderedKey07 key)

/-- `encode_ref_db_value`, `v07.py:232-234`; the set is the list of its elements in iteration order. -/
def encodeRefs07 : List EventRef → Except PyErr Bytes
  | [] => .ok []
  | ref :: r => do
    let a ← encodeRef07 ref
    let b ← encodeRefs07 r
    return a ++ b

/-- `_decode_event_ref`, `v07.py:497-508`; the remaining bytes are given by how many bytes of `rest` are used. -/
def takeRef07 (tag : UInt8) (rest : Bytes) : Except PyErr (EventRef × Nat) :=
  if tag = 1 then do return (.latest (← decodeUint07 (rest.take 8)), 8)
  else if tag = 3 then do return (.timeseries (← decodeOrderedKey07 (rest.take 44)), 44)
  else .error (.valueError "unsupported database type")

/-- `decode_ref_db_value`, `v07.py:237-242`; the set is the list of what is added to it. -/
def decodeRefs07 (data : Bytes) : Except PyErr (List EventRef) :=
  match data with
  | [] => .ok []
  | tag :: rest => do
    let p ← takeRef07 tag rest
    let r ← decodeRefs07 (rest.drop p.2)
    return p.1 :: r
termination_by data.length
decreasing_by simp_wf; omega

/-- `_sbs_data_to_sbs`, `v07.py:415-418`. -/
def sbsDataToSbs (d : SbsData) : Sbs :=
  .record [("module", optionalToSbs .str d.module_), ("type", .str d.type), ("data", .bytes d.data)]

/-- `_sbs_data_from_sbs`, `v07.py:421-424`; also `v06.py:207-210`. -/
def sbsDataFromSbs (data : Sbs) : Except PyErr SbsData := do
  let module_ ← optionalFromSbs Sbs.asStr (← data.field "module")
  let type ← (← data.field "type").asStr
  let bytes ← (← data.field "data").asBytes
  return ⟨module_, type, bytes⟩

/-- `_event_payload_to_sbs`, `v07.py:384-394`. -/
def oldPayloadToSbs (jc : JsonCodec) : OldPayload → Sbs
  | .binary data => .choice "binary" (.bytes data)
  | .json data => .choice "json" (.str (jc.encode data))
  | .sbs data => .choice "sbs" (sbsDataToSbs data)

/-- `_event_payload_from_sbs`, `v07.py:397-412`; also `v06.py:180-195`. -/
def oldPayloadFromSbs (jc : JsonCodec) (data : Sbs) : Except PyErr OldPayload := do
  let (n, v) ← data.asChoice
  if n = "binary" then return .binary (← v.asBytes)
  else if n = "json" then return .json (← jc.decode (← v.asStr))
  else if n = "sbs" then return .sbs (← sbsDataFromSbs v)
  else throw (.valueError "unsupported payload type")

/-- `_event_to_sbs`, `v07.py:344-351`. -/
def eventToSbs07 (jc : JsonCodec) (event : Event07) : Sbs :=
  .record [("id", eventIdToSbs event.id),
    ("type", eventTypeToSbs event.type),
    ("timestamp", timestampToSbs event.timestamp),
    ("sourceTimestamp", optionalToSbs timestampToSbs event.sourceTimestamp),
    ("payload", optionalToSbs (oldPayloadToSbs jc) event.payload)]

/-- `_event_from_sbs`, `v07.py:354-361`. -/
def eventFromSbs07 (jc : JsonCodec) (data : Sbs) : Except PyErr Event07 := do
  let id ← eventIdFromSbs (← data.field "id")
  let type ← eventTypeFromSbs (← data.field "type")
  let timestamp ← timestampFromSbs (← data.field "timestamp")
  let sourceTimestamp ← optionalFromSbs timestampFromSbs (← data.field "sourceTimestamp")
  let payload ← optionalFromSbs (oldPayloadFromSbs jc) (← data.field "payload")
  return ⟨id, type, timestamp, sourceTimestamp, payload⟩

/-- `EventPayload` of the schema, `v07.py:303-311`; also `v06.py:130-138`. -/
def Schema.oldPayload : SbsType :=
  .choice [("binary", .bytes), ("json", .string),
    ("sbs", .record [("module", SbsType.string.optional), ("type", .string), ("data", .bytes)])]

/-- `Event` of the schema, `v07.py:313-319`. -/
def Schema.event07 : SbsType :=
  .record [("id", Schema.eventId), ("type", Schema.eventType), ("timestamp", Schema.timestamp),
    ("sourceTimestamp", Schema.timestamp.optional), ("payload", Schema.oldPayload.optional)]

/-! ## Version 0.6 -/

/-- `decode_uint_timestamp_uint`, `v06.py:68-71`. -/
def decodeOrderedKey06 (data : Bytes) : Except PyErr OrderedKey06 := do
  match ← unpack [8, 8, 4, 8] data with
  | [partition, s, us, instance_] => return ⟨partition, ⟨s - 2 ^ 63, us⟩, instance_⟩
  | _ => throw .structError

/-- `_event_id_from_sbs`, `v06.py:202-204`. -/
def eventIdFromSbs06 (data : Sbs) : Except PyErr EventId06 := do
  return ⟨← (← data.field "server").asInt, ← (← data.field "instance").asInt⟩

/-- `_event_from_sbs`, `v06.py:170-177`. -/
def eventFromSbs06 (jc : JsonCodec) (data : Sbs) : Except PyErr Event06 := do
  let id ← eventIdFromSbs06 (← data.field "id")
  let type ← eventTypeFromSbs (← data.field "type")
  let timestamp ← timestampFromSbs (← data.field "timestamp")
  let sourceTimestamp ← optionalFromSbs timestampFromSbs (← data.field "sourceTimestamp")
  let payload ← optionalFromSbs (oldPayloadFromSbs jc) (← data.field "payload")
  return ⟨id, type, timestamp, sourceTimestamp, payload⟩

/-- `EventId` of the schema, `v06.py:113-116`. -/
def Schema.eventId06 : SbsType := .record [("server", .integer), ("instance", .integer)]

/-- `Event` of the schema, `v06.py:140-146`. -/
def Schema.event06 : SbsType :=
  .record [("id", Schema.eventId06), ("type", Schema.eventType), ("timestamp", Schema.timestamp),
    ("sourceTimestamp", Schema.timestamp.optional), ("payload", Schema.oldPayload.optional)]

/-! ## Version of a file -/

/-- `Version`, `version.py:19-22`. -/
inductive Version where
  | v06 | v07 | v09
  deriving DecidableEq, Repr

/-- An LMDB file: named databases, each with its entries. -/
abbrev RawFile := Dict String (Dict Bytes Bytes)

/-- `Version(value)`, `version.py:19-22,38`. -/
def versionOf : Json → Option Version
  | .str s => if s = "0.6" then some .v06 else if s = "0.7" then some .v07 else if s = "0.9" then some .v09 else none
  | _ => none

/-- The names of the databases of 0.7, `version.py:41-43`. -/
def names07 : List String :=
  ["SYSTEM", "LATEST_DATA", "LATEST_TYPE", "ORDERED_DATA", "ORDERED_PARTITION", "ORDERED_COUNT", "REF"]

/-- The names of the databases of 0.6, `version.py:49-50`. -/
def names06 : List String := ["system", "latest", "ordered_data", "ordered_partition", "ordered_count"]

/-- The version in the settings, `version.py:31-38`: nothing if there is any exception.  `readJson` is `_decode_json`
(l.62-63). -/
def storedVersion (readJson : Bytes → Except PyErr Json) (f : RawFile) : Option Version :=
  match Dict.get f "SYSTEM_SETTINGS", encodeUint 0 with
  | some db, .ok key =>
    match Dict.get db key with
    | some value =>
      match readJson value with
      | .ok data => versionOf data
      | .error _ => none
    | none => none
  | _, _ => none

/-- `get_version`, `version.py:25-55`. -/
def getVersion (readJson : Bytes → Except PyErr Json) (f : RawFile) : Except PyErr Version :=
  match storedVersion readJson f with
  | some v => .ok v
  | none =>
    if names07.all (Dict.has f) then .ok .v07
    else if names06.all (Dict.has f) then .ok .v06
    else .error (.exception "unsupported version")

end HatEvent
