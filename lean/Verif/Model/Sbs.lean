import Verif.Model.Event

/-!
# SBS conversions

Models `common/encoder.py:118-305` and the message schema
`schemas_sbs/eventer.sbs`.  `Sbs` is the data passed to and from hat-sbs (whose
byte serialisation is not modelled).  The JSON text codec (hat-json) is a
parameter.
-/

namespace HatEvent

/-- `sbs.Data`: `None`, booleans, integers, strings, bytes, lists, dicts
(records) and `(name, value)` pairs (choices). -/
inductive Sbs where
  | none
  | bool (b : Bool)
  | int (n : Int)
  | str (s : String)
  | bytes (b : List UInt8)
  | array (l : List Sbs)
  | record (fields : List (String × Sbs))
  | choice (name : String) (value : Sbs)
  deriving Repr

/-- JSON text codec: `json.encode` and `json.decode` of hat-json. -/
structure JsonCodec where
  encode : Json → String
  decode : String → Except PyErr Json

/-- `data[name]` of a dict. -/
def Sbs.field (name : String) : Sbs → Except PyErr Sbs
  | .record fields =>
    match Dict.get fields name with
    | some v => .ok v
    | .none => .error .keyError
  | _ => .error .typeError

/-- An integer (Python does not check; anything else is reported here). -/
def Sbs.asInt : Sbs → Except PyErr Int
  | .int n => .ok n
  | _ => .error .typeError

/-- A string (not checked by Python; anything else is reported here). -/
def Sbs.asStr : Sbs → Except PyErr String
  | .str s => .ok s
  | _ => .error .typeError

/-- Bytes (not checked by Python; anything else is reported here). -/
def Sbs.asBytes : Sbs → Except PyErr (List UInt8)
  | .bytes b => .ok b
  | _ => .error .typeError

/-- A boolean (not checked by Python; anything else is reported here). -/
def Sbs.asBool : Sbs → Except PyErr Bool
  | .bool b => .ok b
  | _ => .error .typeError

/-- The elements of a list. -/
def Sbs.asList : Sbs → Except PyErr (List Sbs)
  | .array l => .ok l
  | _ => .error .typeError

/-- `data[0], data[1]` of a pair. -/
def Sbs.asChoice : Sbs → Except PyErr (String × Sbs)
  | .choice n v => .ok (n, v)
  | _ => .error .typeError

/-- List comprehension with a function that can raise. -/
def mapE {α β : Type} (f : α → Except PyErr β) : List α → Except PyErr (List β)
  | [] => .ok []
  | a :: l => do
    let b ← f a
    let r ← mapE f l
    return b :: r

/-- `_optional_to_sbs`, `common/encoder.py:300-301`. -/
def optionalToSbs {α : Type} (fn : α → Sbs) : Option α → Sbs
  | some v => .choice "value" (fn v)
  | .none => .choice "none" .none

/-- `_optional_from_sbs`, `common/encoder.py:304-305`. -/
def optionalFromSbs {α : Type} (fn : Sbs → Except PyErr α) (data : Sbs) : Except PyErr (Option α) := do
  let (n, v) ← data.asChoice
  if n = "value" then return some (← fn v) else return none

/-- `timestamp_to_sbs`, `common/encoder.py:118-120`. -/
def timestampToSbs (t : Timestamp) : Sbs := .record [("s", .int t.s), ("us", .int t.us)]

/-- `timestamp_from_sbs`, `common/encoder.py:123-125`. -/
def timestampFromSbs (data : Sbs) : Except PyErr Timestamp := do
  return ⟨← (← data.field "s").asInt, ← (← data.field "us").asInt⟩

/-- Values of the `Status` enum, `common/common.py:60-64`. -/
def Status.value : Status → String
  | .standby => "standby"
  | .starting => "starting"
  | .operational => "operational"
  | .stopping => "stopping"

/-- `status_to_sbs`, `common/encoder.py:128-130`. -/
def statusToSbs (status : Status) : Sbs := .choice status.value .none

/-- `status_from_sbs`, `common/encoder.py:133-135`. -/
def statusFromSbs (data : Sbs) : Except PyErr Status := do
  let (n, _) ← data.asChoice
  if n = "standby" then return .standby
  else if n = "starting" then return .starting
  else if n = "operational" then return .operational
  else if n = "stopping" then return .stopping
  else throw (.valueError "not a valid Status")

/-- `_event_id_to_sbs`, `common/encoder.py:280-283`. -/
def eventIdToSbs (i : EventId) : Sbs :=
  .record [("server", .int i.server), ("session", .int i.session), ("instance", .int i.instance_)]

/-- `_event_id_from_sbs`, `common/encoder.py:286-289`. -/
def eventIdFromSbs (data : Sbs) : Except PyErr EventId := do
  return ⟨← (← data.field "server").asInt, ← (← data.field "session").asInt,
    ← (← data.field "instance").asInt⟩

/-- `list(event_type)`. -/
def eventTypeToSbs (t : EventType) : Sbs := .array (t.map .str)

/-- `tuple(data)`. -/
def eventTypeFromSbs (data : Sbs) : Except PyErr EventType := do
  mapE Sbs.asStr (← data.asList)

/-- `event_payload_to_sbs`, `common/encoder.py:256-265`. -/
def payloadToSbs (jc : JsonCodec) : Payload → Sbs
  | .binary type data => .choice "binary" (.record [("type", .str type), ("data", .bytes data)])
  | .json data => .choice "json" (.str (jc.encode data))

/-- `event_payload_from_sbs`, `common/encoder.py:268-277`. -/
def payloadFromSbs (jc : JsonCodec) (data : Sbs) : Except PyErr Payload := do
  let (n, v) ← data.asChoice
  if n = "binary" then return .binary (← (← v.field "type").asStr) (← (← v.field "data").asBytes)
  else if n = "json" then return .json (← jc.decode (← v.asStr))
  else throw (.valueError "unsupported payload type")

/-- `event_to_sbs`, `common/encoder.py:138-145`. -/
def eventToSbs (jc : JsonCodec) (event : Event) : Sbs :=
  .record [("id", eventIdToSbs event.id),
    ("type", eventTypeToSbs event.type),
    ("timestamp", timestampToSbs event.timestamp),
    ("sourceTimestamp", optionalToSbs timestampToSbs event.sourceTimestamp),
    ("payload", optionalToSbs (payloadToSbs jc) event.payload)]

/-- `event_from_sbs`, `common/encoder.py:148-156`. -/
def eventFromSbs (jc : JsonCodec) (data : Sbs) : Except PyErr Event := do
  let id ← eventIdFromSbs (← data.field "id")
  let type ← eventTypeFromSbs (← data.field "type")
  let timestamp ← timestampFromSbs (← data.field "timestamp")
  let sourceTimestamp ← optionalFromSbs timestampFromSbs (← data.field "sourceTimestamp")
  let payload ← optionalFromSbs (payloadFromSbs jc) (← data.field "payload")
  return ⟨id, type, timestamp, sourceTimestamp, payload⟩

/-- `register_event_to_sbs`, `common/encoder.py:159-164`. -/
def registerEventToSbs (jc : JsonCodec) (event : RegisterEvent) : Sbs :=
  .record [("type", eventTypeToSbs event.type),
    ("sourceTimestamp", optionalToSbs timestampToSbs event.sourceTimestamp),
    ("payload", optionalToSbs (payloadToSbs jc) event.payload)]

/-- `register_event_from_sbs`, `common/encoder.py:167-173`. -/
def registerEventFromSbs (jc : JsonCodec) (data : Sbs) : Except PyErr RegisterEvent := do
  let type ← eventTypeFromSbs (← data.field "type")
  let sourceTimestamp ← optionalFromSbs timestampFromSbs (← data.field "sourceTimestamp")
  let payload ← optionalFromSbs (payloadFromSbs jc) (← data.field "payload")
  return ⟨type, sourceTimestamp, payload⟩

/-- `_event_types_to_sbs`, `common/encoder.py:292-293`. -/
def eventTypesToSbs (l : List EventType) : Sbs := .array (l.map eventTypeToSbs)

/-- `_event_types_from_sbs`, `common/encoder.py:296-297`. -/
def eventTypesFromSbs (data : Sbs) : Except PyErr (List EventType) := do
  mapE eventTypeFromSbs (← data.asList)

/-- `params.order.value`, `common/common.py:67-69`. -/
def Order.value : Order → String
  | .descending => "descending"
  | .ascending => "ascending"

/-- `Order(name)`, `common/common.py:67-69`. -/
def orderOf (n : String) : Except PyErr Order :=
  if n = "descending" then .ok .descending
  else if n = "ascending" then .ok .ascending
  else .error (.valueError "not a valid Order")

/-- `params.order_by.value`, `common/common.py:72-74`. -/
def OrderBy.value : OrderBy → String
  | .timestamp => "timestamp"
  | .sourceTimestamp => "sourceTimestamp"

/-- `OrderBy(name)`, `common/common.py:72-74`. -/
def orderByOf (n : String) : Except PyErr OrderBy :=
  if n = "timestamp" then .ok .timestamp
  else if n = "sourceTimestamp" then .ok .sourceTimestamp
  else .error (.valueError "not a valid OrderBy")

/-- `query_params_to_sbs`, `common/encoder.py:176-207`. -/
def queryParamsToSbs : QueryParams → Sbs
  | .latest eventTypes =>
    .choice "latest" (.record [("eventTypes", optionalToSbs eventTypesToSbs eventTypes)])
  | .timeseries params =>
    .choice "timeseries" (.record [
      ("eventTypes", optionalToSbs eventTypesToSbs params.eventTypes),
      ("tFrom", optionalToSbs timestampToSbs params.tFrom),
      ("tTo", optionalToSbs timestampToSbs params.tTo),
      ("sourceTFrom", optionalToSbs timestampToSbs params.sourceTFrom),
      ("sourceTTo", optionalToSbs timestampToSbs params.sourceTTo),
      ("order", .choice params.order.value .none),
      ("orderBy", .choice params.orderBy.value .none),
      ("maxResults", optionalToSbs .int params.maxResults),
      ("lastEventId", optionalToSbs eventIdToSbs params.lastEventId)])
  | .server params =>
    .choice "server" (.record [
      ("serverId", .int params.serverId),
      ("persisted", .bool params.persisted),
      ("maxResults", optionalToSbs .int params.maxResults),
      ("lastEventId", optionalToSbs eventIdToSbs params.lastEventId)])

/-- `query_params_from_sbs`, `common/encoder.py:210-241`. -/
def queryParamsFromSbs (data : Sbs) : Except PyErr QueryParams := do
  let (n, v) ← data.asChoice
  if n = "latest" then
    return .latest (← optionalFromSbs eventTypesFromSbs (← v.field "eventTypes"))
  else if n = "timeseries" then
    let eventTypes ← optionalFromSbs eventTypesFromSbs (← v.field "eventTypes")
    let tFrom ← optionalFromSbs timestampFromSbs (← v.field "tFrom")
    let tTo ← optionalFromSbs timestampFromSbs (← v.field "tTo")
    let sourceTFrom ← optionalFromSbs timestampFromSbs (← v.field "sourceTFrom")
    let sourceTTo ← optionalFromSbs timestampFromSbs (← v.field "sourceTTo")
    let order ← orderOf (← (← v.field "order").asChoice).1
    let orderBy ← orderByOf (← (← v.field "orderBy").asChoice).1
    let maxResults ← optionalFromSbs Sbs.asInt (← v.field "maxResults")
    let lastEventId ← optionalFromSbs eventIdFromSbs (← v.field "lastEventId")
    return .timeseries ⟨eventTypes, tFrom, tTo, sourceTFrom, sourceTTo, order, orderBy, maxResults,
      lastEventId⟩
  else if n = "server" then
    let serverId ← (← v.field "serverId").asInt
    let persisted ← (← v.field "persisted").asBool
    let maxResults ← optionalFromSbs Sbs.asInt (← v.field "maxResults")
    let lastEventId ← optionalFromSbs eventIdFromSbs (← v.field "lastEventId")
    return .server ⟨serverId, persisted, maxResults, lastEventId⟩
  else throw (.valueError "unsupported params type")

/-- `query_result_to_sbs`, `common/encoder.py:244-247`. -/
def queryResultToSbs (jc : JsonCodec) (result : QueryResult) : Sbs :=
  .record [("events", .array (result.events.map (eventToSbs jc))),
    ("moreFollows", .bool result.moreFollows)]

/-- `query_result_from_sbs`, `common/encoder.py:250-253`. -/
def queryResultFromSbs (jc : JsonCodec) (data : Sbs) : Except PyErr QueryResult := do
  let events ← mapE (eventFromSbs jc) (← (← data.field "events").asList)
  let moreFollows ← (← data.field "moreFollows").asBool
  return ⟨events, moreFollows⟩

/-! ## Schema -/

/-- SBS schema types. -/
inductive SbsType where
  | none | boolean | integer | string | bytes
  | array (t : SbsType)
  | record (fields : List (String × SbsType))
  | choice (cases : List (String × SbsType))

/-- `Optional(T)`, built into SBS. -/
def SbsType.optional (t : SbsType) : SbsType := .choice [("none", .none), ("value", t)]

/-- `Status`, `schemas_sbs/eventer.sbs:33-38`. -/
def Schema.status : SbsType :=
  .choice [("standby", .none), ("starting", .none), ("operational", .none), ("stopping", .none)]

/-- `Timestamp`, `schemas_sbs/eventer.sbs:40-43`. -/
def Schema.timestamp : SbsType := .record [("s", .integer), ("us", .integer)]

/-- `EventId`, `schemas_sbs/eventer.sbs:45-49`. -/
def Schema.eventId : SbsType :=
  .record [("server", .integer), ("session", .integer), ("instance", .integer)]

/-- `Order`, `schemas_sbs/eventer.sbs:51-54`. -/
def Schema.order : SbsType := .choice [("descending", .none), ("ascending", .none)]

/-- `OrderBy`, `schemas_sbs/eventer.sbs:56-59`. -/
def Schema.orderBy : SbsType := .choice [("timestamp", .none), ("sourceTimestamp", .none)]

/-- `EventType`, `schemas_sbs/eventer.sbs:61`. -/
def Schema.eventType : SbsType := .array .string

/-- `EventPayload`, `schemas_sbs/eventer.sbs:63-73`. -/
def Schema.eventPayload : SbsType :=
  .choice [("binary", .record [("type", .string), ("data", .bytes)]), ("json", .string)]

/-- `Event`, `schemas_sbs/eventer.sbs:75-81`. -/
def Schema.event : SbsType :=
  .record [("id", Schema.eventId), ("type", Schema.eventType), ("timestamp", Schema.timestamp),
    ("sourceTimestamp", Schema.timestamp.optional), ("payload", Schema.eventPayload.optional)]

/-- `RegisterEvent`, `schemas_sbs/eventer.sbs:83-87`. -/
def Schema.registerEvent : SbsType :=
  .record [("type", Schema.eventType), ("sourceTimestamp", Schema.timestamp.optional),
    ("payload", Schema.eventPayload.optional)]

/-- `QueryParams`, `schemas_sbs/eventer.sbs:89-116`. -/
def Schema.queryParams : SbsType :=
  .choice [
    ("latest", .record [("eventTypes", (SbsType.array Schema.eventType).optional)]),
    ("timeseries", .record [
      ("eventTypes", (SbsType.array Schema.eventType).optional),
      ("tFrom", Schema.timestamp.optional),
      ("tTo", Schema.timestamp.optional),
      ("sourceTFrom", Schema.timestamp.optional),
      ("sourceTTo", Schema.timestamp.optional),
      ("order", Schema.order),
      ("orderBy", Schema.orderBy),
      ("maxResults", SbsType.integer.optional),
      ("lastEventId", Schema.eventId.optional)]),
    ("server", .record [
      ("serverId", .integer),
      ("persisted", .boolean),
      ("maxResults", SbsType.integer.optional),
      ("lastEventId", Schema.eventId.optional)])]

/-- `QueryResult`, `schemas_sbs/eventer.sbs:118-121`. -/
def Schema.queryResult : SbsType :=
  .record [("events", .array Schema.event), ("moreFollows", .boolean)]

end HatEvent
