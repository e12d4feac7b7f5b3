import Verif.Model.LmdbBytes
import Verif.Spec.Sbs
import Verif.Spec.Lmdb

/-!
# Specification: what a database file holds
-/

namespace HatEvent
namespace Spec

/-- The JSON data written to the file by the backend itself: strings, event types and
descriptions of partitions. -/
def StoredJson (j : Json) : Prop :=
  (∃ s : String, j = .str s) ∨
  (∃ t : List String, j = .arr (t.map .str)) ∨
  ∃ (o : String) (l : List (List String)),
    j = .obj [("order", .str o), ("subscriptions", .arr (l.map fun t => .arr (t.map .str)))]

/-- hat-json reads back strings, event types and partitions; hat-sbs reads back
what conforms to the schema of an event, and writes at least one byte. -/
structure LawfulEnv (env : ByteEnv) : Prop where
  json : ∀ j, StoredJson j → env.json.decode (env.json.encode j) = .ok j
  sbs : ∀ d, Conforms d Schema.event → env.sbs.decode (env.sbs.encode d) = .ok d
  bytes : ∀ d, Conforms d Schema.event → env.sbs.encode d ≠ []

/-- A table of bytes holds the encodings of some entries, in their order. -/
def Holds {κ υ : Type} (key : κ → Except PyErr Bytes) (value : υ → Except PyErr Bytes)
    (file : List (Bytes × Bytes)) (entries : List (κ × υ)) : Prop :=
  List.Forall₂ (fun x y => key y.1 = .ok x.1 ∧ value y.2 = .ok x.2) file entries

/-- The key of a setting is its number. -/
def settingKey : SettingsId → Except PyErr Bytes
  | .version => encodeUint 0
  | .identifier => encodeUint 1

/-- The file holds the databases. -/
structure FileHolds (env : ByteEnv) (file : ByteDisk) (disk : Disk) : Prop where
  settings : Holds settingKey (fun s => .ok (encodeText (env.json.encode (.str s)))) file.settings disk.settings
  lastEventId : Holds encodeUint encodeEventId file.lastEventId disk.lastEventId
  lastTimestamp : Holds encodeUint timestampToBytes file.lastTimestamp disk.lastTimestamp
  ref : Holds encodeEventId encodeEventRefs file.ref disk.ref
  latestData : Holds encodeUint (fun e => .ok (env.sbs.encode (eventToSbs env.json e))) file.latestData disk.latestData
  latestType : Holds encodeUint (fun t => .ok (encodeText (env.json.encode (.arr (t.map .str)))))
    file.latestType disk.latestType
  tsData : Holds encodeTimeseriesKey (fun e => .ok (env.sbs.encode (eventToSbs env.json e))) file.tsData disk.tsData
  tsPartition : Holds encodeUint (fun p => .ok (encodeText (env.json.encode (partitionToJson p))))
    file.tsPartition disk.tsPartition
  tsCount : Holds encodeUint encodeUint file.tsCount disk.tsCount

/-- The events registered have payloads that hat-json reads back. -/
def ReadableEvents (jc : JsonCodec) (ops : List BackendOp) : Prop :=
  ∀ events, .register events ∈ ops → ∀ e ∈ events, JsonReadable jc e.payload

/-- No partition is to keep a negative number of entries. -/
def NonNegMin (conf : Conf) : Prop :=
  ∀ p ∈ conf.partitions, ∀ limit, p.limit = some limit → ∀ n, limit.minEntries = some n → 0 ≤ n

/-- This holds for all configurations used. -/
def NonNegMins (ops : List BackendOp) : Prop := ∀ c, .reopen c ∈ ops → NonNegMin c

end Spec
end HatEvent
