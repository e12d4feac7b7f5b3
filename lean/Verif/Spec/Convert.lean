import Verif.Model.Convert
import Verif.Spec.Codec
import Verif.Proof.Table

/-!
# Specification: database conversion
-/

namespace HatEvent
namespace Spec

/-- The payload is kept: the same data, and a binary type that names the SBS type. -/
inductive SamePayload : Option OldPayload → Option Payload → Prop
  | none : SamePayload none none
  | binary (data : List UInt8) : SamePayload (some (.binary data)) (some (.binary "" data))
  | json (data : Json) : SamePayload (some (.json data)) (some (.json data))
  | sbs (type : String) (data : List UInt8) :
    SamePayload (some (.sbs ⟨Option.none, type, data⟩)) (some (.binary type data))
  | sbsModule (m type : String) (data : List UInt8) :
    SamePayload (some (.sbs ⟨some m, type, data⟩)) (some (.binary (m ++ "." ++ type) data))

/-- The event is kept. -/
structure SameEvent (a : Event07) (b : Event) : Prop where
  id : b.id = a.id
  type : b.type = a.type
  timestamp : b.timestamp = a.timestamp
  sourceTimestamp : b.sourceTimestamp = a.sourceTimestamp
  payload : SamePayload a.payload b.payload

/-- The description of a partition is kept. -/
def SamePartition (a : OldPartitionData) (b : PartitionData) : Prop :=
  b.subscriptions = a.subscriptions ∧ ((a.order = 1 ∧ b.order = .timestamp) ∨ (a.order = 2 ∧ b.order = .sourceTimestamp))

/-- What holds for every file of version 0.7: keys are sorted and in the range of their encodings. -/
structure File07Ok (f : File07) : Prop where
  system : Table.Sorted f.system
  systemRange : ∀ p ∈ f.system, U64 p.1 ∧ IdRange p.2.1 ∧ TimeRange p.2.2
  latestData : Table.Sorted f.latestData
  latestDataRange : ∀ p ∈ f.latestData, U64 p.1
  latestType : Table.Sorted f.latestType
  latestTypeRange : ∀ p ∈ f.latestType, U64 p.1
  ordered : Table.Sorted f.orderedData
  orderedRange : ∀ p ∈ f.orderedData, KeyRange p.1
  partition : Table.Sorted f.orderedPartition
  partitionRange : ∀ p ∈ f.orderedPartition, U64 p.1 ∧ (p.2.order = 1 ∨ p.2.order = 2)
  count : Table.Sorted f.orderedCount
  countRange : ∀ p ∈ f.orderedCount, U64 p.1 ∧ U64 p.2
  ref : Table.Sorted f.ref
  refRange : ∀ p ∈ f.ref, IdRange p.1 ∧ ∀ r ∈ p.2, RefRange r

/-- The place a reference names contains the event. -/
def StoredAt07 (f : File07) : EventRef → Event07 → Prop
  | .latest k, e => (k, e) ∈ f.latestData
  | .timeseries k, e => (k, e) ∈ f.orderedData

/-- The reference table of version 0.7 references exactly the stored events. -/
structure RefsConsistent07 (f : File07) : Prop where
  nonempty : ∀ id refs, (id, refs) ∈ f.ref → refs ≠ []
  points : ∀ id refs r, (id, refs) ∈ f.ref → r ∈ refs → ∃ e, StoredAt07 f r e ∧ e.id = id
  complete : ∀ r e, StoredAt07 f r e → ∃ refs, (e.id, refs) ∈ f.ref ∧ r ∈ refs

/-- Everything of a file of version 0.7 is kept. -/
structure Kept07 (f : File07) (d : Disk) : Prop where
  settings : d.settings = [(.version, "0.9")]
  lastEventId : d.lastEventId = f.system.map fun p => (p.1, p.2.1)
  lastTimestamp : d.lastTimestamp = f.system.map fun p => (p.1, p.2.2)
  ref : d.ref = f.ref
  latest : List.Forall₂ (fun a b => b.1 = a.1 ∧ SameEvent a.2 b.2) f.latestData d.latestData
  types : d.latestType = f.latestType
  series : List.Forall₂ (fun a b => b.1 = a.1 ∧ SameEvent a.2 b.2) f.orderedData d.tsData
  partitions : List.Forall₂ (fun a b => b.1 = a.1 ∧ SamePartition a.2 b.2) f.orderedPartition d.tsPartition
  counts : d.tsCount = f.orderedCount

/-- Order of the keys of ordered data in version 0.6. -/
def KeyLt06 (a b : OrderedKey06) : Prop :=
  a.partition < b.partition ∨ (a.partition = b.partition ∧
    (TimeLt a.timestamp b.timestamp ∨ (a.timestamp = b.timestamp ∧ a.instance_ < b.instance_)))

/-- The server of a file of version 0.6, at least 1. -/
def Server06 (f : File06) (server : Int) : Prop := (f.serverId < 1 ∧ server = 1) ∨ (1 ≤ f.serverId ∧ server = f.serverId)

/-- What holds for the encodings of every file of version 0.6. -/
structure File06Ok (f : File06) : Prop where
  server : U64 f.serverId
  latest : ∀ e ∈ f.latest, U64 e.id.instance_ ∧ TimeRange e.timestamp
  few : (f.latest.length : Int) < 2 ^ 64 - 1
  sorted : f.ordered.Pairwise fun a b => KeyLt06 a.1 b.1
  ordered : ∀ p ∈ f.ordered, U64 p.1.partition ∧ TimeRange p.1.timestamp ∧ U64 p.1.instance_ ∧ p.2.id.instance_ = p.1.instance_ ∧
    TimeRange p.2.timestamp
  partition : Table.Sorted f.partition
  partitionRange : ∀ p ∈ f.partition, U64 p.1 ∧ (p.2.order = 1 ∨ p.2.order = 2)
  count : Table.Sorted f.count
  countRange : ∀ p ∈ f.count, U64 p.1 ∧ U64 p.2

/-- All events are events of one server, which is the server of the file unless it is not positive. -/
def OneServer (f : File06) : Prop :=
  ∃ s, (0 < s → Server06 f s) ∧ (∀ e ∈ f.latest, e.id.server = s) ∧ ∀ p ∈ f.ordered, p.2.id.server = s

/-- The event is kept, with an identifier of the server. -/
structure SameEvent06 (server : Int) (a : Event06) (b : Event07) : Prop where
  id : b.id = ⟨server, a.id.instance_, a.id.instance_⟩
  type : b.type = a.type
  timestamp : b.timestamp = a.timestamp
  sourceTimestamp : b.sourceTimestamp = a.sourceTimestamp
  payload : b.payload = a.payload

/-- Everything of a file of version 0.6 is kept. -/
structure Kept06 (f : File06) (server : Int) (g : File07) : Prop where
  latest : List.Forall₂ (fun a b => SameEvent06 server a b.2) f.latest g.latestData
  types : g.latestType = g.latestData.map fun p => (p.1, p.2.type)
  series : List.Forall₂ (fun a b => b.1.partition = a.1.partition ∧ b.1.timestamp = a.1.timestamp ∧ b.1.id = b.2.id ∧
    SameEvent06 server a.2 b.2) f.ordered g.orderedData
  partitions : g.orderedPartition = f.partition
  counts : g.orderedCount = f.count
  /-- no stored event is after the last identifier -/
  last : ∀ r e, StoredAt07 g r e → IdLe e.id ⟨server, 0, 0⟩ ∨ ∃ v, (server, v) ∈ g.system ∧ IdLe e.id v.1
  /-- which is that of a stored event -/
  lastStored : ∀ s v, (s, v) ∈ g.system → s = server ∧ ∃ r e, StoredAt07 g r e ∧ v = (e.id, e.timestamp)

end Spec
end HatEvent
