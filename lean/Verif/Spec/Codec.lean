import Verif.Model.Codec
import Verif.Spec.Event

/-!
# Specification: byte order and representable values
-/

namespace HatEvent
namespace Spec

/-- Byte-wise (`memcmp`) order, a proper prefix being smaller: the order of an
LMDB cursor. -/
def BytesLt : Bytes → Bytes → Prop
  | [], [] => False
  | [], _ :: _ => True
  | _ :: _, [] => False
  | a :: l, b :: m => a < b ∨ (a = b ∧ BytesLt l m)

/-- Unsigned 64 bit range. -/
def U64 (v : Int) : Prop := 0 ≤ v ∧ v < 2 ^ 64

/-- Timestamps with a byte representation. -/
def TimeRange (t : Timestamp) : Prop :=
  -(2 ^ 63) ≤ t.s ∧ t.s < 2 ^ 63 ∧ 0 ≤ t.us ∧ t.us < 2 ^ 32

/-- Event identifiers with a byte representation. -/
def IdRange (i : EventId) : Prop := U64 i.server ∧ U64 i.session ∧ U64 i.instance_

/-- Timeseries keys with a byte representation. -/
def KeyRange (k : TimeseriesKey) : Prop := U64 k.partition ∧ TimeRange k.timestamp ∧ IdRange k.id

/-- Order of timeseries keys: partition, then timestamp, then identifier. -/
def KeyLt (a b : TimeseriesKey) : Prop :=
  a.partition < b.partition ∨ (a.partition = b.partition ∧
    (TimeLt a.timestamp b.timestamp ∨ (a.timestamp = b.timestamp ∧ IdLt a.id b.id)))

/-- References with a byte representation. -/
def RefRange : EventRef → Prop
  | .latest key => U64 key
  | .timeseries key => KeyRange key

end Spec
end HatEvent
