import Verif.Model.Codec
import Verif.Model.Dict

/-!
# Database tables

The named databases of the LMDB environment (`backends/lmdb/common.py:30-39`)
as lists of entries sorted by key.  Keys are kept decoded: the encodings are
injective and order preserving on the values they accept (C11, C12), so the
byte order of LMDB is the order of the decoded keys.  Encoding errors are kept:
writing an entry whose key or value cannot be encoded raises.
-/

namespace HatEvent

/-- Values with a (partial) byte encoding, `backends/lmdb/common.py:90-143`. -/
class Encodable (α : Type) where
  encode : α → Except PyErr Bytes

/-- Keys with the order of their encodings. -/
class DbKey (κ : Type) extends Encodable κ where
  lt : κ → κ → Bool

/-- Unsigned integers: `_encode_uint`, `backends/lmdb/common.py:164-165`. -/
instance : DbKey Int where
  encode := encodeUint
  lt a b := decide (a < b)

/-- Event ids: `_encode_event_id`, `backends/lmdb/common.py:172-174`. -/
instance : DbKey EventId where
  encode := encodeEventId
  lt := EventId.lt

/-- Order of timeseries keys: tuple comparison, which is the order of their
encodings (`backends/lmdb/common.py:242-246`, theorem `C12_key_order`). -/
def TimeseriesKey.lt (a b : TimeseriesKey) : Bool :=
  if a.partition ≠ b.partition then a.partition < b.partition
  else if a.timestamp ≠ b.timestamp then a.timestamp.lt b.timestamp
  else a.id.lt b.id

/-- Timeseries keys: `_encode_timeseries_key`, `backends/lmdb/common.py:242-246`. -/
instance : DbKey TimeseriesKey where
  encode := encodeTimeseriesKey
  lt := TimeseriesKey.lt

/-- Timestamps: `_encode_timestamp`, `backends/lmdb/common.py:184-185`. -/
instance : Encodable Timestamp := ⟨timestampToBytes⟩

/-- Reference sets: `_encode_event_refs`, `backends/lmdb/common.py:219-221`. -/
instance : Encodable (List EventRef) := ⟨encodeEventRefs⟩

/-- Events: `_encode_event`, `backends/lmdb/common.py:256-258`.  The bytes are
not modelled (see C14); well typed events can always be encoded. -/
instance : Encodable Event := ⟨fun _ => .ok []⟩

/-- Event types: `_encode_json`, `backends/lmdb/common.py:124,272-273`.  The
bytes are not modelled. -/
instance : Encodable EventType := ⟨fun _ => .ok []⟩

/-- An LMDB database: entries sorted by key. -/
abbrev Table (κ υ : Type) := List (κ × υ)

namespace Table
variable {κ υ : Type} [DecidableEq κ] [DbKey κ]

/-- `cursor.put(key, value)`: insert or replace. -/
def put : Table κ υ → κ → υ → Table κ υ
  | [], k, v => [(k, v)]
  | (k', v') :: t, k, v =>
    if k' = k then (k, v) :: t
    else if DbKey.lt k k' then (k, v) :: (k', v') :: t
    else (k', v') :: put t k v

/-- `Environment.ext_write`, `backends/lmdb/environment.py:75-84`. -/
def write [Encodable υ] : Table κ υ → List (κ × υ) → Except PyErr (Table κ υ)
  | t, [] => .ok t
  | t, (k, v) :: r => do
    let _ ← Encodable.encode k
    let _ ← Encodable.encode v
    write (t.put k v) r

/-- `cursor.set_range(key)`: the entries from the cursor on. -/
def fromKey (t : Table κ υ) (k : κ) : Table κ υ := t.dropWhile fun p => DbKey.lt p.1 k

/-- The entries before the position of `cursor.set_range(key)`, in the order of
repeated `cursor.prev()`. -/
def beforeKey (t : Table κ υ) (k : κ) : Table κ υ := (t.takeWhile fun p => DbKey.lt p.1 k).reverse

end Table

/-- Python's `a | b` on sets without repetitions. -/
def setUnion {α : Type} [DecidableEq α] (a b : List α) : List α := a ++ b.filter (· ∉ a)

/-- Python's `a - b` on sets. -/
def setDiff {α : Type} [DecidableEq α] (a b : List α) : List α := a.filter (· ∉ b)

/-- Python's `s.add(x)` on a set. -/
def setAdd {α : Type} [DecidableEq α] (s : List α) (x : α) : List α := if x ∈ s then s else s ++ [x]

end HatEvent
