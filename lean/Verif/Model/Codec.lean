import Verif.Model.Event

/-!
# Byte encodings

Models `common/encoder.py:25-42` and the key and reference encodings of
`backends/lmdb/common.py:164-253`.
-/

namespace HatEvent

/-- Bytes. -/
abbrev Bytes := List UInt8

/-- Big endian digits of `v`, `n` bytes (`struct`, formats `>Q` and `>I`). -/
def beBytes : Nat → Nat → Bytes
  | 0, _ => []
  | n + 1, v => beBytes n (v / 256) ++ [UInt8.ofNat (v % 256)]

/-- Value of big endian digits (`struct`, formats `>Q` and `>I`). -/
def beValue (l : Bytes) : Nat := l.foldl (fun acc b => acc * 256 + b.toNat) 0

/-- `struct.pack` of one unsigned integer of `n` bytes: `struct.error` if it
does not fit. -/
def packUint (n : Nat) (v : Int) : Except PyErr Bytes :=
  if 0 ≤ v ∧ v < (256 ^ n : Nat) then .ok (beBytes n v.toNat) else .error .structError

/-- `struct.pack` of a sequence of fields (width, value). -/
def pack : List (Nat × Int) → Except PyErr Bytes
  | [] => .ok []
  | (n, v) :: r => do
    let a ← packUint n v
    let b ← pack r
    return a ++ b

/-- The fields of `struct.unpack`, given their widths. -/
def unpackFields : List Nat → Bytes → List Int
  | [], _ => []
  | n :: r, l => Int.ofNat (beValue (l.take n)) :: unpackFields r (l.drop n)

/-- `struct.unpack`: `struct.error` unless the length is exact. -/
def unpack (widths : List Nat) (l : Bytes) : Except PyErr (List Int) :=
  if l.length = widths.foldl (· + ·) 0 then .ok (unpackFields widths l) else .error .structError

/-- `timestamp_to_bytes`, `common/encoder.py:25-32`; also `_encode_timestamp`,
`backends/lmdb/common.py:184-185`. -/
def timestampToBytes (t : Timestamp) : Except PyErr Bytes :=
  pack [(8, t.s + 2 ^ 63), (4, t.us)]

/-- `timestamp_from_bytes`, `common/encoder.py:35-42`; also
`_decode_timestamp`, `backends/lmdb/common.py:188-190`. -/
def timestampFromBytes (data : Bytes) : Except PyErr Timestamp := do
  match ← unpack [8, 4] data with
  | [s, us] => return ⟨s - 2 ^ 63, us⟩
  | _ => throw .structError

/-- `_encode_uint`, `backends/lmdb/common.py:164-165`. -/
def encodeUint (v : Int) : Except PyErr Bytes := pack [(8, v)]

/-- `_decode_uint`, `backends/lmdb/common.py:168-169`. -/
def decodeUint (data : Bytes) : Except PyErr Int := do
  match ← unpack [8] data with
  | [v] => return v
  | _ => throw .structError

/-- `_encode_event_id`, `backends/lmdb/common.py:172-174`. -/
def encodeEventId (i : EventId) : Except PyErr Bytes :=
  pack [(8, i.server), (8, i.session), (8, i.instance_)]

/-- `_decode_event_id`, `backends/lmdb/common.py:177-181`. -/
def decodeEventId (data : Bytes) : Except PyErr EventId := do
  match ← unpack [8, 8, 8] data with
  | [server, session, instance_] => return ⟨server, session, instance_⟩
  | _ => throw .structError

/-- `TimeseriesKey`, `backends/lmdb/common.py:71`. -/
structure TimeseriesKey where
  partition : Int
  timestamp : Timestamp
  id : EventId
  deriving DecidableEq, Repr

/-- `_encode_timeseries_key`, `backends/lmdb/common.py:242-246`. -/
def encodeTimeseriesKey (k : TimeseriesKey) : Except PyErr Bytes := do
  let a ← encodeUint k.partition
  let b ← timestampToBytes k.timestamp
  let c ← encodeEventId k.id
  return a ++ b ++ c

/-- `_decode_timeseries_key`, `backends/lmdb/common.py:249-253`. -/
def decodeTimeseriesKey (data : Bytes) : Except PyErr TimeseriesKey := do
  let partition ← decodeUint (data.take 8)
  let timestamp ← timestampFromBytes ((data.take 20).drop 8)
  let id ← decodeEventId (data.drop 20)
  return ⟨partition, timestamp, id⟩

/-- `EventRef`, `backends/lmdb/common.py:79-87`. -/
inductive EventRef where
  | latest (key : Int)
  | timeseries (key : TimeseriesKey)
  deriving DecidableEq, Repr

/-- `_encode_event_ref`, `backends/lmdb/common.py:193-203` (`DbType.LATEST_DATA`
is 4, `DbType.TIMESERIES_DATA` is 6, l.35-37). -/
def encodeEventRef : EventRef → Except PyErr Bytes
  | .latest key => do return 4 :: (← encodeUint key)
  | .timeseries key => do return 6 :: (← encodeTimeseriesKey key)

/-- `_decode_event_ref`, `backends/lmdb/common.py:206-216`. Only the two
reference kinds are decoded; other tags have been rejected by the caller. -/
def decodeEventRef : Bytes → Except PyErr EventRef
  | [] => .error .indexError
  | tag :: key =>
    if tag = 4 then do return .latest (← decodeUint key)
    else if tag = 6 then do return .timeseries (← decodeTimeseriesKey key)
    else .error (.valueError "unsupported database type")

/-- `_encode_event_refs`, `backends/lmdb/common.py:219-221`; the set is the list
of its elements in iteration order. -/
def encodeEventRefs : List EventRef → Except PyErr Bytes
  | [] => .ok []
  | ref :: r => do
    let a ← encodeEventRef ref
    let b ← encodeEventRefs r
    return a ++ b

/-- `_decode_event_refs`, `backends/lmdb/common.py:224-239`. Every round
consumes at least one byte. -/
def decodeEventRefs (data : Bytes) : Except PyErr (List EventRef) :=
  match data with
  | [] => .ok []
  | tag :: rest =>
    if tag = 4 then do
      let ref ← decodeEventRef ((tag :: rest).take 9)
      let r ← decodeEventRefs (rest.drop 8)
      return ref :: r
    else if tag = 6 then do
      let ref ← decodeEventRef ((tag :: rest).take 45)
      let r ← decodeEventRefs (rest.drop 44)
      return ref :: r
    else .error (.valueError "unsupported event reference")
termination_by data.length
decreasing_by all_goals simp_wf; omega

end HatEvent
