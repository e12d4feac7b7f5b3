import Verif.Proof.CodecReads

/-!
# C11, C12, C13: byte encodings
-/

namespace HatEvent
open Spec

/-! ## C11 -/

/-- C11: exactly the timestamps in range are encoded; others raise
`struct.error`. -/
theorem C11_accepts (t : Timestamp) :
    (∃ b, timestampToBytes t = .ok b) ↔ TimeRange t := by
  rw [← timeFields_in, ← pack_accepts]; rfl

theorem C11_rejects (t : Timestamp) (h : ¬ TimeRange t) :
    timestampToBytes t = .error .structError :=
  pack_error _ (fun h' => h (timeFields_in.1 h'))

/-- C11: the encoding is lossless and has 12 bytes. -/
theorem C11_roundtrip {t : Timestamp} {b : Bytes} (h : timestampToBytes t = .ok b) :
    timestampFromBytes b = .ok t ∧ b.length = 12 :=
  ⟨timestamp_roundtrip h, pack_length h⟩

/-- C11: what is read as a timestamp is the encoding of it. -/
theorem C11_reads {t : Timestamp} {b : Bytes} (h : timestampFromBytes b = .ok t) : timestampToBytes t = .ok b :=
  timestamp_reads h

example : ∃ b, timestampFromBytes b = .ok ⟨-1, 3⟩ := by
  obtain ⟨b, h⟩ := (C11_accepts ⟨-1, 3⟩).2 (by unfold TimeRange; norm_num)
  exact ⟨b, (C11_roundtrip h).1⟩

/-- C11: byte order is time order. -/
theorem C11_order {t u : Timestamp} {b c : Bytes} (ht : timestampToBytes t = .ok b)
    (hu : timestampToBytes u = .ok c) : BytesLt b c ↔ TimeLt t u := by
  rw [pack_lt (by rfl) ht hu]
  simp only [List.map_cons, List.map_nil, LexLt, TimeLt, and_false, or_false]
  constructor <;> omega

/-- C11: `min_timestamp` and `max_timestamp` are in range, and bound all
normalised timestamps in range. -/
theorem C11_bounds (t : Timestamp) (h : TimeRange t) (hn : t.us < 1000000) :
    TimeRange minTimestamp ∧ TimeRange maxTimestamp ∧ TimeLe minTimestamp t ∧
      TimeLe t maxTimestamp := by
  refine ⟨by unfold TimeRange minTimestamp; norm_num, by unfold TimeRange maxTimestamp; norm_num,
    ?_, ?_⟩
  · rw [← not_timeLt]
    unfold TimeRange at h
    unfold TimeLt minTimestamp
    simp only
    omega
  · rw [← not_timeLt]
    unfold TimeRange at h
    unfold TimeLt maxTimestamp
    simp only
    omega

example : timestampToBytes ⟨-1, 5⟩ = .ok [127, 255, 255, 255, 255, 255, 255, 255, 0, 0, 0, 5] := by
  decide
example : TimeRange ⟨-1, 999999⟩ := by unfold TimeRange; norm_num
example : ¬ TimeRange ⟨0, -1⟩ := by unfold TimeRange; norm_num

/-! ## C12 -/

/-- C12: event identifiers: accepted values, round trip, and byte order is
identifier order. -/
theorem C12_event_id_accepts (i : EventId) : (∃ b, encodeEventId i = .ok b) ↔ IdRange i := by
  rw [← idFields_in, ← pack_accepts]; rfl

theorem C12_event_id_roundtrip {i : EventId} {b : Bytes} (h : encodeEventId i = .ok b) :
    decodeEventId b = .ok i := decodeEventId_pack h

theorem C12_event_id_order {i j : EventId} {b c : Bytes} (hi : encodeEventId i = .ok b)
    (hj : encodeEventId j = .ok c) : BytesLt b c ↔ IdLt i j := by
  rw [pack_lt (by rfl) hi hj]
  simp only [List.map_cons, List.map_nil, LexLt, IdLt, and_false, or_false]

/-- C12: timeseries keys. -/
theorem C12_key_accepts (k : TimeseriesKey) : (∃ b, encodeTimeseriesKey k = .ok b) ↔ KeyRange k := by
  rw [encodeTimeseriesKey_eq, pack_accepts, keyFields_in]

theorem C12_key_roundtrip {k : TimeseriesKey} {b : Bytes} (h : encodeTimeseriesKey k = .ok b) :
    decodeTimeseriesKey b = .ok k := (timeseriesKey_roundtrip h).1

/-- C12: the order of encoded keys is partition, timestamp, identifier. -/
theorem C12_key_order {k l : TimeseriesKey} {b c : Bytes} (hk : encodeTimeseriesKey k = .ok b)
    (hl : encodeTimeseriesKey l = .ok c) : BytesLt b c ↔ KeyLt k l := by
  rw [encodeTimeseriesKey_eq] at hk hl
  rw [pack_lt (by rfl) hk hl]
  simp only [keyFields, timeFields, idFields, List.cons_append, List.nil_append, List.map_cons,
    List.map_nil, LexLt, KeyLt, TimeLt, IdLt, and_false, or_false]
  have e : k.timestamp = l.timestamp ↔ k.timestamp.s = l.timestamp.s ∧ k.timestamp.us = l.timestamp.us :=
    ⟨fun h => by rw [h]; exact ⟨rfl, rfl⟩, fun h => Timestamp.ext' h.1 h.2⟩
  rw [e]
  constructor <;> omega

/-- C12: distinct keys have distinct encodings. -/
theorem C12_key_injective {k l : TimeseriesKey} {b : Bytes} (hk : encodeTimeseriesKey k = .ok b)
    (hl : encodeTimeseriesKey l = .ok b) : k = l := by
  have h1 := C12_key_roundtrip hk
  rw [C12_key_roundtrip hl] at h1
  injection h1 with h1
  exact h1.symm

theorem C12_event_id_injective {i j : EventId} {b : Bytes} (hi : encodeEventId i = .ok b)
    (hj : encodeEventId j = .ok b) : i = j := by
  have h1 := C12_event_id_roundtrip hi
  rw [C12_event_id_roundtrip hj] at h1
  injection h1 with h1
  exact h1.symm

/-- C12: plain unsigned keys. -/
theorem C12_uint {v w : Int} {b c : Bytes} (hv : encodeUint v = .ok b) (hw : encodeUint w = .ok c) :
    decodeUint b = .ok v ∧ (BytesLt b c ↔ v < w) := by
  refine ⟨decodeUint_pack hv, ?_⟩
  rw [pack_lt (by rfl) hv hw]
  simp [LexLt]

example : IdRange ⟨1, 300, 2⟩ := by unfold IdRange U64; norm_num
example : KeyRange ⟨7, ⟨-5, 10⟩, ⟨1, 300, 2⟩⟩ := by
  unfold KeyRange TimeRange IdRange U64; norm_num

/-- C12: what is read as an identifier is the encoding of it, nothing else is accepted. -/
theorem C12_event_id_reads {i : EventId} {b : Bytes} (h : decodeEventId b = .ok i) : encodeEventId i = .ok b :=
  decodeEventId_reads h

/-- C12: what is read as a timeseries key is the encoding of it. -/
theorem C12_key_reads {k : TimeseriesKey} {b : Bytes} (h : decodeTimeseriesKey b = .ok k) :
    encodeTimeseriesKey k = .ok b := timeseriesKey_reads h

example : decodeEventId (List.replicate 23 0 ++ [7]) = .ok ⟨0, 0, 7⟩ := rfl
example : ∃ b, decodeTimeseriesKey b = .ok ⟨7, ⟨-5, 10⟩, ⟨1, 300, 2⟩⟩ := by
  obtain ⟨b, h⟩ := (C12_key_accepts ⟨7, ⟨-5, 10⟩, ⟨1, 300, 2⟩⟩).2 (by unfold KeyRange TimeRange IdRange U64; norm_num)
  exact ⟨b, C12_key_roundtrip h⟩

/-! ## C13 -/

/-- C13: reference sets decode to what was encoded, whatever the iteration
order and size. -/
theorem C13_roundtrip {refs : List EventRef} {b : Bytes} (h : encodeEventRefs refs = .ok b) :
    decodeEventRefs b = .ok refs := encodeEventRefs_spec refs b h

/-- C13: exactly the sets of representable references are encoded. -/
theorem C13_accepts (refs : List EventRef) :
    (∃ b, encodeEventRefs refs = .ok b) ↔ ∀ r ∈ refs, RefRange r := by
  induction refs with
  | nil => simp [encodeEventRefs]
  | cons r l ih =>
    rw [List.forall_mem_cons, ← ih, ← encodeEventRef_accepts, encodeEventRefs]
    cases encodeEventRef r with
    | error e => exact ⟨fun ⟨b, h⟩ => (by cases h), fun ⟨⟨b, h⟩, _⟩ => (by cases h)⟩
    | ok x =>
      cases encodeEventRefs l with
      | error e => exact ⟨fun ⟨b, h⟩ => (by cases h), fun ⟨_, ⟨b, h⟩⟩ => (by cases h)⟩
      | ok y => exact ⟨fun _ => ⟨⟨x, rfl⟩, ⟨y, rfl⟩⟩, fun _ => ⟨_, rfl⟩⟩

example : ∀ r ∈ [EventRef.latest 3, .timeseries ⟨7, ⟨-5, 10⟩, ⟨1, 300, 2⟩⟩], RefRange r := by
  simp [RefRange, KeyRange, TimeRange, IdRange, U64]

/-- C13: what is read as references is the encoding of them: bytes that are cut off or have an unknown kind are
rejected. -/
theorem C13_reads {refs : List EventRef} {b : Bytes} (h : decodeEventRefs b = .ok refs) :
    encodeEventRefs refs = .ok b := decodeEventRefs_reads b refs h

example : decodeEventRefs (4 :: List.replicate 7 0 ++ [9] ++ 4 :: List.replicate 8 0) = .ok [.latest 9, .latest 0] := by
  simp [decodeEventRefs]; rfl

end HatEvent
