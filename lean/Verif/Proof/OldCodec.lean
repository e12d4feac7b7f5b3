import Verif.Spec.OldCodec
import Verif.Proof.Codec
import Verif.Proof.Sbs
import Verif.Proof.Tactics

/-! # Encodings of old databases -/

namespace HatEvent
open Spec

theorem takeUint07_pack {v : Int} {b : Bytes} (h : encodeUint v = .ok b) (r : Bytes) :
    takeUint07 (b ++ r) = .ok (v, r) := by
  have hl : b.length = 8 := pack_length h
  rw [takeUint07, List.take_left' hl, List.drop_left' hl, decodeUint_pack h]
  rfl

theorem takeEventId07_pack {i : EventId} {b : Bytes} (h : encodeEventId i = .ok b) (r : Bytes) :
    takeEventId07 (b ++ r) = .ok (i, r) := by
  have hl : b.length = 24 := pack_length h
  rw [takeEventId07, List.take_left' hl, List.drop_left' hl, decodeEventId_pack h]
  rfl

theorem takeTimestamp07_pack {t : Timestamp} {b : Bytes} (h : timestampToBytes t = .ok b) (r : Bytes) :
    takeTimestamp07 (b ++ r) = .ok (t, r) := by
  have hl : b.length = 12 := pack_length h
  rw [takeTimestamp07, List.take_left' hl, List.drop_left' hl, timestamp_roundtrip h]
  rfl

theorem decodeUint07_pack {v : Int} {b : Bytes} (h : encodeUint v = .ok b) (r : Bytes) :
    decodeUint07 (b ++ r) = .ok v := by
  rw [decodeUint07, takeUint07_pack h]
  rfl

theorem decodeRefKey07_pack {i : EventId} {b : Bytes} (h : encodeEventId i = .ok b) (r : Bytes) :
    decodeRefKey07 (b ++ r) = .ok i := by
  rw [decodeRefKey07, takeEventId07_pack h]
  rfl

theorem decodeSystem07_pack {v : EventId × Timestamp} {b : Bytes} (h : encodeSystem07 v = .ok b) (r : Bytes) :
    decodeSystem07 (b ++ r) = .ok v := by
  rw [encodeSystem07] at h
  cases h1 : encodeEventId v.1 with
  | error e => rw [h1] at h; cases h
  | ok x =>
    cases h2 : timestampToBytes v.2 with
    | error e => rw [h1, h2] at h; cases h
    | ok y =>
      rw [h1, h2] at h
      injection h with h
      have h : x ++ y = b := h
      subst h
      simp only [decodeSystem07, List.append_assoc, takeEventId07_pack h1, ok_bind, takeTimestamp07_pack h2, pure_ok]

theorem encodeOrderedKey07_eq (k : TimeseriesKey) : encodeOrderedKey07 k = encodeTimeseriesKey k := rfl

theorem decodeOrderedKey07_pack {k : TimeseriesKey} {b : Bytes} (h : encodeOrderedKey07 k = .ok b) (r : Bytes) :
    decodeOrderedKey07 (b ++ r) = .ok k := by
  rw [encodeOrderedKey07] at h
  cases h1 : encodeUint k.partition with
  | error e => rw [h1] at h; cases h
  | ok x =>
    cases h2 : timestampToBytes k.timestamp with
    | error e => rw [h1, h2] at h; cases h
    | ok y =>
      cases h3 : encodeEventId k.id with
      | error e => rw [h1, h2, h3] at h; cases h
      | ok z =>
        rw [h1, h2, h3] at h
        injection h with h
        have h : x ++ y ++ z = b := h
        subst h
        simp only [decodeOrderedKey07, List.append_assoc, takeUint07_pack h1, ok_bind, takeTimestamp07_pack h2,
          takeEventId07_pack h3, pure_ok]

/-- The encoding of a reference is its tag and what is read with it. -/
theorem encodeRef07_spec {ref : EventRef} {b : Bytes} (h : encodeRef07 ref = .ok b) :
    ∃ tag x, b = tag :: x ∧ ∀ r, takeRef07 tag (x ++ r) = .ok (ref, x.length) := by
  cases ref with
  | latest key =>
    rw [encodeRef07] at h
    cases he : encodeUint key with
    | error e => rw [he] at h; cases h
    | ok x =>
      rw [he] at h
      injection h with h
      have hl : x.length = 8 := pack_length he
      refine ⟨1, x, h.symm, fun r => ?_⟩
      have := decodeUint07_pack he []
      rw [List.append_nil] at this
      rw [takeRef07, if_pos rfl, List.take_left' hl, this, hl]
      rfl
  | timeseries key =>
    rw [encodeRef07] at h
    cases he : encodeOrderedKey07 key with
    | error e => rw [he] at h; cases h
    | ok x =>
      rw [he] at h
      injection h with h
      have hl : x.length = 44 := (timeseriesKey_roundtrip he).2
      refine ⟨3, x, h.symm, fun r => ?_⟩
      have := decodeOrderedKey07_pack he []
      rw [List.append_nil] at this
      rw [takeRef07, if_neg (by decide), if_pos rfl, List.take_left' hl, this, hl]
      rfl

theorem encodeRefs07_spec : ∀ (l : List EventRef) (b : Bytes), encodeRefs07 l = .ok b → decodeRefs07 b = .ok l
  | [], b, h => by
    rw [encodeRefs07] at h
    injection h with h
    subst h
    rw [decodeRefs07]
  | ref :: r, b, h => by
    rw [encodeRefs07] at h
    cases he : encodeRef07 ref with
    | error e => rw [he] at h; cases h
    | ok x =>
      cases hr : encodeRefs07 r with
      | error e => rw [he, hr] at h; cases h
      | ok y =>
        rw [he, hr] at h
        injection h with h
        have h : x ++ y = b := h
        subst h
        obtain ⟨tag, z, rfl, hz⟩ := encodeRef07_spec he
        rw [List.cons_append, decodeRefs07, hz, ok_bind, List.drop_left' rfl, encodeRefs07_spec r y hr]
        rfl

theorem encodeRef07_accepts {r : EventRef} : (∃ b, encodeRef07 r = .ok b) ↔ RefRange r := by
  cases r with
  | latest key =>
    rw [encodeRef07, RefRange, ← uintFields_in, ← pack_accepts]
    unfold encodeUint
    cases pack [(8, key)] with
    | error e => exact ⟨fun ⟨b, h⟩ => (by cases h), fun ⟨b, h⟩ => (by cases h)⟩
    | ok x => exact ⟨fun _ => ⟨x, rfl⟩, fun _ => ⟨_, rfl⟩⟩
  | timeseries key =>
    rw [encodeRef07, RefRange, ← keyFields_in, ← pack_accepts, encodeOrderedKey07_eq, encodeTimeseriesKey_eq]
    cases pack (keyFields key) with
    | error e => exact ⟨fun ⟨b, h⟩ => (by cases h), fun ⟨b, h⟩ => (by cases h)⟩
    | ok x => exact ⟨fun _ => ⟨x, rfl⟩, fun _ => ⟨_, rfl⟩⟩

theorem encodeRefs07_accepts : ∀ {l : List EventRef}, (∃ b, encodeRefs07 l = .ok b) ↔ ∀ r ∈ l, RefRange r
  | [] => by
    constructor
    · intro _ r h; cases h
    · intro _; exact ⟨[], rfl⟩
  | ref :: l => by
    have ih := encodeRefs07_accepts (l := l)
    rw [List.forall_mem_cons, ← encodeRef07_accepts, ← ih, encodeRefs07]
    cases encodeRef07 ref with
    | error e => exact ⟨fun ⟨b, h⟩ => (by cases h), fun ⟨⟨b, h⟩, _⟩ => (by cases h)⟩
    | ok x =>
      cases encodeRefs07 l with
      | error e => exact ⟨fun ⟨b, h⟩ => (by cases h), fun ⟨_, b, h⟩ => (by cases h)⟩
      | ok y => exact ⟨fun _ => ⟨⟨x, rfl⟩, y, rfl⟩, fun _ => ⟨_, rfl⟩⟩

/-! ## Events -/

theorem sbsData_roundtrip (d : SbsData) : sbsDataFromSbs (sbsDataToSbs d) = .ok d := by
  have h1 := optional_roundtrip (o := d.module_) (fn := Sbs.str) (fn' := Sbs.asStr) (fun _ _ => rfl)
  unfold sbsDataFromSbs sbsDataToSbs
  simp only [Sbs.field, Dict.get_cons, String.reduceEq, if_false, if_true, ok_bind, h1, Sbs.asStr, Sbs.asBytes,
    pure_ok]

theorem oldPayload_roundtrip {jc : JsonCodec} {p : OldPayload} (h : OldJsonReadable jc (some p)) :
    oldPayloadFromSbs jc (oldPayloadToSbs jc p) = .ok p := by
  cases p with
  | binary d => rfl
  | json d =>
    have := h d rfl
    simp [oldPayloadFromSbs, oldPayloadToSbs, Sbs.asChoice, Sbs.asStr, this]
  | sbs d => simp [oldPayloadFromSbs, oldPayloadToSbs, Sbs.asChoice, sbsData_roundtrip]

theorem event07_roundtrip {jc : JsonCodec} {e : Event07} (h : OldJsonReadable jc e.payload) :
    eventFromSbs07 jc (eventToSbs07 jc e) = .ok e := by
  have h1 := optional_roundtrip (o := e.sourceTimestamp) (fun t _ => timestampSbs_roundtrip t)
  have h2 := optional_roundtrip (o := e.payload) (fn := oldPayloadToSbs jc) (fn' := oldPayloadFromSbs jc)
    (fun p hp => oldPayload_roundtrip (hp ▸ h))
  unfold eventFromSbs07 eventToSbs07
  simp only [Sbs.field, Dict.get_cons, String.reduceEq, if_false, if_true, ok_bind,
    eventIdSbs_roundtrip, eventTypeSbs_roundtrip, timestampSbs_roundtrip, h1, h2, pure_ok]

theorem oldPayload_conforms (jc : JsonCodec) (p : OldPayload) :
    Conforms (oldPayloadToSbs jc p) Schema.oldPayload := by
  cases p with
  | binary d => exact .choice (t := .bytes) (by simp) (.bytes _)
  | json d => exact .choice (t := .string) (by simp) (.str _)
  | sbs d =>
    exact .choice (t := .record [("module", SbsType.string.optional), ("type", .string), ("data", .bytes)]) (by simp)
      (conforms_cons (conforms_optional fun m _ => .str m) <| conforms_cons (.str _) <|
        conforms_cons (.bytes _) conforms_empty)

theorem event07_conforms (jc : JsonCodec) (e : Event07) : Conforms (eventToSbs07 jc e) Schema.event07 :=
  conforms_cons (eventId_conforms _) <| conforms_cons (eventType_conforms _) <|
  conforms_cons (timestamp_conforms _) <|
  conforms_cons (conforms_optional fun t _ => timestamp_conforms t) <|
  conforms_cons (conforms_optional fun p _ => oldPayload_conforms jc p) conforms_empty

theorem written06Payload_eq (jc : JsonCodec) (p : OldPayload) : Written06Payload jc p = oldPayloadToSbs jc p := by
  cases p with
  | binary d => rfl
  | json d => rfl
  | sbs d => obtain ⟨m, t, b⟩ := d; cases m <;> rfl

/-- What 0.6 wrote, with the helpers. -/
theorem written06_eq (jc : JsonCodec) (e : Event06) :
    Written06 jc e = .record [("id", .record [("server", .int e.id.server), ("instance", .int e.id.instance_)]),
      ("type", eventTypeToSbs e.type), ("timestamp", timestampToSbs e.timestamp),
      ("sourceTimestamp", optionalToSbs timestampToSbs e.sourceTimestamp),
      ("payload", optionalToSbs (oldPayloadToSbs jc) e.payload)] := by
  obtain ⟨i, ty, t, st, p⟩ := e
  cases st <;> cases p <;> simp only [Written06, written06Payload_eq] <;> rfl

theorem event06_read {jc : JsonCodec} {e : Event06} (h : OldJsonReadable jc e.payload) :
    eventFromSbs06 jc (Written06 jc e) = .ok e := by
  have h1 := optional_roundtrip (o := e.sourceTimestamp) (fun t _ => timestampSbs_roundtrip t)
  have h2 := optional_roundtrip (o := e.payload) (fn := oldPayloadToSbs jc) (fn' := oldPayloadFromSbs jc)
    (fun p hp => oldPayload_roundtrip (hp ▸ h))
  rw [written06_eq]
  unfold eventFromSbs06 eventIdFromSbs06
  simp only [Sbs.field, Dict.get_cons, String.reduceEq, if_false, if_true, ok_bind, Sbs.asInt,
    eventTypeSbs_roundtrip, timestampSbs_roundtrip, h1, h2, pure_ok]

theorem written06_conforms (jc : JsonCodec) (e : Event06) : Conforms (Written06 jc e) Schema.event06 := by
  rw [written06_eq]
  exact conforms_cons (conforms_cons (.int _) (conforms_cons (.int _) conforms_empty)) <|
    conforms_cons (eventType_conforms _) <| conforms_cons (timestamp_conforms _) <|
    conforms_cons (conforms_optional fun t _ => timestamp_conforms t) <|
    conforms_cons (conforms_optional fun p _ => oldPayload_conforms jc p) conforms_empty

theorem decodeOrderedKey06_pack {p s us i : Int} {b : Bytes}
    (h : pack [(8, p), (8, s + 2 ^ 63), (4, us), (8, i)] = .ok b) :
    decodeOrderedKey06 b = .ok ⟨p, ⟨s, us⟩, i⟩ := by
  have := unpack_pack h
  simp only [List.map_cons, List.map_nil] at this
  rw [decodeOrderedKey06, this]
  show Except.ok (OrderedKey06.mk p ⟨s + 2 ^ 63 - 2 ^ 63, us⟩ i) = _
  rw [Int.add_sub_cancel]

/-! ## Version -/

theorem encodeUint_zero : encodeUint 0 = .ok [0, 0, 0, 0, 0, 0, 0, 0] := by decide

/-- What is stored, in terms of the file. -/
theorem storedVersion_some {readJson : Bytes → Except PyErr Json} {f : RawFile} {v : Version} :
    storedVersion readJson f = some v ↔ ∃ db w d, Dict.get f "SYSTEM_SETTINGS" = some db ∧
      Dict.get db [0, 0, 0, 0, 0, 0, 0, 0] = some w ∧ readJson w = .ok d ∧ versionOf d = some v := by
  unfold storedVersion
  rw [encodeUint_zero]
  cases h1 : Dict.get f "SYSTEM_SETTINGS" with
  | none => simp
  | some db =>
    cases h2 : Dict.get db [0, 0, 0, 0, 0, 0, 0, 0] with
    | none => simp [h2]
    | some w =>
      cases h3 : readJson w with
      | error e => simp [h2, h3]
      | ok d => simp [h2, h3]

theorem versionOf_some {d : Json} {v : Version} : versionOf d = some v ↔
    (d = .str "0.6" ∧ v = .v06) ∨ (d = .str "0.7" ∧ v = .v07) ∨ (d = .str "0.9" ∧ v = .v09) := by
  cases d with
  | str s =>
    simp only [versionOf, Json.str.injEq]
    split_ifs with h1 h2 h3
    · subst h1; simp [eq_comm]
    · subst h2; simp [eq_comm]
    · subst h3; simp [eq_comm]
    · simp [h1, h2, h3]
  | _ => simp [versionOf]

end HatEvent
