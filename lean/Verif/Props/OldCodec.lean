import Verif.Proof.OldCodec
import Verif.Props.Codec
import Verif.Props.Sbs
import Verif.Props.LmdbOpen
import Verif.Props.Convert

/-! # C82: values of old database files are read as they were written, and their version is recognised -/

namespace HatEvent
open Spec

/-- C82: numbers of 0.7 (keys of all databases but ordered data and references, and counts); bytes after the value are
ignored. -/
theorem C82_uint {v : Int} {b : Bytes} (h : encodeUint v = .ok b) (r : Bytes) : decodeUint07 (b ++ r) = .ok v :=
  decodeUint07_pack h r

/-- C82: last event identifier and timestamp of a server in 0.7. -/
theorem C82_system (v : EventId × Timestamp) :
    ((∃ b, encodeSystem07 v = .ok b) ↔ IdRange v.1 ∧ TimeRange v.2) ∧
      ∀ b, encodeSystem07 v = .ok b → ∀ r, decodeSystem07 (b ++ r) = .ok v := by
  refine ⟨?_, fun b h r => decodeSystem07_pack h r⟩
  rw [← idFields_in, ← timeFields_in, ← pack_accepts, ← pack_accepts, encodeSystem07]
  show (∃ b, (do let a ← pack (idFields v.1); let b ← pack (timeFields v.2); return a ++ b) = Except.ok b) ↔ _
  cases pack (idFields v.1) with
  | error e => exact ⟨fun ⟨b, h⟩ => (by cases h), fun ⟨⟨b, h⟩, _⟩ => (by cases h)⟩
  | ok x =>
    cases pack (timeFields v.2) with
    | error e => exact ⟨fun ⟨b, h⟩ => (by cases h), fun ⟨_, b, h⟩ => (by cases h)⟩
    | ok y => exact ⟨fun _ => ⟨⟨x, rfl⟩, y, rfl⟩, fun _ => ⟨_, rfl⟩⟩

/-- C82: keys of ordered data in 0.7 are read back, and their bytes are in the order of partition, timestamp and
identifier, which is the order in which the conversion gets them. -/
theorem C82_ordered_key (k : TimeseriesKey) :
    ((∃ b, encodeOrderedKey07 k = .ok b) ↔ KeyRange k) ∧
      ∀ b, encodeOrderedKey07 k = .ok b → (∀ r, decodeOrderedKey07 (b ++ r) = .ok k) ∧
        ∀ l c, encodeOrderedKey07 l = .ok c → (BytesLt b c ↔ KeyLt k l) :=
  ⟨C12_key_accepts k, fun _ h => ⟨decodeOrderedKey07_pack h, fun _ _ h' => C12_key_order h h'⟩⟩

/-- C82: keys of references in 0.7. -/
theorem C82_ref_key {i : EventId} {b : Bytes} (h : encodeEventId i = .ok b) (r : Bytes) :
    decodeRefKey07 (b ++ r) = .ok i := decodeRefKey07_pack h r

/-- C82: references in 0.7, any number of both kinds in any order. -/
theorem C82_refs (l : List EventRef) :
    ((∃ b, encodeRefs07 l = .ok b) ↔ ∀ r ∈ l, RefRange r) ∧ ∀ b, encodeRefs07 l = .ok b → decodeRefs07 b = .ok l :=
  ⟨encodeRefs07_accepts, encodeRefs07_spec l⟩

/-- C82: references of no other database are read. -/
theorem C82_refs_unknown (tag : UInt8) (h1 : tag ≠ 1) (h3 : tag ≠ 3) (rest : Bytes) :
    ∃ m, decodeRefs07 (tag :: rest) = .error (.valueError m) := by
  refine ⟨"unsupported database type", ?_⟩
  rw [decodeRefs07, takeRef07, if_neg h1, if_neg h3]
  rfl

example : encodeUint 300 = .ok [0, 0, 0, 0, 0, 0, 1, 44] := by decide
example : IdRange ⟨1, 2, 3⟩ ∧ TimeRange ⟨-5, 7⟩ := by
  refine ⟨⟨⟨?_, ?_⟩, ⟨?_, ?_⟩, ⟨?_, ?_⟩⟩, ?_, ?_, ?_, ?_⟩ <;> norm_num
example : ∀ r ∈ [EventRef.latest 7, .timeseries ⟨1, ⟨-5, 7⟩, ⟨1, 2, 3⟩⟩], RefRange r := by
  intro r hr
  rcases List.mem_cons.1 hr with rfl | hr
  · exact ⟨by norm_num, by norm_num⟩
  · rw [List.mem_singleton.1 hr]
    refine ⟨⟨?_, ?_⟩, ⟨?_, ?_, ?_, ?_⟩, ⟨?_, ?_⟩, ⟨?_, ?_⟩, ⟨?_, ?_⟩⟩ <;> norm_num
example : (4 : UInt8) ≠ 1 ∧ (4 : UInt8) ≠ 3 := by decide

/-- C82: events of 0.7 come back unchanged and conform to the schema. -/
theorem C82_event07 (jc : JsonCodec) (e : Event07) (h : OldJsonReadable jc e.payload) :
    eventFromSbs07 jc (eventToSbs07 jc e) = .ok e ∧ Conforms (eventToSbs07 jc e) Schema.event07 :=
  ⟨event07_roundtrip h, event07_conforms jc e⟩

/-- C82: events as 0.6 wrote them are read, and are what the schema of 0.6 allows. -/
theorem C82_event06 (jc : JsonCodec) (e : Event06) (h : OldJsonReadable jc e.payload) :
    eventFromSbs06 jc (Written06 jc e) = .ok e ∧ Conforms (Written06 jc e) Schema.event06 :=
  ⟨event06_read h, written06_conforms jc e⟩

/-- C82: a payload of another kind is an error. -/
theorem C82_payload_unknown (jc : JsonCodec) (n : String) (v : Sbs) (h : n ∉ ["binary", "json", "sbs"]) :
    ∃ m, oldPayloadFromSbs jc (.choice n v) = .error (.valueError m) := by
  simp only [List.mem_cons, List.not_mem_nil, or_false, not_or] at h
  refine ⟨"unsupported payload type", ?_⟩
  simp only [oldPayloadFromSbs, Sbs.asChoice, ok_bind, if_neg h.1, if_neg h.2.1, if_neg h.2.2]
  rfl

/-- C82: keys of ordered data in 0.6. -/
theorem C82_ordered_key06 {p s us i : Int} {b : Bytes}
    (h : pack [(8, p), (8, s + 2 ^ 63), (4, us), (8, i)] = .ok b) :
    decodeOrderedKey06 b = .ok ⟨p, ⟨s, us⟩, i⟩ := decodeOrderedKey06_pack h

example : OldJsonReadable exCodec (some (.json (.obj []))) := by
  intro d h
  simp only [Option.some.injEq, OldPayload.json.injEq] at h
  subst h
  rfl
example : OldJsonReadable exCodec (some (.sbs ⟨some "M", "T", [1, 2]⟩)) := fun _ h => by cases h
example : "xml" ∉ ["binary", "json", "sbs"] := by decide
example : ∃ b, pack [(8, 3), (8, -5 + 2 ^ 63), (4, 7), (8, 9)] = .ok b := by
  refine pack_accepts.2 ?_
  intro f hf
  simp only [List.mem_cons, List.not_mem_nil, or_false] at hf
  rcases hf with rfl | rfl | rfl | rfl <;> norm_num

/-! ## Version -/

/-- C82: the version is exactly the stored one, and with none stored it is given by the databases in the file. -/
theorem C82_version (readJson : Bytes → Except PyErr Json) (f : RawFile) (v : Version) :
    getVersion readJson f = .ok v ↔
      (∃ db w s, Dict.get f "SYSTEM_SETTINGS" = some db ∧ Dict.get db [0, 0, 0, 0, 0, 0, 0, 0] = some w ∧
        readJson w = .ok (.str s) ∧ (s, v) ∈ [("0.6", Version.v06), ("0.7", .v07), ("0.9", .v09)]) ∨
      ((∀ db w s, Dict.get f "SYSTEM_SETTINGS" = some db → Dict.get db [0, 0, 0, 0, 0, 0, 0, 0] = some w →
          readJson w = .ok (.str s) → s ∉ ["0.6", "0.7", "0.9"]) ∧
        let has07 := ∀ n ∈ ["SYSTEM", "LATEST_DATA", "LATEST_TYPE", "ORDERED_DATA", "ORDERED_PARTITION",
          "ORDERED_COUNT", "REF"], n ∈ Dict.keys f
        let has06 := ∀ n ∈ ["system", "latest", "ordered_data", "ordered_partition", "ordered_count"], n ∈ Dict.keys f
        (v = .v07 ∧ has07) ∨ (v = .v06 ∧ ¬ has07 ∧ has06)) := by
  have e7 : names07.all (Dict.has f) = true ↔ ∀ n ∈ ["SYSTEM", "LATEST_DATA", "LATEST_TYPE", "ORDERED_DATA",
      "ORDERED_PARTITION", "ORDERED_COUNT", "REF"], n ∈ Dict.keys f := by
    rw [List.all_eq_true]; simp only [Dict.has_iff]; rfl
  have e6 : names06.all (Dict.has f) = true ↔ ∀ n ∈ ["system", "latest", "ordered_data", "ordered_partition",
      "ordered_count"], n ∈ Dict.keys f := by
    rw [List.all_eq_true]; simp only [Dict.has_iff]; rfl
  have hst : ∀ u, storedVersion readJson f = some u ↔
      ∃ db w s, Dict.get f "SYSTEM_SETTINGS" = some db ∧ Dict.get db [0, 0, 0, 0, 0, 0, 0, 0] = some w ∧
        readJson w = .ok (.str s) ∧ (s, u) ∈ [("0.6", Version.v06), ("0.7", .v07), ("0.9", .v09)] := by
    intro u
    rw [storedVersion_some]
    constructor
    · rintro ⟨db, w, d, h1, h2, h3, h4⟩
      rcases versionOf_some.1 h4 with ⟨rfl, rfl⟩ | ⟨rfl, rfl⟩ | ⟨rfl, rfl⟩ <;>
        exact ⟨db, w, _, h1, h2, h3, by simp⟩
    · rintro ⟨db, w, s, h1, h2, h3, h4⟩
      refine ⟨db, w, _, h1, h2, h3, versionOf_some.2 ?_⟩
      simpa using h4
  have hnone : storedVersion readJson f = none ↔ ∀ db w s, Dict.get f "SYSTEM_SETTINGS" = some db →
      Dict.get db [0, 0, 0, 0, 0, 0, 0, 0] = some w → readJson w = .ok (.str s) → s ∉ ["0.6", "0.7", "0.9"] := by
    constructor
    · intro h db w s h1 h2 h3 hs
      simp only [List.mem_cons, List.not_mem_nil, or_false] at hs
      rcases hs with rfl | rfl | rfl
      · rw [(hst .v06).2 ⟨db, w, _, h1, h2, h3, by simp⟩] at h; cases h
      · rw [(hst .v07).2 ⟨db, w, _, h1, h2, h3, by simp⟩] at h; cases h
      · rw [(hst .v09).2 ⟨db, w, _, h1, h2, h3, by simp⟩] at h; cases h
    · intro h
      cases hv : storedVersion readJson f with
      | none => rfl
      | some u =>
        obtain ⟨db, w, s, h1, h2, h3, h4⟩ := (hst u).1 hv
        refine absurd ?_ (h db w s h1 h2 h3)
        simp only [List.mem_cons, Prod.mk.injEq, List.not_mem_nil, or_false] at h4 ⊢
        tauto
  rw [← hst v, ← hnone, ← e7, ← e6, getVersion]
  cases storedVersion readJson f with
  | some u => simp only [Except.ok.injEq, Option.some.injEq, reduceCtorEq, false_and, or_false]
  | none =>
    by_cases h7 : names07.all (Dict.has f) = true
    · simp only [h7, if_true, Except.ok.injEq, reduceCtorEq, not_true, false_and, and_false, and_true, or_false,
        false_or, true_and]
      exact eq_comm
    · by_cases h6 : names06.all (Dict.has f) = true
      · rw [if_neg h7, if_pos h6]
        simp only [h7, h6, Except.ok.injEq, reduceCtorEq, and_false, and_true, false_or,
          true_and, Bool.false_eq_true, not_false_eq_true]
        exact eq_comm
      · simp [h7, h6]

/-- C82: a file that was opened by the backend is of version 0.9. -/
theorem C82_opened (writeJson : Json → Bytes) (readJson : Bytes → Except PyErr Json)
    (hj : readJson (writeJson (.str "0.9")) = .ok (.str "0.9")) (b : Backend)
    (hn : (Dict.keys b.disk.settings).Nodup) (c : Conf) (h : (b.step (.reopen c)).mem ≠ none) (f : RawFile)
    (hf : HoldsVersion writeJson f (b.step (.reopen c)).disk.settings) : getVersion readJson f = .ok .v09 := by
  obtain ⟨db, h1, h2⟩ := hf
  rw [(C46_opened b hn c h).1] at h2
  exact (C82_version readJson f .v09).2 (.inl ⟨db, _, "0.9", h1, h2, hj, by simp⟩)

/-- C82: a converted file is of version 0.9, so it is not converted again. -/
theorem C82_converted (writeJson : Json → Bytes) (readJson : Bytes → Except PyErr Json)
    (hj : readJson (writeJson (.str "0.9")) = .ok (.str "0.9")) (g : AnyFile) (d : Disk) (he : convertFile g = .ok d)
    (f : RawFile) (hf : HoldsVersion writeJson f d.settings) : getVersion readJson f = .ok .v09 := by
  have h07 : ∀ f07, convert07 f07 = .ok d → d.settings = [(.version, "0.9")] := by
    intro f07 he
    unfold convert07 at he
    obtain ⟨_, _, he⟩ := bind_ok he
    obtain ⟨_, _, he⟩ := bind_ok he
    obtain ⟨_, _, he⟩ := bind_ok he
    obtain ⟨_, _, he⟩ := bind_ok he
    obtain ⟨_, _, he⟩ := bind_ok he
    obtain ⟨_, _, he⟩ := bind_ok he
    obtain ⟨_, _, he⟩ := bind_ok he
    obtain ⟨_, _, he⟩ := bind_ok he
    cases he
    rfl
  have hs : d.settings = [(.version, "0.9")] := by
    cases g with
    | v06 f06 =>
      unfold convertFile at he
      obtain ⟨f07, _, he⟩ := bind_ok he
      exact h07 f07 he
    | v07 f07 => exact h07 f07 he
    | v09 d' => cases he
  obtain ⟨db, h1, h2⟩ := hf
  rw [hs] at h2
  exact (C82_version readJson f .v09).2 (.inl ⟨db, _, "0.9", h1, h2, hj, by simp⟩)

/-- C82: a file with the databases of 0.9 and no version (a conversion that failed leaves one) is of no version. -/
theorem C82_unfinished (writeJson : Json → Bytes) (readJson : Bytes → Except PyErr Json) (f : RawFile)
    (hk : ∀ n ∈ Dict.keys f, n ∈ Names09) (settings : Dict SettingsId String)
    (hv : Dict.get settings .version = none) (hf : HoldsVersion writeJson f settings) :
    ∃ m, getVersion readJson f = .error (.exception m) := by
  obtain ⟨db, h1, h2⟩ := hf
  rw [hv] at h2
  have hno : ∀ v, getVersion readJson f ≠ .ok v := by
    intro v hg
    rcases (C82_version readJson f v).1 hg with ⟨db', w, s, g1, g2, _⟩ | ⟨_, ⟨_, h⟩ | ⟨_, _, h⟩⟩
    · rw [h1] at g1
      injection g1 with g1
      subst g1
      rw [h2] at g2
      cases g2
    · exact absurd (hk _ (h "SYSTEM" (by simp))) (by decide)
    · exact absurd (hk _ (h "system" (by simp))) (by decide)
  unfold getVersion at hno ⊢
  split
  · rename_i v hv'
    rw [hv'] at hno
    exact absurd rfl (hno v)
  · rename_i hv'
    rw [hv'] at hno
    split_ifs with h7 h6
    · simp [h7] at hno
    · simp [h7, h6] at hno
    · exact ⟨_, rfl⟩

/-- Bytes of the version in the examples. -/
def exWriteVersion : Json → Bytes
  | .str "0.9" => [1]
  | _ => []

/-- A file of each version, and one that is of none. -/
def exRaw09 : RawFile := [("REF", []), ("SYSTEM_SETTINGS", [([0, 0, 0, 0, 0, 0, 0, 0], [1])])]
def exRaw07 : RawFile := names07.map fun n => (n, [])
def exRaw06 : RawFile := names06.map fun n => (n, [])

/-- Reads `[1]` as the version 0.9. -/
def exReadVersion : Bytes → Except PyErr Json
  | [1] => .ok (.str "0.9")
  | _ => .error (.valueError "json")

example : exReadVersion (exWriteVersion (.str "0.9")) = .ok (.str "0.9") := rfl
example : ((Backend.new (exConf none [])).step (.reopen (exConf (some "x") []))).mem ≠ none := exOpened_mem
example : HoldsVersion exWriteVersion exRaw09 [(.version, "0.9")] :=
  ⟨[([0, 0, 0, 0, 0, 0, 0, 0], [1])], by decide, by decide⟩
example : getVersion exReadVersion exRaw09 = .ok .v09 :=
  (C82_version _ _ _).2 (.inl ⟨[([0, 0, 0, 0, 0, 0, 0, 0], [1])], [1], "0.9", by decide, by decide, rfl, by decide⟩)
example : getVersion exReadVersion exRaw07 = .ok .v07 :=
  (C82_version _ _ _).2 (.inr ⟨fun _ _ _ h => (by
    rw [show Dict.get exRaw07 "SYSTEM_SETTINGS" = none by decide] at h; cases h), .inl ⟨rfl, by decide⟩⟩)
example : getVersion exReadVersion exRaw06 = .ok .v06 :=
  (C82_version _ _ _).2 (.inr ⟨fun _ _ _ h => (by
    rw [show Dict.get exRaw06 "SYSTEM_SETTINGS" = none by decide] at h; cases h), .inr ⟨rfl, by decide, by decide⟩⟩)
example : HoldsVersion exWriteVersion [("SYSTEM_SETTINGS", []), ("REF", [])] [] ∧
    ∀ n ∈ Dict.keys ([("SYSTEM_SETTINGS", []), ("REF", [])] : RawFile), n ∈ Names09 :=
  ⟨⟨[], by decide, by decide⟩, by decide⟩

end HatEvent
