import Verif.Spec.LmdbBytes
import Verif.Proof.LmdbCleanup
import Verif.Proof.LmdbReturned
import Verif.Props.Sbs

/-! # The backend on bytes does what the backend on decoded tables does -/

namespace HatEvent
open Spec

/-! ### Results -/

/-- Both raise the same or return related values. -/
def RelE {α β : Type} (R : α → β → Prop) : Except PyErr α → Except PyErr β → Prop
  | .ok a, .ok b => R a b
  | .error e, .error f => e = f
  | _, _ => False

theorem RelE.bind {α β γ δ : Type} {R : α → β → Prop} {S : γ → δ → Prop} {x : Except PyErr α}
    {y : Except PyErr β} {f : α → Except PyErr γ} {g : β → Except PyErr δ} (h : RelE R x y)
    (hfg : ∀ a b, R a b → RelE S (f a) (g b)) : RelE S (x >>= f) (y >>= g) := by
  cases x <;> cases y
  · exact h
  · exact h.elim
  · exact h.elim
  · exact hfg _ _ h

theorem RelE.rfl' {α : Type} (x : Except PyErr α) : RelE Eq x x := by
  cases x <;> rfl

theorem RelE.of_eq {α : Type} {x y : Except PyErr α} (h : x = y) : RelE Eq x y := by
  subst h
  exact RelE.rfl' x

theorem RelE.eq {α : Type} {x y : Except PyErr α} (h : RelE Eq x y) : x = y := by
  cases x <;> cases y <;> first | exact h.elim | (cases h; rfl)

theorem RelE.foldlM {α β γ : Type} {R : α → β → Prop} {f : α → γ → Except PyErr α} {g : β → γ → Except PyErr β}
    (l : List γ) (hfg : ∀ a b, R a b → ∀ c ∈ l, RelE R (f a c) (g b c)) {a : α} {b : β} (h : R a b) :
    RelE R (l.foldlM f a) (l.foldlM g b) := by
  induction l generalizing a b with
  | nil => exact h
  | cons c l ih =>
    rw [List.foldlM_cons, List.foldlM_cons]
    exact RelE.bind (hfg a b h c (by simp)) fun a' b' h' => ih (fun a b h c hc => hfg a b h c (by simp [hc])) h'

/-! ### Order of bytes -/

theorem bytesLt_iff : ∀ {a b : Bytes}, bytesLt a b = true ↔ BytesLt a b
  | [], [] => by simp [bytesLt, BytesLt]
  | [], _ :: _ => by simp [bytesLt, BytesLt]
  | _ :: _, [] => by simp [bytesLt, BytesLt]
  | a :: l, b :: m => by
    have ih := bytesLt_iff (a := l) (b := m)
    simp only [bytesLt, BytesLt]
    split
    · next h => subst h; simp [ih]
    · next h => simp [h]

theorem bytesLt_eq {a b : Bytes} {p : Bool} (h : BytesLt a b ↔ p = true) : bytesLt a b = p := by
  rw [Bool.eq_iff_iff, bytesLt_iff, h]

/-! ### Definitions of databases -/

variable {κ υ : Type} [DecidableEq κ] [DbKey κ] [Encodable υ]

/-- The encodings of a database: keys are read back and in order, `good` values are read back. -/
structure DbDef.Lawful (d : DbDef κ υ) (good : υ → Prop) : Prop where
  key : ∀ k, d.encodeKey k = Encodable.encode k
  readKey : ∀ {k b}, d.encodeKey k = .ok b → d.decodeKey b = .ok k
  lt : ∀ {k l b c}, d.encodeKey k = .ok b → d.encodeKey l = .ok c → bytesLt b c = DbKey.lt k l
  value : ∀ v, RelE (fun _ _ => True) (d.encodeValue v) (Encodable.encode v)
  readValue : ∀ {v b}, good v → d.encodeValue v = .ok b → d.decodeValue b = .ok v

/-- Values are at least one byte. -/
def DbDef.NonEmpty (d : DbDef κ υ) (good : υ → Prop) : Prop :=
  ∀ {v b}, good v → d.encodeValue v = .ok b → b ≠ []

/-- The table holds the entries, all of them `good`. -/
def Enc (d : DbDef κ υ) (good : υ → Prop) (tb : ByteTable) (td : Table κ υ) : Prop :=
  List.Forall₂ (fun x y => d.encodeKey y.1 = .ok x.1 ∧ d.encodeValue y.2 = .ok x.2 ∧ good y.2) tb td

variable {d : DbDef κ υ} {good : υ → Prop} {tb : ByteTable} {td : Table κ υ}

theorem Enc.holds (h : Enc d good tb td) : Holds d.encodeKey d.encodeValue tb td :=
  h.imp fun _ _ h => ⟨h.1, h.2.1⟩

theorem DbDef.Lawful.inj (hd : d.Lawful good) {k l : κ} {b c : Bytes} (hk : d.encodeKey k = .ok b)
    (hl : d.encodeKey l = .ok c) : b = c ↔ k = l := by
  constructor
  · rintro rfl
    have h1 := hd.readKey hk
    rw [hd.readKey hl] at h1
    injection h1 with h1
    exact h1.symm
  · rintro rfl
    rw [hk] at hl
    injection hl

theorem enc_get (hd : d.Lawful good) (hn : d.NonEmpty good) (h : Enc d good tb td) {k : κ} {b : Bytes}
    (hk : d.encodeKey k = .ok b) : d.decodeFound (Dict.get tb b) = .ok (Dict.get td k) := by
  induction h with
  | nil => rfl
  | @cons x y tb td hxy _ ih =>
    rw [Dict.get_cons, Dict.get_cons]
    by_cases he : x.1 = b
    · rw [if_pos he, if_pos ((hd.inj hxy.1 hk).1 he)]
      have h1 := hn hxy.2.2 hxy.2.1
      have h2 := hd.readValue hxy.2.2 hxy.2.1
      unfold DbDef.decodeFound
      cases hx : x.2 with
      | nil => exact absurd hx h1
      | cons c l => rw [hx] at h2; simp only [h2]; rfl
    · rw [if_neg he, if_neg (fun h => he ((hd.inj hxy.1 hk).2 h)), ih]

theorem enc_good (h : Enc d good tb td) {k : κ} {v : υ} (hk : Dict.get td k = some v) : good v := by
  induction h with
  | nil => cases hk
  | @cons x y tb td hxy _ ih =>
    rw [Dict.get_cons] at hk
    split at hk
    · injection hk with hk; rw [← hk]; exact hxy.2.2
    · exact ih hk

theorem enc_put (hd : d.Lawful good) (h : Enc d good tb td) {k : κ} {b : Bytes} {v : υ} {w : Bytes}
    (hk : d.encodeKey k = .ok b) (hv : d.encodeValue v = .ok w) (hg : good v) :
    Enc d good (Table.put tb b w) (Table.put td k v) := by
  induction h with
  | nil => exact .cons ⟨hk, hv, hg⟩ .nil
  | @cons x y tb td hxy ht ih =>
    obtain ⟨x1, x2⟩ := x
    obtain ⟨y1, y2⟩ := y
    rw [Table.put, Table.put]
    have hlt : DbKey.lt b x1 = DbKey.lt k y1 := hd.lt hk hxy.1
    by_cases he : x1 = b
    · rw [if_pos he, if_pos ((hd.inj hxy.1 hk).1 he)]
      exact .cons ⟨hk, hv, hg⟩ ht
    · rw [if_neg he, if_neg (fun h => he ((hd.inj hxy.1 hk).2 h)), hlt]
      split
      · exact .cons ⟨hk, hv, hg⟩ (.cons hxy ht)
      · exact .cons hxy ih

theorem enc_del (hd : d.Lawful good) (h : Enc d good tb td) {k : κ} {b : Bytes} (hk : d.encodeKey k = .ok b) :
    Enc d good (Dict.del tb b) (Dict.del td k) := by
  induction h with
  | nil => exact .nil
  | @cons x y tb td hxy ht ih =>
    obtain ⟨x1, x2⟩ := x
    obtain ⟨y1, y2⟩ := y
    rw [Dict.del, Dict.del]
    by_cases he : x1 = b
    · rw [if_pos he, if_pos ((hd.inj hxy.1 hk).1 he)]
      exact ih
    · rw [if_neg he, if_neg (fun h => he ((hd.inj hxy.1 hk).2 h))]
      exact .cons hxy ih

theorem enc_takeWhile (h : Enc d good tb td) {P : Bytes × Bytes → Bool} {Q : κ × υ → Bool}
    (hpq : ∀ x y, d.encodeKey y.1 = .ok x.1 → P x = Q y) : Enc d good (tb.takeWhile P) (td.takeWhile Q) := by
  induction h with
  | nil => exact .nil
  | @cons x y tb td hxy ht ih =>
    rw [List.takeWhile_cons, List.takeWhile_cons, hpq x y hxy.1]
    split
    · exact .cons hxy ih
    · exact .nil

theorem enc_dropWhile (h : Enc d good tb td) {P : Bytes × Bytes → Bool} {Q : κ × υ → Bool}
    (hpq : ∀ x y, d.encodeKey y.1 = .ok x.1 → P x = Q y) : Enc d good (tb.dropWhile P) (td.dropWhile Q) := by
  induction h with
  | nil => exact .nil
  | @cons x y tb td hxy ht ih =>
    rw [List.dropWhile_cons, List.dropWhile_cons, hpq x y hxy.1]
    split
    · exact ih
    · exact .cons hxy ht

theorem enc_reverse (h : Enc d good tb td) : Enc d good tb.reverse td.reverse :=
  List.rel_reverse h

theorem enc_fromKey (hd : d.Lawful good) (h : Enc d good tb td) {k : κ} {b : Bytes} (hk : d.encodeKey k = .ok b) :
    Enc d good (Table.fromKey tb b) (Table.fromKey td k) :=
  enc_dropWhile h fun _ _ hxy => hd.lt hxy hk

theorem enc_beforeKey (hd : d.Lawful good) (h : Enc d good tb td) {k : κ} {b : Bytes} (hk : d.encodeKey k = .ok b) :
    Enc d good (Table.beforeKey tb b) (Table.beforeKey td k) :=
  enc_reverse (enc_takeWhile h fun _ _ hxy => hd.lt hxy hk)

theorem enc_read (hd : d.Lawful good) (h : Enc d good tb td) : d.read tb = .ok td := by
  induction h with
  | nil => rfl
  | @cons x y tb td hxy ht ih =>
    obtain ⟨x1, x2⟩ := x
    rw [DbDef.read, hd.readKey hxy.1, hd.readValue hxy.2.2 hxy.2.1, ih]
    rfl

theorem enc_values (hd : d.Lawful good) (h : Enc d good tb td) : d.values tb = .ok (td.map Prod.snd) := by
  unfold DbDef.values
  induction h with
  | nil => rfl
  | @cons x y tb td hxy ht ih =>
    rw [mapE, hd.readValue hxy.2.2 hxy.2.1, ih]
    rfl

theorem encodeKey_rel (hd : d.Lawful good) (k : κ) :
    RelE (fun b _ => d.encodeKey k = .ok b) (d.encodeKey k) (Encodable.encode k) := by
  rw [← hd.key]
  cases h : d.encodeKey k
  · exact rfl
  · rfl

theorem encodeValue_rel (hd : d.Lawful good) (v : υ) :
    RelE (fun b _ => d.encodeValue v = .ok b) (d.encodeValue v) (Encodable.encode v) := by
  have h := hd.value v
  cases h1 : d.encodeValue v <;> cases h2 : (Encodable.encode v : Except PyErr Bytes) <;> rw [h1, h2] at h
  · exact h
  · exact h.elim
  · exact h.elim
  · rfl

theorem enc_write (hd : d.Lawful good) (l : List (κ × υ)) (hg : ∀ p ∈ l, good p.2) {tb : ByteTable} {td : Table κ υ}
    (h : Enc d good tb td) : RelE (Enc d good) (d.write tb l) (Table.write td l) := by
  induction l generalizing tb td with
  | nil => exact h
  | cons p l ih =>
    obtain ⟨k, v⟩ := p
    rw [DbDef.write, Table.write]
    refine RelE.bind (encodeKey_rel hd k) fun b _ hb => ?_
    refine RelE.bind (encodeValue_rel hd v) fun w _ hw => ?_
    exact ih (fun p hp => hg p (by simp [hp])) (enc_put hd h hb hw (hg (k, v) (by simp)))

theorem enc_length (h : Enc d good tb td) : tb.length = td.length := h.length_eq

/-! ### The databases -/

theorem decodeText_encodeText (s : String) : decodeText (encodeText s) = .ok s := by
  unfold decodeText encodeText String.fromUTF8?
  have h0 : (⟨s.toByteArray.data.toList.toArray⟩ : ByteArray) = s.toByteArray := by simp
  rw [h0]
  have h := s.isValidUTF8
  simp [h, String.fromUTF8]

theorem typeFromJson_typeToJson (t : EventType) : typeFromJson (typeToJson t) = .ok t := by
  unfold typeFromJson typeToJson
  have : mapE Json.readStr (t.map .str) = .ok (t.map id) := mapE_map fun _ _ => rfl
  rw [List.map_id] at this
  exact this

theorem partitionFromJson_toJson (p : PartitionData) : partitionFromJson (partitionToJson p) = .ok p := by
  have : mapE typeFromJson (p.subscriptions.map typeToJson) = .ok (p.subscriptions.map id) :=
    mapE_map fun a _ => typeFromJson_typeToJson a
  rw [List.map_id] at this
  obtain ⟨o, l⟩ := p
  have h1 : (partitionToJson ⟨o, l⟩).readField "order" = .ok (.str o.value) := rfl
  have h2 : (partitionToJson ⟨o, l⟩).readField "subscriptions" = .ok (.arr (l.map typeToJson)) := rfl
  have h3 : orderFromValue o.value = .ok o := by cases o <;> rfl
  unfold partitionFromJson
  rw [h1, h2]
  simp only [bind, Except.bind, Json.readStr, Json.readList, h3]
  rw [this]
  rfl

theorem decodeJson_encodeJson {env : ByteEnv} (he : LawfulEnv env) {j : Json} (hj : StoredJson j) :
    env.decodeJson (env.encodeJson j) = .ok j := by
  unfold ByteEnv.decodeJson ByteEnv.encodeJson
  rw [decodeText_encodeText]
  exact he.json j hj

theorem storedJson_partition (p : PartitionData) : StoredJson (partitionToJson p) :=
  .inr (.inr ⟨p.order.value, p.subscriptions, rfl⟩)

theorem toSet_nodup {α : Type} [DecidableEq α] {l : List α} (h : l.Nodup) : toSet l = l := by
  induction l with
  | nil => rfl
  | cons a l ih =>
    rw [List.nodup_cons] at h
    rw [toSet, if_neg h.1, ih h.2]

/-- `SettingsId` in the order of the numbers. -/
instance : DbKey SettingsId where
  encode k := encodeUint k.value
  lt a b := decide (a.value < b.value)

instance : Encodable String := ⟨fun _ => .ok []⟩

theorem encodeUint_lt {k l : Int} {b c : Bytes} (hk : encodeUint k = .ok b) (hl : encodeUint l = .ok c) :
    bytesLt b c = decide (k < l) := bytesLt_eq (by rw [(C12_uint hk hl).2, decide_eq_true_iff])

theorem lawful_settings {env : ByteEnv} (he : LawfulEnv env) : (settingsDef env).Lawful fun _ => True where
  key _ := rfl
  readKey {k b} h := by
    show (decodeUint b >>= settingsIdFromValue) = _
    rw [(C12_uint h h).1]
    cases k <;> rfl
  lt h1 h2 := encodeUint_lt h1 h2
  value _ := trivial
  readValue {v b} _ h := by
    injection h with h
    subst h
    show (env.decodeJson (env.encodeJson (.str v)) >>= Json.readStr) = _
    rw [decodeJson_encodeJson he (.inl ⟨v, rfl⟩)]
    rfl

theorem lawful_lastEventId : lastEventIdDef.Lawful fun _ => True where
  key _ := rfl
  readKey h := (C12_uint h h).1
  lt h1 h2 := encodeUint_lt h1 h2
  value v := by
    show RelE _ (encodeEventId v) (encodeEventId v)
    cases encodeEventId v
    · exact rfl
    · trivial
  readValue _ h := C12_event_id_roundtrip h

theorem lawful_lastTimestamp : lastTimestampDef.Lawful fun _ => True where
  key _ := rfl
  readKey h := (C12_uint h h).1
  lt h1 h2 := encodeUint_lt h1 h2
  value v := by
    show RelE _ (timestampToBytes v) (timestampToBytes v)
    cases timestampToBytes v
    · exact rfl
    · trivial
  readValue _ h := (C11_roundtrip h).1

/-- Sets of references in the file. -/
def GoodRefs (refs : List EventRef) : Prop := refs.Nodup ∧ refs ≠ []

theorem lawful_ref : refDef.Lawful GoodRefs where
  key _ := rfl
  readKey h := C12_event_id_roundtrip h
  lt h1 h2 := bytesLt_eq (by rw [C12_event_id_order h1 h2]; exact idKey_lt.symm)
  value v := by
    show RelE _ (encodeEventRefs v) (encodeEventRefs v)
    cases encodeEventRefs v
    · exact rfl
    · trivial
  readValue {v b} hg h := by
    show (decodeEventRefs b >>= fun r => pure (toSet r)) = _
    rw [C13_roundtrip h]
    show Except.ok (toSet v) = _
    rw [toSet_nodup hg.1]

theorem nonEmpty_ref : refDef.NonEmpty GoodRefs := by
  intro v b hg h hb
  subst hb
  have := C13_roundtrip h
  rw [decodeEventRefs] at this
  injection this with this
  exact hg.2 this.symm

/-- Events in the file. -/
def GoodEvent (env : ByteEnv) (e : Event) : Prop := JsonReadable env.json e.payload

theorem decodeEvent_encodeEvent {env : ByteEnv} (he : LawfulEnv env) {e : Event} (hg : GoodEvent env e) :
    env.decodeEvent (env.encodeEvent e) = .ok e := by
  obtain ⟨h1, h2⟩ := C14_event env.json e hg
  unfold ByteEnv.decodeEvent ByteEnv.encodeEvent
  rw [he.sbs _ h2]
  exact h1

theorem lawful_latestData {env : ByteEnv} (he : LawfulEnv env) : (latestDataDef env).Lawful (GoodEvent env) where
  key _ := rfl
  readKey h := (C12_uint h h).1
  lt h1 h2 := encodeUint_lt h1 h2
  value _ := trivial
  readValue {v b} hg h := by
    injection h with h
    subst h
    exact decodeEvent_encodeEvent he hg

theorem nonEmpty_latestData {env : ByteEnv} (he : LawfulEnv env) : (latestDataDef env).NonEmpty (GoodEvent env) := by
  intro v b hg h
  injection h with h
  subst h
  exact he.bytes _ (C14_event env.json v hg).2

theorem lawful_latestType {env : ByteEnv} (he : LawfulEnv env) : (latestTypeDef env).Lawful fun _ => True where
  key _ := rfl
  readKey h := (C12_uint h h).1
  lt h1 h2 := encodeUint_lt h1 h2
  value _ := trivial
  readValue {v b} _ h := by
    injection h with h
    subst h
    show (env.decodeJson (env.encodeJson (typeToJson v)) >>= typeFromJson) = _
    rw [decodeJson_encodeJson he (j := typeToJson v) (.inr (.inl ⟨v, rfl⟩))]
    exact typeFromJson_typeToJson v

theorem lawful_tsData {env : ByteEnv} (he : LawfulEnv env) : (tsDataDef env).Lawful (GoodEvent env) where
  key _ := rfl
  readKey h := C12_key_roundtrip h
  lt h1 h2 := bytesLt_eq (by rw [C12_key_order h1 h2]; exact tsKey_lt.symm)
  value _ := trivial
  readValue {v b} hg h := by
    injection h with h
    subst h
    exact decodeEvent_encodeEvent he hg

theorem nonEmpty_tsData {env : ByteEnv} (he : LawfulEnv env) : (tsDataDef env).NonEmpty (GoodEvent env) := by
  intro v b hg h
  injection h with h
  subst h
  exact he.bytes _ (C14_event env.json v hg).2

theorem lawful_tsPartition {env : ByteEnv} (he : LawfulEnv env) : (tsPartitionDef env).Lawful fun _ => True where
  key _ := rfl
  readKey h := (C12_uint h h).1
  lt h1 h2 := encodeUint_lt h1 h2
  value _ := trivial
  readValue {v b} _ h := by
    injection h with h
    subst h
    show (env.decodeJson (env.encodeJson (partitionToJson v)) >>= partitionFromJson) = _
    rw [decodeJson_encodeJson he (storedJson_partition v)]
    exact partitionFromJson_toJson v

theorem lawful_tsCount : tsCountDef.Lawful fun _ => True where
  key _ := rfl
  readKey h := (C12_uint h h).1
  lt h1 h2 := encodeUint_lt h1 h2
  value v := by
    show RelE _ (encodeUint v) (encodeUint v)
    cases encodeUint v
    · exact rfl
    · trivial
  readValue _ h := (C12_uint h h).1

theorem nonEmpty_tsCount : tsCountDef.NonEmpty fun _ => True := by
  intro v b _ h hb
  subst hb
  have := (C12_uint h h).1
  cases this

end HatEvent
