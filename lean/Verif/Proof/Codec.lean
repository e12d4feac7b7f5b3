import Verif.Spec.Codec
import Verif.Proof.Event

/-! Lemmas about byte encodings. -/

namespace HatEvent
open Spec

theorem beBytes_length : ∀ n v, (beBytes n v).length = n
  | 0, _ => rfl
  | n + 1, v => by simp [beBytes, beBytes_length n]

theorem beValue_snoc (l : Bytes) (b : UInt8) : beValue (l ++ [b]) = beValue l * 256 + b.toNat := by
  simp [beValue, List.foldl_append]

theorem beValue_beBytes : ∀ n v, v < 256 ^ n → beValue (beBytes n v) = v
  | 0, v, h => by simp at h; simp [beBytes, beValue, h]
  | n + 1, v, h => by
    have hd : v / 256 < 256 ^ n := by
      rw [Nat.div_lt_iff_lt_mul (by norm_num)]
      rwa [pow_succ] at h
    rw [beBytes, beValue_snoc, beValue_beBytes n _ hd]
    have : (UInt8.ofNat (v % 256)).toNat = v % 256 := by
      simp
    rw [this]
    omega

theorem BytesLt.irrefl : ∀ l, ¬ BytesLt l l
  | [] => id
  | a :: l => by
    rintro (h | ⟨_, h⟩)
    · exact absurd h (UInt8.lt_irrefl a)
    · exact BytesLt.irrefl l h

theorem bytesLt_append : ∀ {l l' : Bytes} {m m' : Bytes}, l.length = l'.length →
    (BytesLt (l ++ m) (l' ++ m') ↔ BytesLt l l' ∨ (l = l' ∧ BytesLt m m'))
  | [], [], m, m', _ => by simp [BytesLt]
  | a :: l, b :: l', m, m', h => by
    have ih := bytesLt_append (l := l) (l' := l') (m := m) (m' := m') (by simpa using h)
    simp only [List.cons_append, BytesLt, ih, List.cons.injEq]
    tauto

theorem bytesLt_beBytes : ∀ n v w, v < 256 ^ n → w < 256 ^ n →
    (BytesLt (beBytes n v) (beBytes n w) ↔ v < w)
  | 0, v, w, hv, hw => by simp at hv hw; simp [beBytes, BytesLt, hv, hw]
  | n + 1, v, w, hv, hw => by
    have hd : v / 256 < 256 ^ n := by
      rw [Nat.div_lt_iff_lt_mul (by norm_num)]; rwa [pow_succ] at hv
    have hd' : w / 256 < 256 ^ n := by
      rw [Nat.div_lt_iff_lt_mul (by norm_num)]; rwa [pow_succ] at hw
    rw [beBytes, beBytes, bytesLt_append (by simp [beBytes_length]), bytesLt_beBytes n _ _ hd hd']
    have hinj : beBytes n (v / 256) = beBytes n (w / 256) ↔ v / 256 = w / 256 := by
      constructor
      · intro h
        rw [← beValue_beBytes n _ hd, h, beValue_beBytes n _ hd']
      · intro h; rw [h]
    have hb : BytesLt [UInt8.ofNat (v % 256)] [UInt8.ofNat (w % 256)] ↔ v % 256 < w % 256 := by
      simp [BytesLt, UInt8.lt_iff_toNat_lt]
    rw [hinj, hb]
    omega

/-! ## Sequences of fields -/

/-- All fields fit. -/
def FieldsIn (fs : List (Nat × Int)) : Prop := ∀ f ∈ fs, 0 ≤ f.2 ∧ f.2 < (256 ^ f.1 : Nat)

/-- Lexicographic order of field values. -/
def LexLt : List Int → List Int → Prop
  | [], _ => False
  | _ :: _, [] => False
  | a :: l, b :: m => a < b ∨ (a = b ∧ LexLt l m)

/-- The bytes of fields. -/
def fieldBytes (fs : List (Nat × Int)) : Bytes := (fs.map fun f => beBytes f.1 f.2.toNat).flatten

theorem pack_eq : ∀ fs, FieldsIn fs → pack fs = .ok (fieldBytes fs)
  | [], _ => rfl
  | (n, v) :: r, h => by
    have h1 := h (n, v) (by simp)
    have ih := pack_eq r (fun f hf => h f (by simp [hf]))
    rw [pack, packUint, if_pos h1, ih]
    rfl

theorem pack_error : ∀ fs, ¬ FieldsIn fs → pack fs = .error .structError
  | [], h => absurd (by simp [FieldsIn]) h
  | (n, v) :: r, h => by
    rw [pack, packUint]
    split_ifs with h1
    · have hr : ¬ FieldsIn r := fun hr => h (by
        intro f hf
        rcases List.mem_cons.1 hf with rfl | hf
        · exact h1
        · exact hr f hf)
      rw [pack_error r hr]
      rfl
    · rfl

theorem pack_ok {fs : List (Nat × Int)} {l : Bytes} (h : pack fs = .ok l) :
    FieldsIn fs ∧ l = fieldBytes fs := by
  by_cases hf : FieldsIn fs
  · rw [pack_eq fs hf] at h
    exact ⟨hf, by injection h with h; exact h.symm⟩
  · rw [pack_error fs hf] at h
    exact absurd h (by simp)

theorem unpackFields_bytes : ∀ fs m, FieldsIn fs →
    unpackFields (fs.map Prod.fst) (fieldBytes fs ++ m) = fs.map Prod.snd
  | [], _, _ => rfl
  | (n, v) :: r, m, h => by
    have h1 := h (n, v) (by simp)
    have ih := unpackFields_bytes r m (fun f hf => h f (by simp [hf]))
    have hb : fieldBytes ((n, v) :: r) ++ m = beBytes n v.toNat ++ (fieldBytes r ++ m) := by
      simp [fieldBytes]
    rw [List.map_cons, List.map_cons, unpackFields, hb]
    have ht : (beBytes n v.toNat ++ (fieldBytes r ++ m)).take n = beBytes n v.toNat := by
      rw [List.take_append_of_le_length (by simp [beBytes_length]),
        List.take_of_length_le (by simp [beBytes_length])]
    have hdr : (beBytes n v.toNat ++ (fieldBytes r ++ m)).drop n = fieldBytes r ++ m :=
      List.drop_left' (beBytes_length _ _)
    simp only at h1
    rw [ht, hdr, ih, beValue_beBytes n _ (by omega)]
    simp
    omega

theorem fieldBytes_length (fs : List (Nat × Int)) :
    (fieldBytes fs).length = (fs.map Prod.fst).foldl (· + ·) 0 := by
  have aux : ∀ (l : List Nat) k, l.foldl (· + ·) k = k + l.foldl (· + ·) 0 := by
    intro l
    induction l with
    | nil => simp
    | cons a l ih => intro k; rw [List.foldl_cons, List.foldl_cons, ih, ih (0 + a)]; omega
  induction fs with
  | nil => rfl
  | cons f fs ih =>
    have : fieldBytes (f :: fs) = beBytes f.1 f.2.toNat ++ fieldBytes fs := by simp [fieldBytes]
    rw [this, List.length_append, beBytes_length, ih, List.map_cons, List.foldl_cons, aux _ (0 + f.1)]
    omega

theorem unpack_pack {fs : List (Nat × Int)} {l : Bytes} (h : pack fs = .ok l) :
    unpack (fs.map Prod.fst) l = .ok (fs.map Prod.snd) := by
  obtain ⟨hf, rfl⟩ := pack_ok h
  rw [unpack, if_pos (fieldBytes_length fs)]
  have := unpackFields_bytes fs [] hf
  rw [List.append_nil] at this
  rw [this]

theorem bytesLt_fields : ∀ (fs gs : List (Nat × Int)), FieldsIn fs → FieldsIn gs →
    fs.map Prod.fst = gs.map Prod.fst →
    (BytesLt (fieldBytes fs) (fieldBytes gs) ↔ LexLt (fs.map Prod.snd) (gs.map Prod.snd))
  | [], [], _, _, _ => by simp [fieldBytes, BytesLt, LexLt]
  | (n, v) :: r, (n', w) :: r', h, h', he => by
    simp only [List.map_cons, List.cons.injEq] at he
    obtain ⟨rfl, he⟩ := he
    have h1 := h (n, v) (by simp)
    have h2 := h' (n, w) (by simp)
    simp only at h1 h2
    have ih := bytesLt_fields r r' (fun f hf => h f (by simp [hf])) (fun f hf => h' f (by simp [hf])) he
    have e1 : fieldBytes ((n, v) :: r) = beBytes n v.toNat ++ fieldBytes r := by simp [fieldBytes]
    have e2 : fieldBytes ((n, w) :: r') = beBytes n w.toNat ++ fieldBytes r' := by simp [fieldBytes]
    rw [e1, e2, bytesLt_append (by simp [beBytes_length]),
      bytesLt_beBytes n _ _ (by omega) (by omega), ih]
    simp only [List.map_cons, LexLt]
    have hinj : beBytes n v.toNat = beBytes n w.toNat ↔ v = w := by
      constructor
      · intro h
        have : v.toNat = w.toNat := by
          rw [← beValue_beBytes n v.toNat (by omega), h, beValue_beBytes n _ (by omega)]
        omega
      · intro h; rw [h]
    rw [hinj]
    have : v.toNat < w.toNat ↔ v < w := by omega
    rw [this]

theorem pack_inj {fs gs : List (Nat × Int)} {l : Bytes} (hw : fs.map Prod.fst = gs.map Prod.fst)
    (h : pack fs = .ok l) (h' : pack gs = .ok l) : fs.map Prod.snd = gs.map Prod.snd := by
  have h1 := unpack_pack h
  have h2 := unpack_pack h'
  rw [hw, h2] at h1
  injection h1 with h1
  exact h1.symm

theorem pack_lt {fs gs : List (Nat × Int)} {l m : Bytes} (hw : fs.map Prod.fst = gs.map Prod.fst)
    (h : pack fs = .ok l) (h' : pack gs = .ok m) :
    BytesLt l m ↔ LexLt (fs.map Prod.snd) (gs.map Prod.snd) := by
  obtain ⟨hf, rfl⟩ := pack_ok h
  obtain ⟨hg, rfl⟩ := pack_ok h'
  exact bytesLt_fields fs gs hf hg hw

theorem pack_length {fs : List (Nat × Int)} {l : Bytes} (h : pack fs = .ok l) :
    l.length = (fs.map Prod.fst).foldl (· + ·) 0 := by
  obtain ⟨_, rfl⟩ := pack_ok h
  exact fieldBytes_length fs

/-- The fields of a timestamp. -/
def timeFields (t : Timestamp) : List (Nat × Int) := [(8, t.s + 2 ^ 63), (4, t.us)]

/-- The fields of an identifier. -/
def idFields (i : EventId) : List (Nat × Int) := [(8, i.server), (8, i.session), (8, i.instance_)]

/-- The fields of a timeseries key. -/
def keyFields (k : TimeseriesKey) : List (Nat × Int) :=
  (8, k.partition) :: (timeFields k.timestamp ++ idFields k.id)

theorem uintFields_in {v : Int} : FieldsIn [(8, v)] ↔ U64 v := by
  simp [FieldsIn, U64]

theorem timeFields_in {t : Timestamp} : FieldsIn (timeFields t) ↔ TimeRange t := by
  simp only [FieldsIn, timeFields, List.mem_cons, List.not_mem_nil, or_false, forall_eq_or_imp,
    forall_eq, TimeRange]
  norm_num
  omega

theorem idFields_in {i : EventId} : FieldsIn (idFields i) ↔ IdRange i := by
  simp only [FieldsIn, idFields, List.mem_cons, List.not_mem_nil, or_false, forall_eq_or_imp,
    forall_eq, IdRange, U64]
  norm_num

theorem fieldsIn_append {a b : List (Nat × Int)} :
    FieldsIn (a ++ b) ↔ FieldsIn a ∧ FieldsIn b := by
  simp only [FieldsIn, List.mem_append]
  constructor
  · intro h; exact ⟨fun f hf => h f (.inl hf), fun f hf => h f (.inr hf)⟩
  · rintro ⟨h1, h2⟩ f (hf | hf)
    · exact h1 f hf
    · exact h2 f hf

theorem keyFields_in {k : TimeseriesKey} : FieldsIn (keyFields k) ↔ KeyRange k := by
  have : keyFields k = [(8, k.partition)] ++ (timeFields k.timestamp ++ idFields k.id) := rfl
  rw [this, fieldsIn_append, fieldsIn_append, uintFields_in, timeFields_in, idFields_in]
  rfl

theorem pack_append (a b : List (Nat × Int)) : pack (a ++ b) = (do
    let x ← pack a
    let y ← pack b
    return x ++ y) := by
  by_cases ha : FieldsIn a
  · by_cases hb : FieldsIn b
    · rw [pack_eq _ (fieldsIn_append.2 ⟨ha, hb⟩), pack_eq a ha, pack_eq b hb]
      simp [fieldBytes]
      rfl
    · rw [pack_error _ (fun h => hb (fieldsIn_append.1 h).2), pack_eq a ha, pack_error b hb]
      rfl
  · rw [pack_error _ (fun h => ha (fieldsIn_append.1 h).1), pack_error a ha]
    rfl

theorem encodeTimeseriesKey_eq (k : TimeseriesKey) :
    encodeTimeseriesKey k = pack (keyFields k) := by
  have : keyFields k = [(8, k.partition)] ++ (timeFields k.timestamp ++ idFields k.id) := rfl
  rw [this, pack_append, pack_append]
  unfold encodeTimeseriesKey encodeUint timestampToBytes encodeEventId timeFields idFields
  cases pack [(8, k.partition)] with
  | error e => rfl
  | ok x =>
    cases pack [(8, k.timestamp.s + 2 ^ 63), (4, k.timestamp.us)] with
    | error e => rfl
    | ok y =>
      cases pack [(8, k.id.server), (8, k.id.session), (8, k.id.instance_)] with
      | error e => rfl
      | ok z =>
        show Except.ok (x ++ y ++ z) = Except.ok (x ++ (y ++ z))
        rw [List.append_assoc]

theorem pack_accepts {fs : List (Nat × Int)} : (∃ b, pack fs = .ok b) ↔ FieldsIn fs :=
  ⟨fun ⟨_, h⟩ => (pack_ok h).1, fun h => ⟨_, pack_eq fs h⟩⟩

theorem decodeUint_pack {v : Int} {b : Bytes} (h : encodeUint v = .ok b) : decodeUint b = .ok v := by
  have := unpack_pack h
  simp only [List.map_cons, List.map_nil] at this
  rw [decodeUint, this]
  rfl

theorem timestamp_roundtrip {t : Timestamp} {b : Bytes} (h : timestampToBytes t = .ok b) :
    timestampFromBytes b = .ok t := by
  have := unpack_pack h
  simp only [List.map_cons, List.map_nil] at this
  rw [timestampFromBytes, this]
  show Except.ok _ = _
  exact congrArg _ (Timestamp.ext' (by simp) rfl)

theorem decodeEventId_pack {i : EventId} {b : Bytes} (h : encodeEventId i = .ok b) :
    decodeEventId b = .ok i := by
  have := unpack_pack h
  simp only [List.map_cons, List.map_nil] at this
  rw [decodeEventId, this]
  rfl

theorem timeseriesKey_roundtrip {k : TimeseriesKey} {b : Bytes}
    (h : encodeTimeseriesKey k = .ok b) : decodeTimeseriesKey b = .ok k ∧ b.length = 44 := by
  have hr : KeyRange k := by
    rw [encodeTimeseriesKey_eq] at h
    exact keyFields_in.1 (pack_ok h).1
  obtain ⟨h1, h2, h3⟩ := hr
  have e1 : encodeUint k.partition = .ok _ := pack_eq _ (uintFields_in.2 h1)
  have e2 : timestampToBytes k.timestamp = .ok _ := pack_eq _ (timeFields_in.2 h2)
  have e3 : encodeEventId k.id = .ok _ := pack_eq _ (idFields_in.2 h3)
  have l1 := pack_length e1
  have l2 := pack_length e2
  have l3 := pack_length e3
  simp only [timeFields, idFields, List.map_cons, List.map_nil, List.foldl_cons,
    List.foldl_nil] at l1 l2 l3
  set x := fieldBytes [(8, k.partition)]
  set y := fieldBytes (timeFields k.timestamp)
  set z := fieldBytes (idFields k.id)
  have hb : b = x ++ y ++ z := by
    rw [encodeTimeseriesKey, e1, e2, e3] at h
    injection h with h
    exact h.symm
  have hlx : x.length = 8 := l1
  have hly : y.length = 12 := l2
  have hlz : z.length = 24 := l3
  constructor
  · have t1 : b.take 8 = x := by
      rw [hb, List.append_assoc, List.take_left' hlx]
    have t2 : (b.take 20).drop 8 = y := by
      rw [hb, List.take_left' (by simp [hlx, hly]), List.drop_left' hlx]
    have t3 : b.drop 20 = z := by
      rw [hb, List.drop_left' (by simp [hlx, hly])]
    have d1 : decodeUint x = _ := decodeUint_pack e1
    have d2 : timestampFromBytes y = _ := timestamp_roundtrip e2
    have d3 : decodeEventId z = _ := decodeEventId_pack e3
    rw [decodeTimeseriesKey, t1, t2, t3, d1, d2, d3]
    rfl
  · rw [hb]; simp [hlx, hly, hlz]

/-- The encoding of a reference. -/
theorem encodeEventRef_spec {r : EventRef} {b : Bytes} (h : encodeEventRef r = .ok b) :
    decodeEventRef b = .ok r ∧
      ((b.head? = some 4 ∧ b.length = 9) ∨ (b.head? = some 6 ∧ b.length = 45)) := by
  cases r with
  | latest key =>
    rw [encodeEventRef] at h
    cases he : encodeUint key with
    | error e => rw [he] at h; exact absurd h (by rintro ⟨⟩)
    | ok x =>
      rw [he] at h
      injection h with h
      subst h
      constructor
      · show (do return EventRef.latest (← decodeUint x)) = _
        rw [decodeUint_pack he]; rfl
      · left
        have := pack_length he
        simp at this
        simp [this]
  | timeseries key =>
    rw [encodeEventRef] at h
    cases he : encodeTimeseriesKey key with
    | error e => rw [he] at h; exact absurd h (by rintro ⟨⟩)
    | ok x =>
      rw [he] at h
      injection h with h
      subst h
      constructor
      · show (do return EventRef.timeseries (← decodeTimeseriesKey x)) = _
        rw [(timeseriesKey_roundtrip he).1]; rfl
      · right
        simp [(timeseriesKey_roundtrip he).2]

theorem encodeEventRef_accepts {r : EventRef} : (∃ b, encodeEventRef r = .ok b) ↔ RefRange r := by
  cases r with
  | latest key =>
    rw [encodeEventRef, RefRange, ← uintFields_in, ← pack_accepts]
    unfold encodeUint
    cases pack [(8, key)] with
    | error e => exact ⟨fun ⟨b, h⟩ => (by cases h), fun ⟨b, h⟩ => (by cases h)⟩
    | ok x => exact ⟨fun _ => ⟨x, rfl⟩, fun _ => ⟨_, rfl⟩⟩
  | timeseries key =>
    rw [encodeEventRef, RefRange, ← keyFields_in, ← pack_accepts, encodeTimeseriesKey_eq]
    cases pack (keyFields key) with
    | error e => exact ⟨fun ⟨b, h⟩ => (by cases h), fun ⟨b, h⟩ => (by cases h)⟩
    | ok x => exact ⟨fun _ => ⟨x, rfl⟩, fun _ => ⟨_, rfl⟩⟩

theorem encodeEventRefs_spec : ∀ (l : List EventRef) (b : Bytes), encodeEventRefs l = .ok b →
    decodeEventRefs b = .ok l
  | [], b, h => by
    rw [encodeEventRefs] at h
    injection h with h
    subst h
    rw [decodeEventRefs]
  | ref :: r, b, h => by
    rw [encodeEventRefs] at h
    cases he : encodeEventRef ref with
    | error e => rw [he] at h; exact absurd h (by rintro ⟨⟩)
    | ok x =>
      cases hr : encodeEventRefs r with
      | error e => rw [he, hr] at h; exact absurd h (by rintro ⟨⟩)
      | ok y =>
        rw [he, hr] at h
        injection h with h
        have h : x ++ y = b := h
        subst h
        have ih := encodeEventRefs_spec r y hr
        obtain ⟨hd, hx | hx⟩ := encodeEventRef_spec he
        · obtain ⟨hh, hl⟩ := hx
          cases x with
          | nil => simp at hl
          | cons t x =>
            simp at hh
            subst hh
            have hl' : x.length = 8 := by simpa using hl
            rw [List.cons_append, decodeEventRefs, if_pos rfl]
            have t1 : ((4 : UInt8) :: (x ++ y)).take 9 = 4 :: x := by
              rw [← List.cons_append]; exact List.take_left' hl
            rw [t1, hd, List.drop_left' hl', ih]
            rfl
        · obtain ⟨hh, hl⟩ := hx
          cases x with
          | nil => simp at hl
          | cons t x =>
            simp at hh
            subst hh
            have hl' : x.length = 44 := by simpa using hl
            rw [List.cons_append, decodeEventRefs, if_neg (by decide), if_pos rfl]
            have t1 : ((6 : UInt8) :: (x ++ y)).take 45 = 6 :: x := by
              rw [← List.cons_append]; exact List.take_left' hl
            rw [t1, hd, List.drop_left' hl', ih]
            rfl

end HatEvent
