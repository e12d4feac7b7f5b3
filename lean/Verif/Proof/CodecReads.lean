import Verif.Proof.Codec
import Mathlib.Data.List.Induction

/-!
# What is decoded was encoded

Lemmas for C11 to C13.
-/

namespace HatEvent
open Spec

theorem beBytes_beValue (l : Bytes) : beBytes l.length (beValue l) = l ∧ beValue l < 256 ^ l.length := by
  induction l using List.reverseRecOn with
  | nil => exact ⟨rfl, by simp [beValue]⟩
  | append_singleton l b ih =>
    have hb : b.toNat < 256 := b.toNat_lt
    rw [List.length_append, List.length_singleton, beValue_snoc, beBytes, pow_succ]
    have h1 : (beValue l * 256 + b.toNat) / 256 = beValue l := by omega
    have h2 : (beValue l * 256 + b.toNat) % 256 = b.toNat := by omega
    rw [h1, h2, ih.1]
    exact ⟨by simp, by have := ih.2; omega⟩

theorem pack_unpackFields : ∀ (ws : List Nat) (l : Bytes), l.length = ws.sum →
    pack (ws.zip (unpackFields ws l)) = .ok l
  | [], l, h => by
    simp only [List.sum_nil, List.length_eq_zero_iff] at h
    rw [h]; rfl
  | n :: ws, l, h => by
    rw [List.sum_cons] at h
    have h1 : (l.take n).length = n := by rw [List.length_take]; omega
    have h2 : (l.drop n).length = ws.sum := by rw [List.length_drop]; omega
    obtain ⟨k1, k2⟩ := beBytes_beValue (l.take n)
    rw [h1] at k1 k2
    rw [unpackFields, List.zip_cons_cons, pack, pack_unpackFields ws _ h2, packUint, if_pos (by
      constructor
      · exact Int.natCast_nonneg _
      · exact Int.ofNat_lt.2 k2)]
    show Except.ok _ = _
    rw [show (Int.ofNat (beValue (l.take n))).toNat = beValue (l.take n) from rfl, k1, List.take_append_drop]

theorem pack_unpack {ws : List Nat} {l : Bytes} {vs : List Int} (h : unpack ws l = .ok vs) :
    pack (ws.zip vs) = .ok l ∧ vs.length = ws.length := by
  have hlen : ∀ (ws : List Nat) (l : Bytes), (unpackFields ws l).length = ws.length := by
    intro ws
    induction ws with
    | nil => intro l; rfl
    | cons n ws ih => intro l; rw [unpackFields, List.length_cons, ih]; rfl
  unfold unpack at h
  split at h
  · next hl =>
    cases h
    exact ⟨pack_unpackFields ws l (by rw [hl, List.sum_eq_foldl]), hlen ws l⟩
  · cases h

theorem decodeUint_reads {b : Bytes} {v : Int} (h : decodeUint b = .ok v) : encodeUint v = .ok b := by
  unfold decodeUint at h
  cases hu : unpack [8] b with
  | error e => rw [hu] at h; cases h
  | ok vs =>
    obtain ⟨h1, h2⟩ := pack_unpack hu
    rw [hu] at h
    match vs, h2 with
    | [x], _ => cases h; exact h1

theorem timestamp_reads {b : Bytes} {t : Timestamp} (h : timestampFromBytes b = .ok t) :
    timestampToBytes t = .ok b := by
  unfold timestampFromBytes at h
  cases hu : unpack [8, 4] b with
  | error e => rw [hu] at h; cases h
  | ok vs =>
    obtain ⟨h1, h2⟩ := pack_unpack hu
    rw [hu] at h
    match vs, h2 with
    | [x, y], _ =>
      cases h
      show pack [(8, x - 2 ^ 63 + 2 ^ 63), (4, y)] = _
      rw [Int.sub_add_cancel]
      exact h1

theorem decodeEventId_reads {b : Bytes} {i : EventId} (h : decodeEventId b = .ok i) : encodeEventId i = .ok b := by
  unfold decodeEventId at h
  cases hu : unpack [8, 8, 8] b with
  | error e => rw [hu] at h; cases h
  | ok vs =>
    obtain ⟨h1, h2⟩ := pack_unpack hu
    rw [hu] at h
    match vs, h2 with
    | [x, y, z], _ => cases h; exact h1

theorem timeseriesKey_reads {b : Bytes} {k : TimeseriesKey} (h : decodeTimeseriesKey b = .ok k) :
    encodeTimeseriesKey k = .ok b := by
  unfold decodeTimeseriesKey at h
  cases h1 : decodeUint (b.take 8) with
  | error e => rw [h1] at h; cases h
  | ok x =>
    cases h2 : timestampFromBytes ((b.take 20).drop 8) with
    | error e => rw [h1, h2] at h; cases h
    | ok y =>
      cases h3 : decodeEventId (b.drop 20) with
      | error e => rw [h1, h2, h3] at h; cases h
      | ok z =>
        rw [h1, h2, h3] at h
        cases h
        simp only [encodeTimeseriesKey, decodeUint_reads h1, timestamp_reads h2, decodeEventId_reads h3]
        show Except.ok _ = _
        have : b.take 8 = (b.take 20).take 8 := by rw [List.take_take]; rfl
        rw [this, List.take_append_drop, List.take_append_drop]

theorem decodeEventRef_reads {b : Bytes} {r : EventRef} (h : decodeEventRef b = .ok r) : encodeEventRef r = .ok b := by
  cases b with
  | nil => cases h
  | cons tag key =>
    rw [decodeEventRef] at h
    split at h
    · next ht =>
      subst ht
      cases h1 : decodeUint key with
      | error e => rw [h1] at h; cases h
      | ok x => rw [h1] at h; cases h; simp only [encodeEventRef, decodeUint_reads h1]; rfl
    · split at h
      · next ht =>
        subst ht
        cases h1 : decodeTimeseriesKey key with
        | error e => rw [h1] at h; cases h
        | ok x => rw [h1] at h; cases h; simp only [encodeEventRef, timeseriesKey_reads h1]; rfl
      · cases h

theorem decodeEventRefs_reads (b : Bytes) (l : List EventRef) (h : decodeEventRefs b = .ok l) :
    encodeEventRefs l = .ok b := by
  induction hn : b.length using Nat.strong_induction_on generalizing b l with
  | _ n ih =>
    have key : ∀ (tag : UInt8) (rest : Bytes) (k : Nat), b = tag :: rest →
        (do
          let ref ← decodeEventRef ((tag :: rest).take (k + 1))
          let r ← decodeEventRefs (rest.drop k)
          return ref :: r) = Except.ok l → encodeEventRefs l = .ok b := by
      intro tag rest k hb h
      cases h1 : decodeEventRef ((tag :: rest).take (k + 1)) with
      | error e => rw [h1] at h; cases h
      | ok x =>
        cases h2 : decodeEventRefs (rest.drop k) with
        | error e => rw [h1, h2] at h; cases h
        | ok y =>
          rw [h1, h2] at h
          cases h
          have := ih (rest.drop k).length (by rw [List.length_drop, ← hn, hb, List.length_cons]; omega) _ _ h2 rfl
          simp only [encodeEventRefs, decodeEventRef_reads h1, this]
          show Except.ok _ = _
          rw [hb, List.take_succ_cons, List.cons_append, List.take_append_drop]
    cases b with
    | nil => rw [decodeEventRefs] at h; cases h; rfl
    | cons tag rest =>
      rw [decodeEventRefs] at h
      split at h
      · exact key tag rest 8 rfl h
      · split at h
        · exact key tag rest 44 rfl h
        · cases h

end HatEvent
