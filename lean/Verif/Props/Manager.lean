import Verif.Model.Manager
import Verif.Props.LmdbServer
import Verif.Proof.LmdbSelect

/-!
# LMDB manager (C49, C63)
-/

namespace HatEvent
open Spec

/-! ## C49 -/

theorem put_last {κ υ : Type} [DecidableEq κ] [DbKey κ] [LawfulKey κ] (t : Table κ υ) (k : κ) (v : υ)
    (h : ∀ p ∈ t, DbKey.lt p.1 k = true) : t.put k v = t ++ [(k, v)] := by
  induction t with
  | nil => rfl
  | cons p t ih =>
    obtain ⟨a, b⟩ := p
    have h1 : DbKey.lt a k = true := h (a, b) List.mem_cons_self
    unfold Table.put
    rw [if_neg (Table.lt_ne h1), if_neg (by rw [Table.lt_asymm h1]; simp), ih fun p hp => h p (List.mem_cons_of_mem _ hp)]
    rfl

theorem puts_sorted {κ υ : Type} [DecidableEq κ] [DbKey κ] [LawfulKey κ] (src dst : Table κ υ) (h : Table.Sorted (dst ++ src)) :
    src.foldl (fun t p => t.put p.1 p.2) dst = dst ++ src := by
  induction src generalizing dst with
  | nil => simp
  | cons p src ih =>
    have hp := (List.pairwise_append.1 h).2.2
    rw [List.foldl_cons, put_last dst p.1 p.2 fun q hq => hp q hq p List.mem_cons_self, ih (dst ++ [p]) (by simpa using h)]
    simp

theorem copyTable_eq {κ υ : Type} [DecidableEq κ] [DbKey κ] [LawfulKey κ] (src : Table κ υ) (h : Table.Sorted src) :
    copyTable src [] = src := puts_sorted src [] (by simpa using h)

theorem set_last {κ υ : Type} [DecidableEq κ] (t : Dict κ υ) (k : κ) (v : υ) (h : k ∉ Dict.keys t) :
    Dict.set t k v = t ++ [(k, v)] := by
  induction t with
  | nil => rfl
  | cons p t ih =>
    obtain ⟨a, b⟩ := p
    simp only [Dict.keys_cons, List.mem_cons, not_or] at h
    unfold Dict.set
    rw [if_neg (Ne.symm h.1), ih h.2]
    rfl

theorem copySettings_eq (src dst : Dict SettingsId String) (h : (Dict.keys (dst ++ src)).Nodup) :
    copySettings src dst = dst ++ src := by
  induction src generalizing dst with
  | nil => simp [copySettings]
  | cons p src ih =>
    have hp : p.1 ∉ Dict.keys dst := by
      unfold Dict.keys at h ⊢
      rw [List.map_append, List.nodup_append] at h
      intro hm
      exact h.2.2 p.1 hm p.1 (by simp) rfl
    have := ih (dst ++ [p]) (by simpa using h)
    unfold copySettings at this ⊢
    rw [List.foldl_cons, set_last dst p.1 p.2 hp, this]
    simp

/-- An entry of the copied reference table. -/
def keptEntry (skipLatest skipTimeseries : Bool) (p : EventId × List EventRef) : Option (EventId × List EventRef) :=
  if (!skipLatest && !skipTimeseries) = true then some p
  else if (keptRefs skipLatest skipTimeseries p.2).isEmpty then none
  else some (p.1, keptRefs skipLatest skipTimeseries p.2)

theorem keptRefs_sublist (skipLatest skipTimeseries : Bool) (refs : List EventRef) :
    (keptRefs skipLatest skipTimeseries refs).Sublist refs := by
  unfold keptRefs
  cases skipLatest <;> cases skipTimeseries
  · exact .refl _
  · exact List.filter_sublist
  · exact List.filter_sublist
  · exact List.filter_sublist.trans List.filter_sublist

theorem encodeEventRefs_mem {refs : List EventRef} : (∃ b, encodeEventRefs refs = .ok b) ↔ ∀ r ∈ refs, ∃ b, encodeEventRef r = .ok b := by
  induction refs with
  | nil => simp [encodeEventRefs]
  | cons r refs ih =>
    rw [List.forall_mem_cons, ← ih]
    have hd : encodeEventRefs (r :: refs) = (do
      let a ← encodeEventRef r
      let b ← encodeEventRefs refs
      pure (a ++ b)) := rfl
    rw [hd]
    cases encodeEventRef r with
    | error err => constructor <;> rintro ⟨b, hb⟩ <;> [cases hb; (obtain ⟨c, hc⟩ := b; cases hc)]
    | ok a =>
      cases encodeEventRefs refs with
      | error err => constructor <;> rintro ⟨b, hb⟩ <;> [cases hb; (obtain ⟨c, hc⟩ := hb; cases hc)]
      | ok c => exact ⟨fun _ => ⟨⟨a, rfl⟩, c, rfl⟩, fun _ => ⟨a ++ c, rfl⟩⟩

theorem copyRef_eq (skipLatest skipTimeseries : Bool) (src dst : Table EventId (List EventRef))
    (he : ∀ p ∈ src, ∃ b, encodeEventRefs p.2 = .ok b) :
    copyRef skipLatest skipTimeseries src dst =
      .ok ((src.filterMap (keptEntry skipLatest skipTimeseries)).foldl (fun t p => t.put p.1 p.2) dst) := by
  induction src generalizing dst with
  | nil => rfl
  | cons p src ih =>
    obtain ⟨key, refs⟩ := p
    have he' : ∀ p ∈ src, ∃ b, encodeEventRefs p.2 = .ok b := fun p hp => he p (List.mem_cons_of_mem _ hp)
    unfold copyRef
    split
    · next h =>
      rw [ih _ he', List.filterMap_cons_some (b := (key, refs)) (by simp [keptEntry, h])]
      rfl
    · next h =>
      split
      · next h2 =>
        rw [ih _ he', List.filterMap_cons_none (by unfold keptEntry; rw [if_neg h, if_pos h2])]
      · next h2 =>
        have : ∃ b, encodeEventRefs (keptRefs skipLatest skipTimeseries refs) = .ok b :=
          encodeEventRefs_mem.2 fun r hr => encodeEventRefs_mem.1 (he (key, refs) List.mem_cons_self) r
            ((keptRefs_sublist ..).subset hr)
        obtain ⟨b, hb⟩ := this
        rw [hb, List.filterMap_cons_some (b := (key, keptRefs skipLatest skipTimeseries refs))
          (by unfold keptEntry; rw [if_neg h, if_neg h2])]
        exact ih _ he'

/-- What holds for every file: LMDB keeps keys sorted and unique, and references are kept as bytes. -/
structure FileOk (d : Disk) : Prop where
  settings : (Dict.keys d.settings).Nodup
  lastEventId : Table.Sorted d.lastEventId
  lastTimestamp : Table.Sorted d.lastTimestamp
  ref : Table.Sorted d.ref
  latestData : Table.Sorted d.latestData
  latestType : Table.Sorted d.latestType
  tsData : Table.Sorted d.tsData
  tsPartition : Table.Sorted d.tsPartition
  tsCount : Table.Sorted d.tsCount
  encoded : ∀ p ∈ d.ref, ∃ b, encodeEventRefs p.2 = .ok b

theorem kept_sorted (skipLatest skipTimeseries : Bool) (t : Table EventId (List EventRef)) (h : Table.Sorted t) :
    Table.Sorted (t.filterMap (keptEntry skipLatest skipTimeseries)) := by
  refine List.Pairwise.filterMap _ ?_ h
  intro a b hab x hx y hy
  have key : ∀ p q, keptEntry skipLatest skipTimeseries p = some q → q.1 = p.1 := by
    intro p q hq
    unfold keptEntry at hq
    split at hq
    · cases hq; rfl
    · split at hq
      · cases hq
      · cases hq; rfl
  rw [key a x hx, key b y hy]
  exact hab

theorem copyDisk_ok (skipLatest skipTimeseries : Bool) (d : Disk) (h : FileOk d) :
    copyDisk false skipLatest skipTimeseries d = .ok {
      settings := d.settings
      lastEventId := d.lastEventId
      lastTimestamp := d.lastTimestamp
      ref := d.ref.filterMap (keptEntry skipLatest skipTimeseries)
      latestData := if skipLatest then [] else d.latestData
      latestType := if skipLatest then [] else d.latestType
      tsData := if skipTimeseries then [] else d.tsData
      tsPartition := if skipTimeseries then [] else d.tsPartition
      tsCount := if skipTimeseries then [] else d.tsCount } := by
  unfold copyDisk
  rw [if_neg (by simp), copyRef_eq _ _ _ _ h.encoded, puts_sorted _ [] (by simpa using kept_sorted _ _ _ h.ref),
    copyTable_eq _ h.lastEventId, copyTable_eq _ h.lastTimestamp, copyTable_eq _ h.latestData, copyTable_eq _ h.latestType,
    copyTable_eq _ h.tsData, copyTable_eq _ h.tsPartition, copyTable_eq _ h.tsCount,
    copySettings_eq _ [] (by simpa using h.settings)]
  rfl

/-- Copying does not fail and copies all entries of the copied databases. -/
theorem C49_copies (skipLatest skipTimeseries : Bool) (d : Disk) (h : FileOk d) :
    ∃ dst, copyDisk false skipLatest skipTimeseries d = .ok dst ∧
      dst.settings = d.settings ∧ dst.lastEventId = d.lastEventId ∧ dst.lastTimestamp = d.lastTimestamp ∧
      (skipLatest = true → dst.latestData = [] ∧ dst.latestType = []) ∧
      (skipLatest = false → dst.latestData = d.latestData ∧ dst.latestType = d.latestType) ∧
      (skipTimeseries = true → dst.tsData = [] ∧ dst.tsPartition = [] ∧ dst.tsCount = []) ∧
      (skipTimeseries = false → dst.tsData = d.tsData ∧ dst.tsPartition = d.tsPartition ∧ dst.tsCount = d.tsCount) ∧
      (skipLatest = false → skipTimeseries = false → dst = d) := by
  refine ⟨_, copyDisk_ok skipLatest skipTimeseries d h, rfl, rfl, rfl, ?_, ?_, ?_, ?_, ?_⟩
  · rintro rfl; exact ⟨rfl, rfl⟩
  · rintro rfl; exact ⟨rfl, rfl⟩
  · rintro rfl; exact ⟨rfl, rfl, rfl⟩
  · rintro rfl; exact ⟨rfl, rfl, rfl⟩
  · rintro rfl rfl
    have : d.ref.filterMap (keptEntry false false) = d.ref := by
      conv_rhs => rw [← List.filterMap_some (l := d.ref)]
      rfl
    rw [this]
    rfl

/-- Copying refuses an existing destination. -/
theorem C49_exists (skipLatest skipTimeseries : Bool) (d dst : Disk) : copyDisk true skipLatest skipTimeseries d ≠ .ok dst := by
  simp [copyDisk]

theorem mem_keptRefs (skipLatest skipTimeseries : Bool) (refs : List EventRef) (r : EventRef) :
    r ∈ keptRefs skipLatest skipTimeseries refs ↔
      r ∈ refs ∧ ¬ (skipLatest = true ∧ r.isLatest = true) ∧ ¬ (skipTimeseries = true ∧ r.isLatest = false) := by
  unfold keptRefs
  cases skipLatest <;> cases skipTimeseries <;> cases r <;> simp [EventRef.isLatest]

theorem mem_kept (skipLatest skipTimeseries : Bool) (p q : EventId × List EventRef)
    (h : keptEntry skipLatest skipTimeseries p = some q) :
    q.1 = p.1 ∧ ∀ r, r ∈ q.2 ↔
      r ∈ p.2 ∧ ¬ (skipLatest = true ∧ r.isLatest = true) ∧ ¬ (skipTimeseries = true ∧ r.isLatest = false) := by
  unfold keptEntry at h
  split at h
  · next hs =>
    cases h
    simp only [Bool.and_eq_true, Bool.not_eq_true'] at hs
    exact ⟨rfl, fun r => by simp [hs.1, hs.2]⟩
  · split at h
    · cases h
    · cases h
      exact ⟨rfl, fun r => mem_keptRefs ..⟩

/-- The references of the copy are exactly those of the copied events. -/
theorem C49_references (skipLatest skipTimeseries : Bool) (d dst : Disk) (h : FileOk d) (hc : RefsConsistent d)
    (he : copyDisk false skipLatest skipTimeseries d = .ok dst) : RefsConsistent dst := by
  rw [copyDisk_ok _ _ _ h] at he
  cases he
  have hst : ∀ r e, StoredAt {
      settings := d.settings
      lastEventId := d.lastEventId
      lastTimestamp := d.lastTimestamp
      ref := d.ref.filterMap (keptEntry skipLatest skipTimeseries)
      latestData := if skipLatest then [] else d.latestData
      latestType := if skipLatest then [] else d.latestType
      tsData := if skipTimeseries then [] else d.tsData
      tsPartition := if skipTimeseries then [] else d.tsPartition
      tsCount := if skipTimeseries then [] else d.tsCount } r e ↔
      StoredAt d r e ∧ ¬ (skipLatest = true ∧ r.isLatest = true) ∧ ¬ (skipTimeseries = true ∧ r.isLatest = false) := by
    intro r e
    cases r <;> cases skipLatest <;> cases skipTimeseries <;> simp [StoredAt, EventRef.isLatest]
  refine ⟨(kept_sorted _ _ _ h.ref).nodup, ?_, ?_, ?_⟩
  · intro id refs hm hr
    obtain ⟨p, hp, hk⟩ := List.mem_filterMap.1 hm
    unfold keptEntry at hk
    split at hk
    · cases hk; exact hc.nonempty id refs hp hr
    · split at hk
      · cases hk
      · next hne => cases hk; exact hne (by rw [hr]; rfl)
  · intro id refs r hm hr
    obtain ⟨p, hp, hk⟩ := List.mem_filterMap.1 hm
    obtain ⟨h1, h2⟩ := mem_kept _ _ _ _ hk
    obtain ⟨h3, h4⟩ := (h2 r).1 hr
    obtain ⟨e, h5, h6⟩ := hc.points p.1 p.2 r hp h3
    exact ⟨e, (hst r e).2 ⟨h5, h4⟩, h6.trans h1.symm⟩
  · intro r e hs
    obtain ⟨h1, h2⟩ := (hst r e).1 hs
    obtain ⟨refs, h3, h4⟩ := hc.complete r e h1
    have hkr : r ∈ keptRefs skipLatest skipTimeseries refs := (mem_keptRefs ..).2 ⟨h4, h2⟩
    obtain ⟨q, hq⟩ : ∃ q, keptEntry skipLatest skipTimeseries (e.id, refs) = some q := by
      unfold keptEntry
      split
      · exact ⟨_, rfl⟩
      · rw [if_neg (by intro hem; rw [List.isEmpty_iff.1 hem] at hkr; cases hkr)]
        exact ⟨_, rfl⟩
    obtain ⟨h5, h6⟩ := mem_kept _ _ _ _ hq
    refine ⟨q.2, List.mem_filterMap.2 ⟨(e.id, refs), h3, ?_⟩, (h6 r).2 ⟨h4, h2⟩⟩
    rw [hq]
    exact congrArg some (Prod.ext h5 rfl)

/-- Skipping is visible: no reference to the skipped events is left. -/
theorem C49_skipped (skipLatest skipTimeseries : Bool) (d dst : Disk) (h : FileOk d)
    (he : copyDisk false skipLatest skipTimeseries d = .ok dst) (id : EventId) (refs : List EventRef) (r : EventRef)
    (hm : (id, refs) ∈ dst.ref) (hr : r ∈ refs) :
    (skipLatest = true → ∃ k, r = .timeseries k) ∧ (skipTimeseries = true → ∃ k, r = .latest k) := by
  rw [copyDisk_ok _ _ _ h] at he
  cases he
  obtain ⟨p, hp, hk⟩ := List.mem_filterMap.1 hm
  have := (((mem_kept _ _ _ _ hk).2 r).1 hr).2
  cases r with
  | latest k => exact ⟨fun e => absurd ⟨e, rfl⟩ this.1, fun _ => ⟨k, rfl⟩⟩
  | timeseries k => exact ⟨fun _ => ⟨k, rfl⟩, fun e => absurd ⟨e, rfl⟩ this.2⟩

instance {κ υ : Type} [DbKey κ] (t : Table κ υ) : Decidable (Table.Sorted t) :=
  inferInstanceAs (Decidable (List.Pairwise _ _))

/-- The file of the example. -/
def exDisk : Disk := ((Backend.new (exConf none [])).run (exHistory ++ [.flush])).disk

theorem exDisk_consistent : RefsConsistent exDisk := by
  refine C27_references _ _ ?_ ?_
  · intro c hc
    rcases List.mem_append.1 hc with hc | hc
    · exact exHistory_laws c hc
    · simp at hc
  · unfold KeepsAccepted exHistory
    simp [exConf]

/-- The file of the example can be copied. -/
theorem exDisk_file : FileOk exDisk := by
  refine ⟨by decide, by decide, by decide, by decide, by decide, by decide, by decide, by decide, by decide, ?_⟩
  intro p hp
  have : exDisk.ref.all (fun p => match encodeEventRefs p.2 with | .ok _ => true | .error _ => false) = true := by
    decide
  have := List.all_eq_true.1 this p hp
  split at this
  · next b hb => exact ⟨b, hb⟩
  · cases this

/-- Hypotheses of C49: the copy without latest events has references and events. -/
example : FileOk exDisk ∧ RefsConsistent exDisk ∧
    ∃ dst, copyDisk false true false exDisk = .ok dst ∧ dst.ref.length = 5 ∧ exDisk.latestData ≠ [] :=
  ⟨exDisk_file, exDisk_consistent, _, copyDisk_ok true false _ exDisk_file, by decide, by decide⟩

/-! ## C63 -/

/-- A filter of a query accepts the value. -/
def Spec.Accepts (filter : Option Int) (x : Int) : Prop := ∀ y, filter = some y → x = y

theorem wanted_iff (f : Option Int) (x : Int) : wanted f x = true ↔ Accepts f x := by
  cases f with
  | none => simp [wanted, Accepts]
  | some y =>
    unfold wanted Accepts
    simp only [Option.isNone_some, Bool.false_or, beq_iff_eq, Option.some.injEq]
    exact ⟨fun h z hz => h.symm.trans hz, fun h => (h y rfl).symm⟩

/-- The last identifiers printed are those of the wanted servers. -/
theorem C63_last_event_id (useC : Bool) (d : Disk) (f : Option Int) :
    (managerQuery useC d (.lastEventId f)).error = none ∧
    ∀ j, j ∈ (managerQuery useC d (.lastEventId f)).results ↔
      ∃ server id, (server, id) ∈ d.lastEventId ∧ Accepts f server ∧ j = eventIdToJson id := by
  refine ⟨rfl, fun j => ?_⟩
  simp only [managerQuery, queryLastEventId, List.mem_map, List.mem_filter, wanted_iff]
  constructor
  · rintro ⟨p, ⟨h1, h2⟩, rfl⟩; exact ⟨_, _, h1, h2, rfl⟩
  · rintro ⟨a, b, h1, h2, rfl⟩; exact ⟨(a, b), ⟨h1, h2⟩, rfl⟩

/-- The last timestamps printed are those of the wanted servers. -/
theorem C63_last_timestamp (useC : Bool) (d : Disk) (f : Option Int) :
    (managerQuery useC d (.lastTimestamp f)).error = none ∧
    ∀ j, j ∈ (managerQuery useC d (.lastTimestamp f)).results ↔
      ∃ server t, (server, t) ∈ d.lastTimestamp ∧ Accepts f server ∧ j = timestampToJson t := by
  refine ⟨rfl, fun j => ?_⟩
  simp only [managerQuery, queryLastTimestamp, List.mem_map, List.mem_filter, wanted_iff]
  constructor
  · rintro ⟨p, ⟨h1, h2⟩, rfl⟩; exact ⟨_, _, h1, h2, rfl⟩
  · rintro ⟨a, b, h1, h2, rfl⟩; exact ⟨(a, b), ⟨h1, h2⟩, rfl⟩

/-- The partitions printed are the wanted ones. -/
theorem C63_partition (useC : Bool) (d : Disk) (f : Option Int) :
    (managerQuery useC d (.partition f)).error = none ∧
    ∀ j, j ∈ (managerQuery useC d (.partition f)).results ↔
      ∃ id data, (id, data) ∈ d.tsPartition ∧ Accepts f id ∧
        j = .obj [("partition_id", .int id), ("data", partitionDataToJson data)] := by
  refine ⟨rfl, fun j => ?_⟩
  simp only [managerQuery, queryPartitionAction, List.mem_map, List.mem_filter, wanted_iff]
  constructor
  · rintro ⟨p, ⟨h1, h2⟩, rfl⟩; exact ⟨_, _, h1, h2, rfl⟩
  · rintro ⟨a, b, h1, h2, rfl⟩; exact ⟨(a, b), ⟨h1, h2⟩, rfl⟩

/-- The settings printed are all of them. -/
theorem C63_settings (useC : Bool) (d : Disk) :
    (managerQuery useC d .settings).error = none ∧
    ∀ j, j ∈ (managerQuery useC d .settings).results ↔
      ∃ id data, (id, data) ∈ d.settings ∧ j = .obj [("settings_id", .str id.name), ("data", .str data)] := by
  refine ⟨rfl, fun j => ?_⟩
  simp only [managerQuery, querySettings, List.mem_map]
  constructor
  · rintro ⟨p, h1, rfl⟩; exact ⟨_, _, h1, rfl⟩
  · rintro ⟨a, b, h1, rfl⟩; exact ⟨(a, b), h1, rfl⟩

theorem createSubscription_ok {useC : Bool} {l : List EventType} (hw : ∀ q ∈ l, WellFormed q)
    (hn : useC = true → ∀ q ∈ l, NulFree q) :
    ∃ s, createSubscription useC l = .ok s ∧ ∀ e, s.matches e = true ↔ MatchesAny l e := by
  unfold createSubscription
  cases useC with
  | false =>
    obtain ⟨s, hs⟩ := (C02_py_subscription l).2.2 hw
    exact ⟨s, hs, (C02_py_subscription l).1 s hs⟩
  | true =>
    obtain ⟨s, hs⟩ := (C03_c_subscription l (hn rfl)).2.2 hw
    exact ⟨s, hs, (C03_c_subscription l (hn rfl)).1 s hs⟩

/-- The timeseries events printed, in the order of the file, are those of the wanted partition, server and types. -/
theorem C63_timeseries (useC : Bool) (d : Disk) (part server : Option Int) (types : Option (List EventType))
    (hw : ∀ l, types = some l → ∀ q ∈ l, WellFormed q) (hn : useC = true → ∀ l, types = some l → ∀ q ∈ l, NulFree q) :
    ∃ events : List (TimeseriesKey × Event), events.Sublist d.tsData ∧
      (managerQuery useC d (.timeseries part server types)) = ⟨events.map fun p => eventToJson p.2, none⟩ ∧
      ∀ key e, (key, e) ∈ events ↔ (key, e) ∈ d.tsData ∧ Accepts part key.partition ∧ Accepts server key.id.server ∧
        ∀ l, types = some l → MatchesAny l e.type := by
  obtain ⟨s, hs, hm⟩ := createSubscription_ok (useC := useC) (l := types.getD [["*"]])
    (by
      cases types with
      | none => simp [WellFormed]
      | some l => exact hw l rfl)
    (by
      intro hu
      cases types with
      | none => simp [NulFree]
      | some l => exact hn hu l rfl)
  refine ⟨d.tsData.filter fun p => wanted part p.1.partition && wanted server p.1.id.server && s.matches p.2.type,
    List.filter_sublist, ?_, fun key e => ?_⟩
  · simp only [managerQuery, queryTimeseriesAction, hs]
  · simp only [List.mem_filter, Bool.and_eq_true, wanted_iff, hm, and_assoc]
    refine and_congr_right fun _ => and_congr_right fun _ => and_congr_right fun _ => ?_
    cases types with
    | none => simp [MatchesAny, Matches.star]
    | some l => simp

theorem hexDigit_inj {a b : Nat} (ha : a < 16) (hb : b < 16) (h : hexDigit a = hexDigit b) : a = b := by
  have : ∀ x y : Fin 16, hexDigit x.val = hexDigit y.val → x = y := by decide
  exact congrArg Fin.val (this ⟨a, ha⟩ ⟨b, hb⟩ h)

theorem hexChars_inj {a b : List UInt8} (h : hexChars a = hexChars b) : a = b := by
  induction a generalizing b with
  | nil => cases b with
    | nil => rfl
    | cons y b => simp [hexChars] at h
  | cons x a ih => cases b with
    | nil => simp [hexChars] at h
    | cons y b =>
      simp only [hexChars, List.cons.injEq] at h
      have hx := x.toNat_lt
      have hy := y.toNat_lt
      have h1 := hexDigit_inj (by omega) (by omega) h.1
      have h2 := hexDigit_inj (by omega) (by omega) h.2.1
      rw [ih h.2.2, UInt8.toNat_inj.1 (show x.toNat = y.toNat by omega)]

/-- The JSON of an event determines it. -/
theorem C63_json {a b : Event} (h : eventToJson a = eventToJson b) : a = b := by
  obtain ⟨⟨a1, a2, a3⟩, a4, ⟨a5, a6⟩, a7, a8⟩ := a
  obtain ⟨⟨b1, b2, b3⟩, b4, ⟨b5, b6⟩, b7, b8⟩ := b
  simp only [eventToJson, eventIdToJson, timestampToJson, Json.obj.injEq, List.cons.injEq, Prod.mk.injEq, Json.int.injEq,
    Json.arr.injEq, true_and, and_true] at h
  obtain ⟨⟨rfl, rfl, rfl⟩, h4, ⟨rfl, rfl⟩, h7, h8⟩ := h
  have h4 : a4 = b4 := List.map_injective_iff.2 (fun x y h => Json.str.inj h) h4
  have h7 : a7 = b7 := by
    cases a7 <;> cases b7
    · rfl
    · cases h7
    · cases h7
    · next s t =>
      obtain ⟨s1, s2⟩ := s
      obtain ⟨t1, t2⟩ := t
      simp only [sourceTimestampToJson, timestampToJson, Json.obj.injEq, List.cons.injEq, Prod.mk.injEq, Json.int.injEq,
        true_and, and_true] at h7
      rw [h7.1, h7.2]
  have h8 : a8 = b8 := by
    rcases a8 with - | ⟨t, x⟩ | x <;> rcases b8 with - | ⟨u, y⟩ | y
    · rfl
    · cases h8
    · cases h8
    · cases h8
    · simp only [payloadToJson, Json.obj.injEq, List.cons.injEq, Prod.mk.injEq, Json.str.injEq, true_and, and_true] at h8
      rw [h8.1, hexChars_inj (String.ofList_injective h8.2)]
    · simp [payloadToJson] at h8
    · cases h8
    · simp [payloadToJson] at h8
    · simp only [payloadToJson, Json.obj.injEq, List.cons.injEq, Prod.mk.injEq, true_and, and_true] at h8
      rw [h8]
  rw [h4, h7, h8]

/-- A field of a JSON object. -/
def Json.at_ (k : String) : Json → Option Json
  | .obj fields => Dict.get fields k
  | _ => none

/-- The printed payload says of which kind it is. -/
theorem C63_payload (e : Event) :
    ∃ p, Json.at_ "payload" (eventToJson e) = some p ∧ (p = .null ↔ e.payload = none) ∧
      (∀ d, e.payload = some (.json d) ↔ Json.at_ "type" p = some (.str "JSON") ∧ Json.at_ "data" p = some d) ∧
      (∀ t, (∃ d, e.payload = some (.binary t d)) ↔ Json.at_ "type" p = some (.str "BINARY") ∧ Json.at_ "subtype" p = some (.str t)) := by
  refine ⟨payloadToJson e.payload, by simp [eventToJson, Json.at_, Dict.get_cons], ?_, ?_, ?_⟩
  · rcases e.payload with - | ⟨t, x⟩ | x <;> simp [payloadToJson]
  · intro d
    rcases e.payload with - | ⟨t, x⟩ | x <;> simp [payloadToJson, Json.at_, Dict.get_cons]
  · intro t'
    rcases e.payload with - | ⟨t, x⟩ | x <;> simp [payloadToJson, Json.at_, Dict.get_cons]

/-- Hypotheses of C63: a query that selects a part of the events. -/
example : (managerQuery false exDisk (.timeseries (some 1) none (some [["a", "*"]]))).results.length = 3 ∧
    exDisk.tsData.length = 6 ∧ (managerQuery false exDisk (.lastEventId (some 2))).results.length = 1 ∧
    exDisk.lastEventId.length = 2 := by decide

/-- The subaction `ref` never prints references. -/
theorem C63_ref_refuted (useC : Bool) (d : Disk) (f : Option Int) :
    managerQuery useC d (.ref f) = ⟨[], some .typeError⟩ := rfl

/-- The subaction `latest` prints no latest event, whatever the file contains. -/
theorem C63_latest_refuted (useC : Bool) (d : Disk) (types : Option (List EventType)) (e : Event) :
    eventToJson e ∉ (managerQuery useC d (.latest types)).results := by
  have hr : ∀ (id : EventId) (refs : List EventRef), eventToJson e ∉ (printRefs id refs).results := by
    intro id refs
    induction refs with
    | nil => simp [printRefs]
    | cons r refs ih =>
      cases r with
      | latest k => simp [printRefs]
      | timeseries k => simp only [printRefs, List.mem_cons, not_or]; exact ⟨by simp [eventToJson], ih⟩
  have ha : ∀ t : Table EventId (List EventRef), eventToJson e ∉ (printAllRefs t).results := by
    intro t
    induction t with
    | nil => simp [printAllRefs]
    | cons p t ih =>
      unfold printAllRefs
      split
      · exact hr _ _
      · simp only [List.mem_append, not_or]; exact ⟨hr _ _, ih⟩
  cases types with
  | none => exact ha _
  | some l => simp [managerQuery, queryLatestAction]

/-- The example file has latest events. -/
example : exDisk.latestData.length = 1 ∧
    (managerQuery false exDisk (.latest none)).error = some .attributeError := by decide

end HatEvent
