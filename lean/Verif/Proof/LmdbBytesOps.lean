import Verif.Proof.LmdbBytes
import Verif.Proof.LmdbRange

/-! # Reading and writing the file -/

namespace HatEvent
open Spec

/-! ### Disks -/

/-- The settings a backend writes. -/
def SettingsOk (s : Dict SettingsId String) : Prop :=
  s = [] ∨ (∃ v, s = [(.version, v)]) ∨ ∃ v i, s = [(.version, v), (.identifier, i)]

/-- The file holds the databases, and everything in it can be read back. -/
structure DiskEnc (env : ByteEnv) (bd : ByteDisk) (d : Disk) : Prop where
  settings : Enc (settingsDef env) (fun _ => True) bd.settings d.settings
  settingsOk : SettingsOk d.settings
  lastEventId : Enc lastEventIdDef (fun _ => True) bd.lastEventId d.lastEventId
  lastTimestamp : Enc lastTimestampDef (fun _ => True) bd.lastTimestamp d.lastTimestamp
  ref : Enc refDef GoodRefs bd.ref d.ref
  latestData : Enc (latestDataDef env) (GoodEvent env) bd.latestData d.latestData
  latestType : Enc (latestTypeDef env) (fun _ => True) bd.latestType d.latestType
  tsData : Enc (tsDataDef env) (GoodEvent env) bd.tsData d.tsData
  tsPartition : Enc (tsPartitionDef env) (fun _ => True) bd.tsPartition d.tsPartition
  tsCount : Enc tsCountDef (fun _ => True) bd.tsCount d.tsCount

theorem diskEnc_empty (env : ByteEnv) : DiskEnc env .empty .empty :=
  ⟨.nil, .inl rfl, .nil, .nil, .nil, .nil, .nil, .nil, .nil, .nil⟩

theorem DiskEnc.fileHolds {env : ByteEnv} {bd : ByteDisk} {d : Disk} (h : DiskEnc env bd d) :
    FileHolds env bd d where
  settings := by
    refine h.settings.imp fun x y hxy => ⟨?_, hxy.2.1⟩
    rw [← hxy.1]
    cases y.1 <;> rfl
  lastEventId := h.lastEventId.holds
  lastTimestamp := h.lastTimestamp.holds
  ref := h.ref.holds
  latestData := h.latestData.holds
  latestType := h.latestType.holds
  tsData := h.tsData.holds
  tsPartition := h.tsPartition.holds
  tsCount := h.tsCount.holds

/-! ### Opening -/

theorem settings_written {s s1 s2 : Dict SettingsId String} {v : String} {i : Option String} (hs : SettingsOk s)
    (h1 : validateVersion s v = .ok s1) (h2 : validateIdentifier s1 i = .ok s2) :
    Table.write s s2 = .ok (s2.foldl (fun d p => Dict.set d p.1 p.2) s) ∧
      SettingsOk (s2.foldl (fun d p => Dict.set d p.1 p.2) s) := by
  have e0 : ∃ b, (Encodable.encode SettingsId.version : Except PyErr Bytes) = .ok b := ⟨_, rfl⟩
  have e1 : ∃ b, (Encodable.encode SettingsId.identifier : Except PyErr Bytes) = .ok b := ⟨_, rfl⟩
  obtain ⟨b0, e0⟩ := e0
  obtain ⟨b1, e1⟩ := e1
  have ev : ∀ x : String, (Encodable.encode x : Except PyErr Bytes) = .ok [] := fun _ => rfl
  have l1 : DbKey.lt SettingsId.identifier SettingsId.version = false := rfl
  rcases hs with rfl | ⟨a, rfl⟩ | ⟨a, b, rfl⟩
  · simp only [validateVersion, Dict.get_nil, Dict.set, Except.ok.injEq] at h1
    subst h1
    cases i with
    | none =>
      simp [validateIdentifier, Dict.del] at h2
      subst h2
      exact ⟨by simp [Table.write, e0, ev, bind, Except.bind, Table.put, Dict.set], .inr (.inl ⟨v, rfl⟩)⟩
    | some i =>
      simp [validateIdentifier, Dict.get, Dict.set] at h2
      subst h2
      exact ⟨by simp [Table.write, e0, e1, ev, bind, Except.bind, Table.put, Dict.set, l1],
        .inr (.inr ⟨v, i, rfl⟩)⟩
  · simp only [validateVersion, Dict.get, if_pos] at h1
    split at h1
    case isFalse => cases h1
    simp [Dict.del] at h1
    subst h1
    cases i with
    | none =>
      simp [validateIdentifier, Dict.del] at h2
      subst h2
      exact ⟨rfl, .inr (.inl ⟨a, rfl⟩)⟩
    | some i =>
      simp [validateIdentifier, Dict.get, Dict.set] at h2
      subst h2
      exact ⟨by simp [Table.write, e1, ev, bind, Except.bind, Table.put, Dict.set, l1],
        .inr (.inr ⟨a, i, rfl⟩)⟩
  · simp only [validateVersion, Dict.get, if_pos] at h1
    split at h1
    case isFalse => cases h1
    simp [Dict.del] at h1
    subst h1
    cases i with
    | none =>
      simp [validateIdentifier, Dict.del] at h2
      subst h2
      exact ⟨rfl, .inr (.inr ⟨a, b, rfl⟩)⟩
    | some i =>
      simp only [validateIdentifier, Dict.get, if_pos] at h2
      split at h2
      case isFalse => cases h2
      simp [Dict.del] at h2
      subst h2
      exact ⟨rfl, .inr (.inr ⟨a, b, rfl⟩)⟩

theorem validateSettings_rel {env : ByteEnv} (he : LawfulEnv env) {tb : ByteTable} {s : Dict SettingsId String}
    (h : Enc (settingsDef env) (fun _ => True) tb s) (hs : SettingsOk s) (v : String) (i : Option String) :
    RelE (fun tb s => Enc (settingsDef env) (fun _ => True) tb s ∧ SettingsOk s)
      (validateSettingsB env tb v i) (validateSettings s v i) := by
  unfold validateSettingsB validateSettings
  rw [enc_read (lawful_settings he) h]
  show RelE _ (validateVersion s v >>= _) _
  cases h1 : validateVersion s v with
  | error e => exact rfl
  | ok s1 =>
    show RelE _ (validateIdentifier s1 i >>= _) (validateIdentifier s1 i >>= _)
    cases h2 : validateIdentifier s1 i with
    | error e => exact rfl
    | ok s2 =>
      obtain ⟨h3, h4⟩ := settings_written hs h1 h2
      have h5 := enc_write (lawful_settings he) s2 (fun _ _ => trivial) h
      rw [h3] at h5
      show RelE _ ((settingsDef env).write tb s2) _
      cases h6 : (settingsDef env).write tb s2 with
      | error e => rw [h6] at h5; exact h5.elim
      | ok tb' => rw [h6] at h5; exact ⟨h5, h4⟩

/-- States of the loop over the partitions. -/
structure PartsRel (env : ByteEnv) (a : InitPartitionsB) (b : InitPartitions) : Prop where
  cache : a.cache = b.cache
  next : a.next = b.next
  table : Enc (tsPartitionDef env) (fun _ => True) a.table b.table
  result : a.result = b.result

theorem initPartitions_rel {env : ByteEnv} (he : LawfulEnv env) {tb : ByteTable} {td : Table Int PartitionData}
    (h : Enc (tsPartitionDef env) (fun _ => True) tb td) (ps : List Partition) :
    RelE (PartsRel env) (initPartitionsB env tb ps) (initPartitions td ps) := by
  unfold initPartitionsB initPartitions
  rw [enc_read (lawful_tsPartition he) h]
  refine RelE.foldlM ps (fun a b hab p _ => ?_) ⟨rfl, rfl, h, rfl⟩
  unfold initPartitionB initPartition
  simp only [hab.cache]
  cases Dict.get b.cache (partitionData p) with
  | some k => exact ⟨rfl, hab.next, hab.table, by simp only [hab.result]⟩
  | none =>
    simp only [hab.next]
    refine RelE.bind (enc_write (lawful_tsPartition he) _ (fun _ _ => trivial) hab.table) fun t u htu => ?_
    exact ⟨rfl, rfl, htu, by simp only [hab.result]⟩

theorem createDbs_rel {env : ByteEnv} (he : LawfulEnv env) {bd : ByteDisk} {d : Disk} (h : DiskEnc env bd d)
    (conf : Conf) :
    RelE (fun a b => DiskEnc env a.1 b.1 ∧ a.2 = b.2) (createDbsB env conf bd) (createDbs conf d) := by
  unfold createDbsB createDbs
  refine RelE.bind (validateSettings_rel he h.settings h.settingsOk _ _) fun s t hst => ?_
  rw [enc_read lawful_lastEventId h.lastEventId, enc_read lawful_lastTimestamp h.lastTimestamp,
    enc_read (lawful_latestType he) h.latestType, enc_read (lawful_latestData he) h.latestData]
  show RelE _ (initPartitionsB env bd.tsPartition conf.partitions >>= _) _
  refine RelE.bind (initPartitions_rel he h.tsPartition conf.partitions) fun a b hab => ?_
  refine ⟨⟨hst.1, hst.2, h.lastEventId, h.lastTimestamp, h.ref, h.latestData, h.latestType, h.tsData, hab.table,
    h.tsCount⟩, ?_⟩
  simp only [hab.result]
  rfl

/-! ### Flushing -/

theorem systemWrite_rel {env : ByteEnv} {bd : ByteDisk} {d : Disk} (h : DiskEnc env bd d) (c : SystemChanges) :
    RelE (DiskEnc env) (systemWriteB c bd) (systemWrite c d) := by
  unfold systemWriteB systemWrite
  refine RelE.bind (enc_write lawful_lastEventId _ (fun _ _ => trivial) h.lastEventId) fun a b hab => ?_
  refine RelE.bind (enc_write lawful_lastTimestamp _ (fun _ _ => trivial) h.lastTimestamp) fun a' b' hab' => ?_
  exact { h with lastEventId := hab, lastTimestamp := hab' }

theorem latestWrite_rel {env : ByteEnv} (he : LawfulEnv env) {bd : ByteDisk} {d : Disk} (h : DiskEnc env bd d)
    (c : LatestChanges) (hc : ∀ p ∈ c.data, GoodEvent env p.2) :
    RelE (DiskEnc env) (latestWriteB env c bd) (latestWrite c d) := by
  unfold latestWriteB latestWrite
  refine RelE.bind (enc_write (lawful_latestData he) _ hc h.latestData) fun a b hab => ?_
  refine RelE.bind (enc_write (lawful_latestType he) _ (fun _ _ => trivial) h.latestType) fun a' b' hab' => ?_
  exact { h with latestData := hab, latestType := hab' }

theorem incCounts_rel (l : List (Int × Int)) {tb : ByteTable} {td : Table Int Int}
    (h : Enc tsCountDef (fun _ => True) tb td) :
    RelE (Enc tsCountDef fun _ => True) (incCountsB tb l) (incCounts td l) := by
  induction l generalizing tb td with
  | nil => exact h
  | cons p l ih =>
    obtain ⟨k, n⟩ := p
    rw [incCountsB, incCounts, Table.write]
    rw [show (Table.write (Table.put td k ((Dict.get td k).getD 0 + n)) [] : Except PyErr (Table Int Int)) =
      .ok (Table.put td k ((Dict.get td k).getD 0 + n)) from rfl]
    cases hk : tsCountDef.encodeKey k with
    | error e =>
      have : (Encodable.encode k : Except PyErr Bytes) = .error e := hk
      rw [this]
      exact rfl
    | ok b =>
      have hk' : (Encodable.encode k : Except PyErr Bytes) = .ok b := hk
      rw [hk']
      show RelE _ (tsCountDef.decodeFound (Dict.get tb b) >>= _) _
      rw [enc_get lawful_tsCount nonEmpty_tsCount h hk]
      show RelE _ (tsCountDef.encodeValue ((Dict.get td k).getD 0 + n) >>= _) _
      cases hv : tsCountDef.encodeValue ((Dict.get td k).getD 0 + n) with
      | error e =>
        have : (Encodable.encode ((Dict.get td k).getD 0 + n) : Except PyErr Bytes) = .error e := hv
        simp only [this]
        exact rfl
      | ok w =>
        have : (Encodable.encode ((Dict.get td k).getD 0 + n) : Except PyErr Bytes) = .ok w := hv
        simp only [this]
        exact ih (enc_put lawful_tsCount h hk hv trivial)

theorem timeseriesWrite_rel {env : ByteEnv} (he : LawfulEnv env) {bd : ByteDisk} {d : Disk} (h : DiskEnc env bd d)
    (c : TimeseriesChanges) (hc : ∀ p ∈ c, ∀ q ∈ p.2, GoodEvent env q.2) :
    RelE (DiskEnc env) (timeseriesWriteB env c bd) (timeseriesWrite c d) := by
  unfold timeseriesWriteB timeseriesWrite
  refine RelE.bind (enc_write (lawful_tsData he) _ ?_ h.tsData) fun a b hab => ?_
  · intro p hp
    unfold timeseriesEntries at hp
    obtain ⟨x, hx, hp⟩ := List.mem_flatMap.1 hp
    obtain ⟨y, hy, rfl⟩ := List.mem_map.1 hp
    exact hc x hx y hy
  refine RelE.bind (incCounts_rel _ h.tsCount) fun a' b' hab' => ?_
  exact { h with tsData := hab, tsCount := hab' }

theorem refValue_nodup {sc : ServerChanges} (hsc : ∀ p ∈ sc.added, p.2.2.Nodup) {value : List EventRef}
    (hv : value.Nodup) (id : EventId) : (refValue sc value id).Nodup := by
  unfold refValue
  have h1 : (match Dict.get sc.added id with
      | some (_, refs) => setUnion value refs
      | none => value).Nodup := by
    cases ha : Dict.get sc.added id with
    | none => exact hv
    | some x =>
      have hx := hsc _ (Dict.mem_of_get ha)
      simp only
      unfold setUnion
      rw [List.nodup_append]
      refine ⟨hv, hx.filter _, fun a ha b hb hab => ?_⟩
      subst hab
      simp at hb
      exact hb.2 ha
  cases Dict.get sc.removed id with
  | none => exact h1
  | some r => exact List.Nodup.filter _ h1

theorem getD_nodup {tb : ByteTable} {td : Table EventId (List EventRef)} (h : Enc refDef GoodRefs tb td)
    (id : EventId) : ((Dict.get td id).getD []).Nodup := by
  cases hg : Dict.get td id with
  | none => exact List.nodup_nil
  | some v => exact (enc_good h hg).1

theorem refWriteOne_rel {sc : ServerChanges} (hsc : ∀ p ∈ sc.added, p.2.2.Nodup) {tb : ByteTable}
    {td : Table EventId (List EventRef)} (h : Enc refDef GoodRefs tb td) (id : EventId) :
    RelE (Enc refDef GoodRefs) (refWriteOneB sc tb id) (refWriteOne sc td id) := by
  unfold refWriteOneB refWriteOne
  refine RelE.bind (encodeKey_rel lawful_ref id) fun b _ hb => ?_
  rw [enc_get lawful_ref nonEmpty_ref h hb]
  show RelE _ (if refValue sc ((Dict.get td id).getD []) id = [] then _ else _) _
  have hv := refValue_nodup hsc (getD_nodup h id) id
  by_cases hn : refValue sc ((Dict.get td id).getD []) id = []
  · rw [if_pos hn]
    simp only
    rw [if_pos hn]
    exact enc_del lawful_ref h hb
  · rw [if_neg hn]
    simp only
    rw [if_neg hn]
    refine RelE.bind (encodeValue_rel lawful_ref _) fun w _ hw => ?_
    exact enc_put lawful_ref (enc_del lawful_ref h hb) hb hw ⟨hv, hn⟩

theorem refWrite_rel {env : ByteEnv} {bd : ByteDisk} {d : Disk} (h : DiskEnc env bd d)
    (c : RefChanges) (hc : ∀ s ∈ c, ∀ p ∈ s.2.added, p.2.2.Nodup) :
    RelE (DiskEnc env) (refWriteB c bd) (refWrite c d) := by
  unfold refWriteB refWrite
  refine RelE.bind (RelE.foldlM (R := Enc refDef GoodRefs) _ ?_ h.ref) fun a b hab => ?_
  · intro a b hab sc hsc
    obtain ⟨s, hs, rfl⟩ := List.mem_map.1 hsc
    unfold refWriteServerB refWriteServer
    exact RelE.foldlM _ (fun a b hab id _ => refWriteOne_rel (hc s hs) hab id) hab
  · exact { h with ref := hab }

/-- Pending changes can be written and read back. -/
structure GoodChanges (env : ByteEnv) (c : Changes) : Prop where
  latest : ∀ p ∈ c.latest.data, GoodEvent env p.2
  timeseries : ∀ p ∈ c.timeseries, ∀ q ∈ p.2, GoodEvent env q.2
  ref : ∀ s ∈ c.ref, ∀ p ∈ s.2.added, p.2.2.Nodup

theorem extFlush_rel {env : ByteEnv} (he : LawfulEnv env) {bd : ByteDisk} {d : Disk} (h : DiskEnc env bd d)
    {c : Changes} (hc : GoodChanges env c) : RelE (DiskEnc env) (extFlushB env bd c) (extFlush d c) := by
  unfold extFlushB extFlush
  refine RelE.bind (systemWrite_rel h _) fun a b h => ?_
  refine RelE.bind (latestWrite_rel he h _ hc.latest) fun a b h => ?_
  refine RelE.bind (timeseriesWrite_rel he h _ hc.timeseries) fun a b h => ?_
  exact refWrite_rel h _ hc.ref

/-! ### Queries -/

theorem partitionRange_eq {env : ByteEnv} (he : LawfulEnv env) {tb : ByteTable} {td : Table TimeseriesKey Event}
    (h : Enc (tsDataDef env) (GoodEvent env) tb td) (p : Int) (tf tt : Option Timestamp) (o : Order) :
    partitionRangeB env tb p tf tt o = partitionRange td p tf tt o := by
  unfold partitionRangeB partitionRange
  refine RelE.eq (RelE.bind (encodeKey_rel (lawful_tsData he) _) fun b _ hb => ?_)
  refine RelE.bind (encodeKey_rel (lawful_tsData he) _) fun c _ hc => ?_
  have hl := lawful_tsData he
  cases o with
  | descending =>
    have h1 : Enc (tsDataDef env) (GoodEvent env) (entriesBeforeB tb c) (entriesBefore td
        ⟨p, tt.getD maxTimestamp, ⟨2 ^ 64 - 1, 2 ^ 64 - 1, 2 ^ 64 - 1⟩⟩) := by
      have hf := enc_fromKey hl h hc
      have hbf := enc_beforeKey hl h hc
      unfold entriesBeforeB entriesBefore
      revert hf
      generalize Table.fromKey tb c = x
      generalize Table.fromKey td _ = y
      intro hf
      cases hf with
      | nil => exact enc_reverse h
      | cons _ _ => exact hbf
    show RelE Eq ((tsDataDef env).values ((entriesBeforeB tb c).takeWhile fun p => !bytesLt p.1 b)) _
    rw [enc_values hl (enc_takeWhile h1 (Q := fun q => !DbKey.lt q.1 (⟨p, tf.getD minTimestamp, ⟨0, 0, 0⟩⟩ : TimeseriesKey))
      (fun x y hxy => by rw [hl.lt hxy hb]))]
    exact rfl
  | ascending =>
    show RelE Eq ((tsDataDef env).values ((Table.fromKey tb b).takeWhile fun p => !bytesLt c p.1)) _
    rw [enc_values hl (enc_takeWhile (enc_fromKey hl h hb)
      (Q := fun q => !DbKey.lt (⟨p, tt.getD maxTimestamp, ⟨2 ^ 64 - 1, 2 ^ 64 - 1, 2 ^ 64 - 1⟩⟩ : TimeseriesKey) q.1)
      (fun x y hxy => by rw [hl.lt hc hxy]))]
    exact rfl

theorem queryPartitionB_eq {env : ByteEnv} (he : LawfulEnv env) {bd : ByteDisk} {d : Disk} (h : DiskEnc env bd d)
    (conf : Conf) (db : TimeseriesDb) (p : Int) (params : QueryTimeseriesParams) (s : Option Sub) (n : Int) :
    queryPartitionB env conf bd db p params s n = queryPartition conf d db p params s n := by
  have he' : partitionEventsB env conf bd p params = partitionEvents conf d p params := by
    funext f
    unfold partitionEventsB partitionEvents
    rw [partitionRange_eq he h.tsData]
  unfold queryPartitionB queryPartition
  rw [he']
  rfl

theorem queryPartitionsB_eq {env : ByteEnv} (he : LawfulEnv env) {bd : ByteDisk} {d : Disk} (h : DiskEnc env bd d)
    (conf : Conf) (db : TimeseriesDb) (params : QueryTimeseriesParams) (s : Option Sub) (n : Int)
    (l : List (Int × Partition)) :
    queryPartitionsB env conf bd db params s n l = queryPartitions conf d db params s n l := by
  induction l with
  | nil => rfl
  | cons p l ih =>
    obtain ⟨k, p⟩ := p
    rw [queryPartitionsB, queryPartitions, ih]
    simp only [queryPartitionB_eq he h]

theorem getEvent_eq {env : ByteEnv} (he : LawfulEnv env) {bd : ByteDisk} {d : Disk} (h : DiskEnc env bd d)
    {ref : EventRef} (hr : RefRange ref) : getEventB env bd ref = .ok (getEvent d ref) := by
  cases ref with
  | latest key =>
    obtain ⟨b, hb⟩ := encodeUint_ok (v := key) hr
    unfold getEventB
    show (encodeUint key >>= _) = _
    rw [hb]
    exact enc_get (lawful_latestData he) (nonEmpty_latestData he) h.latestData hb
  | timeseries key =>
    obtain ⟨b, hb⟩ := (C12_key_accepts key).2 hr
    unfold getEventB
    show (encodeTimeseriesKey key >>= _) = _
    rw [hb]
    exact enc_get (lawful_tsData he) (nonEmpty_tsData he) h.tsData hb

theorem queryRefs_eq {env : ByteEnv} (he : LawfulEnv env) {bd : ByteDisk} {d : Disk} (h : DiskEnc env bd d)
    (conf : Conf) {stop : EventId} {stopB : Bytes} (hs : refDef.encodeKey stop = .ok stopB) {tb : ByteTable}
    {td : Table EventId (List EventRef)} (ht : Enc refDef GoodRefs tb td) (n : Int) :
    queryRefsB env conf bd stopB n tb = queryRefs conf d stop n td := by
  induction ht generalizing n with
  | nil => rfl
  | @cons x y tb td hxy ht ih =>
    obtain ⟨x1, x2⟩ := x
    obtain ⟨y1, y2⟩ := y
    have hlt : bytesLt x1 stopB = EventId.lt y1 stop := lawful_ref.lt hxy.1 hs
    rw [queryRefsB, queryRefs, hlt, lawful_ref.readValue hxy.2.2 hxy.2.1]
    show (if n < 1 then _ else if (!EventId.lt y1 stop) = true then _ else
      match y2[conf.pick y2 % y2.length]? with | none => _ | some ref => _) = _
    split
    · rfl
    · split
      · rfl
      · cases hr : y2[conf.pick y2 % y2.length]? with
        | none => rfl
        | some ref =>
          have hrange : RefRange ref := (C13_accepts y2).1 ⟨_, hxy.2.1⟩ ref (List.mem_of_getElem? hr)
          simp only [getEvent_eq he h hrange]
          show (match getEvent d ref with | some event => _ | none => _) = _
          cases getEvent d ref with
          | none => exact ih n
          | some e => simp only [ih (n - 1)]

theorem extQueryEvents_eq {env : ByteEnv} (he : LawfulEnv env) {bd : ByteDisk} {d : Disk} (h : DiskEnc env bd d)
    (conf : Conf) (server n : Int) (last : Option EventId) :
    extQueryEventsB env conf bd server n last = extQueryEvents conf d server n last := by
  unfold extQueryEventsB extQueryEvents
  refine RelE.eq (RelE.bind (encodeKey_rel lawful_ref _) fun b _ hb => ?_)
  refine RelE.bind (encodeKey_rel lawful_ref _) fun c _ hc => ?_
  have hf := enc_fromKey lawful_ref h.ref hb
  have hr : Enc refDef GoodRefs
      (match Table.fromKey bd.ref b with
        | (k, v) :: r => if k = b then r else (k, v) :: r
        | [] => [])
      (match Table.fromKey d.ref (last.getD ⟨server, 0, 0⟩) with
        | (k, v) :: r => if k = last.getD ⟨server, 0, 0⟩ then r else (k, v) :: r
        | [] => []) := by
    generalize Table.fromKey bd.ref b = x at hf ⊢
    generalize Table.fromKey d.ref (last.getD ⟨server, 0, 0⟩) = y at hf ⊢
    cases hf with
    | nil => exact .nil
    | @cons u v tb td huv ht =>
      obtain ⟨u1, u2⟩ := u
      obtain ⟨v1, v2⟩ := v
      simp only
      by_cases hu : u1 = b
      · rw [if_pos hu, if_pos ((lawful_ref.inj huv.1 hb).1 hu)]
        exact ht
      · rw [if_neg hu, if_neg (fun h => hu ((lawful_ref.inj huv.1 hb).2 h))]
        exact .cons huv ht
  exact RelE.of_eq (queryRefs_eq he h conf hc hr n)

theorem query_eq {env : ByteEnv} (he : LawfulEnv env) {bd : ByteDisk} {d : Disk} (h : DiskEnc env bd d)
    (conf : Conf) (m : Mem) (params : QueryParams) : m.queryB env conf bd params = m.query conf d params := by
  cases params with
  | latest t => rfl
  | timeseries p =>
    show TimeseriesDb.queryB env conf bd m.timeseries p = TimeseriesDb.query conf d m.timeseries p
    unfold TimeseriesDb.queryB TimeseriesDb.query
    simp only [queryPartitionsB_eq he h]
  | server p =>
    show RefDb.queryB env conf bd m.ref p = RefDb.query conf d m.ref p
    unfold RefDb.queryB RefDb.query
    simp only [extQueryEvents_eq he h]

end HatEvent
