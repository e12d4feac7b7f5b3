import Verif.Proof.LmdbRel
import Mathlib.Data.List.Induction
import Verif.Props.Codec
import Verif.Props.LmdbOpen

/-! # The LMDB backend refines the abstract store -/

namespace HatEvent
open Spec

/-- The disk `d` holds the store `st`. -/
structure DiskRel (d : Disk) (st : Store) : Prop where
  sortId : Table.Sorted d.lastEventId
  sortTime : Table.Sorted d.lastTimestamp
  sortData : Table.Sorted d.latestData
  sortType : Table.Sorted d.latestType
  sortTs : Table.Sorted d.tsData
  sortCount : Table.Sorted d.tsCount
  lastId : ∀ s, Dict.get d.lastEventId s = (st.last s).map (·.id)
  lastTime : ∀ s, Dict.get d.lastTimestamp s = (st.last s).map (·.timestamp)
  typeInj : ∀ k k' t, Dict.get d.latestType k = some t → Dict.get d.latestType k' = some t → k = k'
  data : ∀ k e, Dict.get d.latestData k = some e → Dict.get d.latestType k = some e.type
  slot : ∀ t e, st.slot t = some e ↔ ∃ k, Dict.get d.latestType k = some t ∧
    Dict.get d.latestData k = some e
  entry : ∀ k, st.entry k = Dict.get d.tsData k
  range : ∀ x ∈ d.tsData, KeyRange x.1
  counts : ∀ q, (Dict.get d.tsCount q).getD 0 = ((entriesOf d.tsData q).length : Int)
  parts : PartTableOk d.tsPartition

theorem diskRel_empty : DiskRel .empty .empty := by
  refine ⟨.nil, .nil, .nil, .nil, .nil, .nil, ?_, ?_, ?_, ?_, ?_, ?_, ?_, ?_, ?_⟩ <;>
    simp [Disk.empty, Store.empty, Store.last, entriesOf]
  exact ⟨.nil, by simp, by simp⟩

/-! ### Opening -/

theorem get_foldl_set {α κ υ : Type} [DecidableEq κ] (f : α → κ) (g : α → υ) (l : List α)
    (h : ∀ a ∈ l, ∀ b ∈ l, f a = f b → g a = g b) (k : κ) (v : υ) :
    Dict.get (l.foldl (fun d a => Dict.set d (f a) (g a)) []) k = some v ↔
      ∃ a ∈ l, f a = k ∧ g a = v := by
  have key : ∀ (l : List α) (c : Dict κ υ), (∀ a ∈ l, ∀ b ∈ l, f a = f b → g a = g b) →
      (Dict.get (l.foldl (fun d a => Dict.set d (f a) (g a)) c) k = some v ↔
        (∃ a ∈ l, f a = k ∧ g a = v) ∨ ((∀ a ∈ l, f a ≠ k) ∧ Dict.get c k = some v)) := by
    intro l
    induction l with
    | nil => intro c _; simp
    | cons a l ih =>
      intro c hl
      rw [List.foldl_cons, ih _ (fun x hx y hy => hl x (by simp [hx]) y (by simp [hy]))]
      simp only [Dict.get_set, List.mem_cons, exists_eq_or_imp, forall_eq_or_imp]
      by_cases ha : f a = k
      · simp only [ha, if_true, true_and, Option.some.injEq, ne_eq, not_true_eq_false, false_and,
          or_false]
        constructor
        · rintro (h | ⟨_, h⟩)
          · exact .inr h
          · exact .inl h
        · rintro (h | h)
          · by_cases hm : ∃ b ∈ l, f b = k
            · obtain ⟨b, hb, hbk⟩ := hm
              refine .inl ⟨b, hb, hbk, ?_⟩
              rw [← h]
              exact hl b (by simp [hb]) a (by simp) (hbk.trans ha.symm)
            · exact .inr ⟨fun b hb hbk => hm ⟨b, hb, hbk⟩, h⟩
          · exact .inl h
      · simp [ha]
  rw [key l [] h]
  simp

theorem nodup_foldl_set {α κ υ : Type} [DecidableEq κ] (f : α → κ) (g : α → υ) (l : List α)
    (c : Dict κ υ) (h : (Dict.keys c).Nodup) :
    (Dict.keys (l.foldl (fun d a => Dict.set d (f a) (g a)) c)).Nodup := by
  induction l generalizing c with
  | nil => exact h
  | cons a l ih => exact ih _ (Dict.nodup_keys_set h)

theorem latestRel_create {conf : Conf} {d : Disk} {st : Store} (h : DiskRel d st) (hs : StoreOk st) :
    LatestRel conf d (LatestDb.create conf d) st.slot := by
  have hrefs : ∀ t k, Dict.get (d.latestType.foldl (fun c p => Dict.set c p.2 p.1) []) t = some k ↔
      Dict.get d.latestType k = some t := by
    intro t k
    rw [get_foldl_set (fun p : Int × EventType => p.2) (fun p : Int × EventType => p.1)]
    · rw [Dict.get_eq_some_iff h.sortType.nodup]
      constructor
      · rintro ⟨a, ha, rfl, rfl⟩; exact ha
      · intro hm; exact ⟨_, hm, rfl, rfl⟩
    · intro a ha b hb hab
      refine h.typeInj a.1 b.1 a.2 (Dict.get_of_mem h.sortType.nodup ha) ?_
      rw [hab]; exact Dict.get_of_mem h.sortType.nodup hb
  have hev : ∀ k e, (k, e) ∈ (d.latestData.filter fun p =>
      conf.conditions p.2 && conf.latestSub.matches p.2.type &&
      Dict.get (d.latestType.foldl (fun c p => Dict.set c p.2 p.1) []) p.2.type == some p.1) ↔
      Dict.get d.latestData k = some e ∧ Visible conf e := by
    intro k e
    rw [List.mem_filter, ← Dict.get_eq_some_iff h.sortData.nodup]
    refine and_congr_right fun hd => ?_
    have h1 := h.data k e hd
    rw [← hrefs] at h1
    simp [h1, Visible]
  unfold LatestDb.create
  refine ⟨?_, ?_, ?_, ?_, ?_, by simp, by simp, ?_, ?_⟩
  · exact nodup_foldl_set (fun p : Int × Event => p.2.type) (fun p : Int × Event => p.2) _ [] (by simp)
  · intro t e
    simp only
    rw [get_foldl_set (fun p : Int × Event => p.2.type) (fun p : Int × Event => p.2)]
    · rw [h.slot]
      constructor
      · rintro ⟨⟨k, x⟩, ha, rfl, rfl⟩
        obtain ⟨h1, h2⟩ := (hev k x).1 ha
        exact ⟨⟨k, h.data k x h1, h1⟩, h2⟩
      · rintro ⟨⟨k, h1, h2⟩, h3⟩
        refine ⟨(k, e), (hev k e).2 ⟨h2, h3⟩, ?_, rfl⟩
        have := h.data k e h2
        rw [h1] at this; exact (Option.some.inj this).symm
    · rintro ⟨k, x⟩ ha ⟨k', x'⟩ hb hab
      obtain ⟨h1, _⟩ := (hev k x).1 ha
      obtain ⟨h2, _⟩ := (hev k' x').1 hb
      simp only at hab
      have e1 := h.data _ _ h1
      have e2 := h.data _ _ h2
      rw [hab] at e1
      have := h.typeInj _ _ _ e1 e2
      subst this
      rw [h1] at h2; exact Option.some.inj h2
  · intro t k; exact hrefs t k
  · intro k t hk
    simp only [over_nil] at hk ⊢
    have hk' := (hrefs t k).2 hk
    have := (foldl_max_le ((d.latestType.foldl (fun c p => Dict.set c p.2 p.1) []).map Prod.snd) 0).2 k
      (List.mem_map.2 ⟨(t, k), Dict.mem_of_get hk', rfl⟩)
    omega
  · have := (foldl_max_le ((d.latestType.foldl (fun c p => Dict.set c p.2 p.1) []).map Prod.snd) 0).1
    simp only; omega
  · intro k e hk; exact h.data k e hk
  · intro t e; exact h.slot t e

theorem initPartitions_mem {t : Table Int PartitionData} {ps : List Partition} {s : InitPartitions}
    (hs : initPartitions t ps = .ok s) : ∀ i p, Dict.get s.result i = some p → p ∈ ps := by
  have key : ∀ (ps : List Partition) (s0 s : InitPartitions) (all : List Partition),
      (∀ p ∈ ps, p ∈ all) → (∀ i p, Dict.get s0.result i = some p → p ∈ all) →
      ps.foldlM initPartition s0 = .ok s → ∀ i p, Dict.get s.result i = some p → p ∈ all := by
    intro ps
    induction ps with
    | nil => intro s0 s all _ h0 h; cases h; exact h0
    | cons p ps ih =>
      intro s0 s all hall h0 h
      rw [List.foldlM_cons] at h
      obtain ⟨s1, h1, h⟩ := bind_ok h
      refine ih s1 s all (fun q hq => hall q (by simp [hq])) ?_ h
      unfold initPartition at h1
      simp only at h1
      intro i q hq
      split at h1
      · cases h1
        simp only [Dict.get_set] at hq
        split at hq
        · cases hq; exact hall _ (by simp)
        · exact h0 i q hq
      · obtain ⟨t1, _, h1⟩ := bind_ok h1
        cases h1
        simp only [Dict.get_set] at hq
        split at hq
        · cases hq; exact hall _ (by simp)
        · exact h0 i q hq
  exact key ps _ s ps (fun p hp => hp) (by simp) hs

theorem reopen_rel {conf : Conf} {d d' : Disk} {m : Mem} {st : Store} (h : DiskRel d st)
    (hs : StoreOk st) (hc : createDbs conf d = .ok (d', m)) :
    DiskRel d' st ∧ Configured conf m.timeseries.partitions ∧
      MemRel conf d' m m.timeseries.partitions st st := by
  obtain ⟨s, p, _, hp, rfl, rfl⟩ := createDbs_ok hc
  obtain ⟨hi, hall⟩ := initPartitions_ok h.parts hp
  refine ⟨⟨h.sortId, h.sortTime, h.sortData, h.sortType, h.sortTs, h.sortCount, h.lastId, h.lastTime,
    h.typeInj, h.data, h.slot, h.entry, h.range, h.counts, hi.table⟩, ⟨hi.resultNodup,
    initPartitions_mem hp, ?_⟩, ⟨rfl, ⟨hi.resultNodup, fun x hx =>
      initPartitions_mem hp x.1 x.2 (Dict.get_of_mem hi.resultNodup hx)⟩, ?_, ?_, ?_, by simp, [], by simp, by simp⟩⟩
  · intro q hq
    obtain ⟨i, q', h2, h3⟩ := hall q hq
    exact ⟨i, q', h2, ((C48_description _ _).1 h3).1, ((C48_description _ _).1 h3).2⟩
  · exact ⟨h.lastId, h.lastTime, h.lastId, h.lastTime, by simp [SystemDb.create],
      by simp [SystemDb.create]⟩
  · have := latestRel_create (conf := conf) h hs
    exact ⟨this.nodEvents, this.events, this.refs, this.next, this.nextPos, this.nodTypes,
      this.nodData, this.data, this.slot⟩
  · refine ⟨by simp, by simp [timeseriesEntries, Dict.keys], by simp [timeseriesEntries, Dict.keys], ?_⟩
    intro k
    rw [h.entry]; rfl

/-! ### Flush -/

theorem incCounts_ok {t t' : Table Int Int} {l : List (Int × Int)} (h : incCounts t l = .ok t')
    (hn : (Dict.keys l).Nodup) :
    (Table.Sorted t → Table.Sorted t') ∧
      ∀ q, (Dict.get t' q).getD 0 = (Dict.get t q).getD 0 + (Dict.get l q).getD 0 := by
  induction l generalizing t with
  | nil => cases h; simp
  | cons p l ih =>
    obtain ⟨i, n⟩ := p
    rw [incCounts] at h
    obtain ⟨t1, h1, h⟩ := bind_ok h
    have h2 := (Table.write_eq h1).1
    simp only [List.foldl_cons, List.foldl_nil] at h2
    simp only [Dict.keys_cons, List.nodup_cons] at hn
    obtain ⟨h3, h4⟩ := ih h hn.2
    refine ⟨fun hs => h3 (h2 ▸ Table.sorted_put _ _ hs), ?_⟩
    intro q
    rw [h4, h2, Table.get_put, Dict.get_cons]
    by_cases hq : i = q
    · subst hq
      have : Dict.get l i = none := Dict.get_eq_none_iff.2 hn.1
      simp [this]
    · simp [hq]

theorem entriesOf_pending (ch : TimeseriesChanges) (hn : (Dict.keys ch).Nodup) (q : Int) :
    ((timeseriesEntries ch).filter fun x => x.1.partition = q).length =
      ((Dict.get ch q).getD []).length := by
  induction ch with
  | nil => simp [timeseriesEntries]
  | cons p ch ih =>
    simp only [Dict.keys_cons, List.nodup_cons] at hn
    have ih := ih hn.2
    unfold timeseriesEntries at ih ⊢
    rw [List.flatMap_cons, List.filter_append, List.length_append, ih, Dict.get_cons]
    by_cases hq : p.1 = q
    · subst hq
      have : Dict.get ch p.1 = none := Dict.get_eq_none_iff.2 hn.1
      rw [this]
      simp only [if_true, Option.getD_none, List.length_nil, Nat.add_zero, Option.getD_some]
      rw [List.filter_eq_self.2]
      · simp
      · intro x hx
        obtain ⟨y, _, rfl⟩ := List.mem_map.1 hx
        simp
    · simp only [hq, if_false]
      rw [List.filter_eq_nil_iff.2]
      · simp
      · intro x hx
        obtain ⟨y, _, rfl⟩ := List.mem_map.1 hx
        simpa using hq

theorem get_counts (ch : TimeseriesChanges) (q : Int) :
    (Dict.get (ch.map fun p => (p.1, (p.2.length : Int))) q).getD 0 =
      (((Dict.get ch q).getD []).length : Int) := by
  induction ch with
  | nil => simp
  | cons p ch ih =>
    rw [List.map_cons, Dict.get_cons, Dict.get_cons]
    by_cases hq : p.1 = q
    · simp [hq]
    · simp only [hq, if_false]; exact ih

theorem flush_rel {conf : Conf} {d d' : Disk} {m : Mem} {parts : Dict Int Partition} {fl cur : Store}
    (h : DiskRel d fl) (hm : MemRel conf d m parts fl cur)
    (hf : extFlush d m.createChanges.1 = .ok d') :
    DiskRel d' cur ∧ MemRel conf d' { m.createChanges.2 with registered := [] } parts cur cur := by
  obtain ⟨ids, tss, data, types, tsd, counts, ref, h1, h2, h3, h4, h5, h6, _, rfl⟩ := extFlush_ok hf
  have e1 := (Table.write_eq h1).1
  have e2 := (Table.write_eq h2).1
  have e3 := (Table.write_eq h3).1
  have e4 := (Table.write_eq h4).1
  obtain ⟨e5, r5⟩ := Table.write_eq h5
  simp only [Mem.createChanges] at *
  have g1 : ∀ k, Dict.get ids k = over m.system.changes.lastEventIds d.lastEventId k := fun k => by
    rw [e1, get_puts' hm.sys.nodIds]
  have g2 : ∀ k, Dict.get tss k = over m.system.changes.lastTimestamps d.lastTimestamp k := fun k => by
    rw [e2, get_puts' hm.sys.nodTss]
  have g3 : ∀ k, Dict.get data k = over m.latest.changes.data d.latestData k := fun k => by
    rw [e3, get_puts' hm.latest.nodData]
  have g4 : ∀ k, Dict.get types k = over m.latest.changes.types d.latestType k := fun k => by
    rw [e4, get_puts' hm.latest.nodTypes]
  have g5 : ∀ k, Dict.get tsd k = over (timeseriesEntries m.timeseries.changes) d.tsData k := fun k => by
    rw [e5, get_puts' hm.ts.pnod]
  have hnodc : (Dict.keys (m.timeseries.changes.map fun p => (p.1, (p.2.length : Int)))).Nodup := by
    have : Dict.keys (m.timeseries.changes.map fun p => (p.1, (p.2.length : Int))) =
        Dict.keys m.timeseries.changes := by simp [Dict.keys, Function.comp_def]
    rw [this]; exact hm.ts.nod
  obtain ⟨c1, c2⟩ := incCounts_ok h6 hnodc
  have hperm : tsd.Perm (d.tsData ++ timeseriesEntries m.timeseries.changes) := by
    rw [e5]
    refine Table.puts_perm hm.ts.pnod ?_
    intro k hk
    rw [← Dict.get_eq_none_iff]
    exact hm.ts.fresh k hk
  have hD : DiskRel ⟨d.settings, ids, tss, ref, data, types, tsd, d.tsPartition, counts⟩ cur := by
    refine ⟨e1 ▸ Table.sorted_puts _ h.sortId, e2 ▸ Table.sorted_puts _ h.sortTime,
      e3 ▸ Table.sorted_puts _ h.sortData, e4 ▸ Table.sorted_puts _ h.sortType,
      e5 ▸ Table.sorted_puts _ h.sortTs, c1 h.sortCount, ?_, ?_, ?_, ?_, ?_, ?_, ?_, ?_, h.parts⟩
    · intro s; rw [g1]; exact hm.sys.chIds s
    · intro s; rw [g2]; exact hm.sys.chTss s
    · intro k k' t hk hk'
      simp only [g4] at hk hk'
      rw [← hm.latest.refs] at hk hk'
      rw [hk] at hk'; exact Option.some.inj hk'
    · intro k e hk
      simp only [g3, g4] at hk ⊢
      exact hm.latest.data k e hk
    · intro t e
      simp only [g3, g4]
      exact hm.latest.slot t e
    · intro k; rw [hm.ts.entry, g5]
    · intro x hx
      rcases List.mem_append.1 (hperm.mem_iff.1 hx) with hx | hx
      · exact h.range x hx
      · exact (C12_key_accepts _).1 (r5 x hx).1
    · intro q
      have : (entriesOf tsd q).length = (entriesOf d.tsData q).length +
          ((timeseriesEntries m.timeseries.changes).filter fun x => x.1.partition = q).length := by
        rw [← List.length_append]
        have := (hperm.filter fun x => decide (x.1.partition = q)).length_eq
        rw [List.filter_append] at this
        exact this
      simp only
      rw [c2, h.counts, this, get_counts, entriesOf_pending _ hm.ts.nod]
      push_cast; rfl
  refine ⟨hD, ⟨hm.partsEq, hm.partsIn, ?_, ?_, ?_, hm.refLast, [], by simp, by simp⟩⟩
  · exact ⟨hm.sys.ids, hm.sys.tss, hD.lastId, hD.lastTime, by simp, by simp⟩
  · refine ⟨hm.latest.nodEvents, hm.latest.events, ?_, ?_, hm.latest.nextPos, by simp, by simp,
      fun k e hk => hD.data k e hk, fun t e => hD.slot t e⟩
    · intro t k
      simp only [over_nil, g4]
      exact hm.latest.refs t k
    · intro k t hk
      simp only [over_nil, g4] at hk
      exact hm.latest.next k t hk
  · exact ⟨by simp, by simp [timeseriesEntries, Dict.keys], by simp [timeseriesEntries, Dict.keys],
      fun k => hD.entry k⟩

/-! ### Cleanup -/

theorem get_filter {κ υ : Type} [DecidableEq κ] {d : Dict κ υ} (hn : (Dict.keys d).Nodup)
    (p : κ → Bool) (k : κ) :
    Dict.get (d.filter fun x => p x.1) k = if p k = true then Dict.get d k else none := by
  induction d with
  | nil => simp
  | cons x d ih =>
    simp only [Dict.keys_cons, List.nodup_cons] at hn
    by_cases hx : p x.1 = true
    · rw [List.filter_cons_of_pos (by simpa using hx), Dict.get_cons, Dict.get_cons, ih hn.2]
      by_cases hk : x.1 = k
      · subst hk; simp [hx]
      · simp [hk]
    · rw [List.filter_cons_of_neg (by simpa using hx), ih hn.2, Dict.get_cons]
      by_cases hk : x.1 = k
      · subst hk; simp [hx]
      · simp [hk]

/-- The removed keys of a cleanup and what it does to the store. -/
theorem cleanup_rel {conf : Conf} {fl : Rat → Rat} {se : Rat → Option Int} {now : Timestamp}
    {d d' : Disk} {m : Mem} {parts : Dict Int Partition} {flst cur : Store} {r : Bool}
    (h : DiskRel d flst) (hm : MemRel conf d m parts flst cur)
    (hc : extCleanup fl se now m.timeseries.partitions d = .ok (d', r)) :
    ∃ rem : List TimeseriesKey,
      (rem.Nodup ∧ rem.length ≤ 1024) ∧
      (∀ k ∈ rem, (∃ e, flst.entry k = some e) ∧
        ∃ part limit, Dict.get parts k.partition = some part ∧ part.limit = some limit) ∧
      d'.tsData = d.tsData.filter (fun x => x.1 ∉ rem) ∧
      DiskRel d' (flst.drop (· ∈ rem)) ∧
      MemRel conf d' m parts (flst.drop (· ∈ rem)) (cur.drop (· ∈ rem)) ∧
      (∀ q, q ∉ Dict.keys parts → entriesOf d'.tsData q = entriesOf d.tsData q) ∧
      (∀ q part, Dict.get parts q = some part →
        PartCleaned fl se now (rem.length < 1024) d.tsData d'.tsData q part) ∧
      ((rem = [] ∧ d' = d) ∨ ∃ counts ref, refCleanup d.ref rem = .ok ref ∧
        d' = { d with tsData := d.tsData.filter (fun x => x.1 ∉ rem), tsCount := counts, ref := ref }) := by
  obtain ⟨removed, data, counts, h1, h2⟩ := extCleanup_ok hc
  rw [hm.partsEq] at h1
  obtain ⟨rem, c1, c2, c3, c4, c5, c6, c7, c8, c9⟩ :=
    cleanupPartitions_spec parts [] d.tsData d.tsCount hm.nodParts h.sortTs h.range h.counts
      (by simp [cleanupMaxResults]) h1
  rw [List.nil_append] at c1
  subst c1
  have hdata : d'.tsData = data := by
    rcases h2 with ⟨hr, rfl⟩ | ⟨_, ref, _, rfl⟩
    · rw [c4, hr]; simp
    · rfl
  have hcount : ∀ q, (Dict.get d'.tsCount q).getD 0 = ((entriesOf d'.tsData q).length : Int) := by
    rcases h2 with ⟨hr, rfl⟩ | ⟨_, ref, _, rfl⟩
    · exact h.counts
    · exact c8
  have hcs : Table.Sorted d'.tsCount := by
    rcases h2 with ⟨hr, rfl⟩ | ⟨_, ref, _, rfl⟩
    · exact h.sortCount
    · exact c9 h.sortCount
  have hsame : d'.settings = d.settings ∧ d'.lastEventId = d.lastEventId ∧
      d'.lastTimestamp = d.lastTimestamp ∧ d'.latestData = d.latestData ∧
      d'.latestType = d.latestType ∧ d'.tsPartition = d.tsPartition := by
    rcases h2 with ⟨hr, rfl⟩ | ⟨_, ref, _, rfl⟩ <;> exact ⟨rfl, rfl, rfl, rfl, rfl, rfl⟩
  obtain ⟨s1, s2, s3, s4, s5, s6⟩ := hsame
  have hget : ∀ k, Dict.get d'.tsData k = if k ∈ removed then none else Dict.get d.tsData k := by
    intro k
    rw [hdata, c4]
    have := get_filter h.sortTs.nodup (fun k => decide (k ∉ removed)) k
    rw [this]
    by_cases hk : k ∈ removed <;> simp [hk]
  have hdrop : ∀ (st : Store) k, (st.drop (· ∈ removed)).entry k =
      if k ∈ removed then none else st.entry k := by
    intro st k
    simp only [Store.drop]
    split <;> rfl
  refine ⟨removed, ⟨c2, by simp only [cleanupMaxResults] at c5; omega⟩, ?_, ?_, ?_, ?_, ?_, ?_, ?_⟩
  · intro k hk
    obtain ⟨x, hx, rfl⟩ := List.mem_map.1 (c3 k hk)
    have hx' := Dict.get_of_mem h.sortTs.nodup hx
    refine ⟨⟨x.2, by rw [h.entry]; exact hx'⟩, ?_⟩
    have hgone : x ∉ entriesOf data x.1.partition := by
      rw [c4]
      simp [entriesOf, hk]
    have hin : x ∈ entriesOf d.tsData x.1.partition := by simp [entriesOf, hx]
    by_cases hq : x.1.partition ∈ parts.map Prod.fst
    · obtain ⟨⟨q, part⟩, hp, hpq⟩ := List.mem_map.1 hq
      simp only at hpq
      subst hpq
      have hcl := c7 x.1.partition part hp
      unfold PartCleaned at hcl
      cases hl : part.limit with
      | none =>
        rw [hl] at hcl
        simp only at hcl
        rw [hcl] at hgone; exact absurd hin hgone
      | some limit => exact ⟨part, limit, Dict.get_of_mem hm.nodParts hp, hl⟩
    · rw [c6 _ hq] at hgone; exact absurd hin hgone
  · rw [hdata, c4]
  · refine ⟨by rw [s2]; exact h.sortId, by rw [s3]; exact h.sortTime, by rw [s4]; exact h.sortData,
      by rw [s5]; exact h.sortType, by rw [hdata, c4]; exact List.Pairwise.filter _ h.sortTs, hcs,
      by rw [s2]; exact h.lastId, by rw [s3]; exact h.lastTime, by rw [s5]; exact h.typeInj,
      by rw [s4, s5]; exact h.data, by rw [s4, s5]; exact h.slot, ?_, ?_, hcount,
      by rw [s6]; exact h.parts⟩
    · intro k; rw [hget, hdrop, h.entry]
    · intro x hx
      rw [hdata, c4] at hx
      exact h.range x (List.mem_filter.1 hx).1
  · refine ⟨hm.partsEq, hm.partsIn, ?_, ?_, ?_, hm.refLast, hm.pend⟩
    · exact ⟨hm.sys.ids, hm.sys.tss, by rw [s2]; exact hm.sys.chIds, by rw [s3]; exact hm.sys.chTss,
        hm.sys.nodIds, hm.sys.nodTss⟩
    · refine ⟨hm.latest.nodEvents, hm.latest.events, by rw [s5]; exact hm.latest.refs,
        by rw [s5]; exact hm.latest.next, hm.latest.nextPos, hm.latest.nodTypes, hm.latest.nodData,
        by rw [s4, s5]; exact hm.latest.data, by rw [s4, s5]; exact hm.latest.slot⟩
    · refine ⟨hm.ts.nod, hm.ts.pnod, ?_, ?_⟩
      · intro k hk
        rw [hget, hm.ts.fresh k hk]; simp
      · intro k
        rw [hdrop, hm.ts.entry]
        unfold over
        cases hg : Dict.get (timeseriesEntries m.timeseries.changes) k with
        | none => rw [hget]
        | some v =>
          have hk : k ∈ Dict.keys (timeseriesEntries m.timeseries.changes) := by
            by_contra hne
            rw [Dict.get_eq_none_iff.2 hne] at hg; simp at hg
          rw [if_neg]
          intro hr
          have := hm.ts.fresh k hk
          obtain ⟨x, hx, rfl⟩ := List.mem_map.1 (c3 k hr)
          rw [Dict.get_of_mem h.sortTs.nodup hx] at this
          simp at this
  · intro q hq; rw [hdata]; exact c6 q hq
  · intro q part hp
    rw [hdata]
    have := c7 q part (Dict.mem_of_get hp)
    unfold PartCleaned at this ⊢
    cases hl : part.limit with
    | none => rw [hl] at this; exact this
    | some limit =>
      rw [hl] at this
      obtain ⟨old, o1, o2⟩ := this
      refine ⟨old, o1, fun hlt => o2 ?_⟩
      simp only [cleanupMaxResults]; omega
  · rcases h2 with ⟨hr, rfl⟩ | ⟨_, ref, hr, rfl⟩
    · exact .inl ⟨hr, rfl⟩
    · exact .inr ⟨counts, ref, hr, by rw [c4]⟩

/-! ### Histories -/

/-- The backend `b` is in the state `w`. -/
structure WorldRel (b : Backend) (w : World) : Prop where
  conf : b.conf = w.conf
  disk : DiskRel b.disk w.flushed
  okF : StoreOk w.flushed
  okC : StoreOk w.cur
  opened : ∀ m, b.mem = some m → w.isOpen = true ∧
    MemRel w.conf b.disk m w.partitions w.flushed w.cur
  closed : b.mem = none → w.isOpen = false ∧ w.cur = w.flushed

theorem WorldRel.isOpen {b : Backend} {w : World} (h : WorldRel b w) : w.isOpen = b.mem.isSome := by
  cases hm : b.mem with
  | none => rw [(h.closed hm).1]; rfl
  | some m => rw [(h.opened m hm).1]; rfl

theorem worldRel_new (conf : Conf) : WorldRel (.new conf) (.new conf) :=
  ⟨rfl, diskRel_empty, storeOk_empty, storeOk_empty, by simp [Backend.new], fun _ => ⟨rfl, rfl⟩⟩

theorem touch_rel {conf : Conf} {d : Disk} {m : Mem} {parts : Dict Int Partition} {fl cur : Store}
    (hm : MemRel conf d m parts fl cur) (p : Int) :
    MemRel conf d { m with timeseries := { m.timeseries with
      changes := Dict.set m.timeseries.changes p ((Dict.get m.timeseries.changes p).getD []) } }
      parts fl cur := by
  have hent : timeseriesEntries (Dict.set m.timeseries.changes p
      ((Dict.get m.timeseries.changes p).getD [])) = timeseriesEntries m.timeseries.changes := by
    generalize m.timeseries.changes = ch
    induction ch with
    | nil => simp [Dict.set, timeseriesEntries]
    | cons x ch ih =>
      by_cases hx : x.1 = p
      · simp [Dict.set, Dict.get_cons, hx, timeseriesEntries]
      · have h1 : Dict.set (x :: ch) p ((Dict.get (x :: ch) p).getD []) =
            x :: Dict.set ch p ((Dict.get ch p).getD []) := by
          obtain ⟨a, b⟩ := x
          simp only at hx
          simp only [Dict.set, Dict.get_cons, hx, if_false]
        rw [h1]
        unfold timeseriesEntries at ih ⊢
        rw [List.flatMap_cons, List.flatMap_cons, ih]
  refine ⟨hm.partsEq, hm.partsIn, hm.sys, hm.latest, ⟨Dict.nodup_keys_set hm.ts.nod, ?_, ?_, ?_⟩,
    hm.refLast, ?_⟩
  · rw [hent]; exact hm.ts.pnod
  · rw [hent]; exact hm.ts.fresh
  · rw [hent]; exact hm.ts.entry
  · obtain ⟨pend, p1, p2⟩ := hm.pend
    refine ⟨pend, p1, ?_⟩
    intro q
    rw [← p2]
    simp only [Dict.get_set]
    by_cases hq : p = q
    · simp [hq]
    · simp [hq]

theorem step_rel {b : Backend} {w : World} (h : WorldRel b w) (hlc : b.mem ≠ none → LookupLaw b.conf)
    (op : BackendOp) :
    ∃ w', Step w op w' ∧ WorldRel (b.step op) w' := by
  have hst := stepTo b op
  generalize b.step op = b' at hst
  cases hst with
  | closed h1 h2 => exact ⟨w, .closed (h.closed h1).1 h2, h⟩
  | register h1 h2 =>
    obtain ⟨ho, hm⟩ := h.opened _ h1
    refine ⟨_, .register ho, ⟨h.conf, h.disk, h.okF, storeOk_offers _ h.okC, ?_, by simp⟩⟩
    rintro m2 ⟨⟩
    have hl := hlc (by simp [h1])
    rw [h.conf] at hl h2
    obtain ⟨m3, h3, h4⟩ := register_rel hl h.okC hm _
    rw [h2] at h3; cases h3
    exact ⟨ho, h4⟩
  | registerFail h1 h2 =>
    obtain ⟨ho, hm⟩ := h.opened _ h1
    have hl := hlc (by simp [h1])
    rw [h.conf] at hl h2
    obtain ⟨m3, h3, _⟩ := register_rel hl h.okC hm _
    rw [h2] at h3; simp at h3
  | touch h1 =>
    obtain ⟨ho, hm⟩ := h.opened _ h1
    refine ⟨_, .touch ho, ⟨h.conf, h.disk, h.okF, h.okC, ?_, by simp⟩⟩
    rintro m2 ⟨⟩
    exact ⟨ho, touch_rel hm _⟩
  | flush h1 h2 =>
    obtain ⟨ho, hm⟩ := h.opened _ h1
    obtain ⟨f1, f2⟩ := flush_rel h.disk hm h2
    refine ⟨_, .flush ho, ⟨h.conf, f1, h.okC, h.okC, ?_, by simp⟩⟩
    rintro m2 ⟨⟩
    exact ⟨ho, f2⟩
  | flushFail h1 h2 =>
    obtain ⟨ho, hm⟩ := h.opened _ h1
    exact ⟨_, .flushFail ho, ⟨h.conf, h.disk, h.okF, h.okF, by simp, fun _ => ⟨rfl, rfl⟩⟩⟩
  | cleanup h1 h2 =>
    obtain ⟨ho, hm⟩ := h.opened _ h1
    obtain ⟨rem, _, r1, _, r2, r3, _⟩ := cleanup_rel h.disk hm h2
    refine ⟨_, .cleanup (· ∈ rem) ho r1, ⟨h.conf, r2, storeOk_drop h.okF _, storeOk_drop h.okC _, ?_, ?_⟩⟩
    · intro m2 hm2
      have : b.mem = some m2 := hm2
      rw [h1] at this; cases this
      exact ⟨ho, r3⟩
    · intro hn
      have : b.mem = none := hn
      rw [h1] at this; simp at this
  | cleanupFail h1 h2 =>
    obtain ⟨ho, hm⟩ := h.opened _ h1
    exact ⟨_, .cleanupFail ho, ⟨h.conf, h.disk, h.okF, h.okF, by simp, fun _ => ⟨rfl, rfl⟩⟩⟩
  | reopen h1 =>
    obtain ⟨r1, r2, r3⟩ := reopen_rel h.disk h.okF h1
    refine ⟨_, .reopen r2, ⟨rfl, r1, h.okF, h.okF, ?_, by simp⟩⟩
    rintro m2 ⟨⟩
    exact ⟨rfl, r3⟩
  | reopenFail h1 =>
    exact ⟨_, .reopenFail, ⟨rfl, h.disk, h.okF, h.okF, by simp, fun _ => ⟨rfl, rfl⟩⟩⟩

theorem run_snoc (b : Backend) (ops : List BackendOp) (op : BackendOp) :
    b.run (ops ++ [op]) = (b.run ops).step op := by
  unfold Backend.run; rw [List.foldl_append]; rfl

/-- An open backend has the configuration of an opening. -/
theorem run_conf (conf : Conf) (ops : List BackendOp) (h : ((Backend.new conf).run ops).mem ≠ none) :
    .reopen ((Backend.new conf).run ops).conf ∈ ops := by
  induction ops using List.reverseRecOn with
  | nil => simp [Backend.run, Backend.new] at h
  | append_singleton ops op ih =>
    rw [run_snoc] at h ⊢
    have hst := stepTo ((Backend.new conf).run ops) op
    generalize ((Backend.new conf).run ops).step op = b' at hst h ⊢
    cases hst with
    | closed h1 h2 => exact absurd h1 h
    | reopen h1 => simp
    | reopenFail h1 => simp at h
    | register h1 h2 => exact List.mem_append_left _ (ih (by simp [h1]))
    | registerFail h1 h2 => simp at h
    | touch h1 => exact List.mem_append_left _ (ih (by simp [h1]))
    | flush h1 h2 => exact List.mem_append_left _ (ih (by simp [h1]))
    | flushFail h1 h2 => simp at h
    | cleanup h1 h2 => exact List.mem_append_left _ (ih (by simp [h1]))
    | cleanupFail h1 h2 => simp at h

/-- Every history of the backend is a history of the abstract store. -/
theorem run_rel (conf : Conf) (ops : List BackendOp) (hl : LookupLaws ops) :
    ∃ w, Run conf ops w ∧ WorldRel ((Backend.new conf).run ops) w := by
  induction ops using List.reverseRecOn with
  | nil => exact ⟨_, .nil, worldRel_new conf⟩
  | append_singleton ops op ih =>
    obtain ⟨w, h1, h2⟩ := ih (fun c hc => hl c (by simp [hc]))
    obtain ⟨w', h3, h4⟩ := step_rel h2 (fun hm => hl _ (by
      have := run_conf conf ops hm; simp [this])) op
    exact ⟨w', .snoc h1 h3 (by rw [run_snoc]; exact h4.isOpen), by rw [run_snoc]; exact h4⟩

end HatEvent
