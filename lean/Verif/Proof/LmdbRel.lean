import Verif.Proof.LmdbStore

/-! # Relation between the LMDB backend and the abstract store -/

namespace HatEvent
open Spec

/-! ### Pending changes over a table -/

section over
variable {κ υ : Type} [DecidableEq κ]

/-- The value of a key once the changes `a` are written over `b`. -/
def over (a b : Dict κ υ) (k : κ) : Option υ :=
  match Dict.get a k with
  | some v => some v
  | none => Dict.get b k

theorem over_nil (b : Dict κ υ) (k : κ) : over [] b k = Dict.get b k := rfl

theorem over_set (a b : Dict κ υ) (k k' : κ) (v : υ) :
    over (Dict.set a k v) b k' = if k = k' then some v else over a b k' := by
  unfold over
  rw [Dict.get_set]
  by_cases h : k = k' <;> simp [h]

end over

theorem get_puts' {κ υ : Type} [DecidableEq κ] [DbKey κ] [Encodable υ] {t : Table κ υ} {l : List (κ × υ)}
    (hn : (Dict.keys l).Nodup) (k : κ) :
    Dict.get (l.foldl (fun t p => Table.put t p.1 p.2) t) k = over l t k :=
  Table.get_puts hn k

/-! ### System database -/

structure SysRel (d : Disk) (db : SystemDb) (last : Int → Option Event) : Prop where
  ids : ∀ s, Dict.get db.lastEventIds s = (last s).map (·.id)
  tss : ∀ s, Dict.get db.lastTimestamps s = (last s).map (·.timestamp)
  chIds : ∀ s, over db.changes.lastEventIds d.lastEventId s = (last s).map (·.id)
  chTss : ∀ s, over db.changes.lastTimestamps d.lastTimestamp s = (last s).map (·.timestamp)
  nodIds : (Dict.keys db.changes.lastEventIds).Nodup
  nodTss : (Dict.keys db.changes.lastTimestamps).Nodup

theorem sysRel_set {d : Disk} {db : SystemDb} {last last' : Int → Option Event} (h : SysRel d db last)
    (e : Event) (hl : ∀ s, last' s = if e.id.server = s then some e else last s) :
    SysRel d ((db.setLastEventId e.id).setLastTimestamp e.id.server e.timestamp) last' := by
  refine ⟨?_, ?_, ?_, ?_, Dict.nodup_keys_set h.nodIds, Dict.nodup_keys_set h.nodTss⟩
  · intro s
    simp only [SystemDb.setLastTimestamp, SystemDb.setLastEventId, Dict.get_set, hl, h.ids]
    split <;> rfl
  · intro s
    simp only [SystemDb.setLastTimestamp, SystemDb.setLastEventId, Dict.get_set, hl, h.tss]
    split <;> rfl
  · intro s
    simp only [SystemDb.setLastTimestamp, SystemDb.setLastEventId, over_set, hl, h.chIds]
    split <;> rfl
  · intro s
    simp only [SystemDb.setLastTimestamp, SystemDb.setLastEventId, over_set, hl, h.chTss]
    split <;> rfl

/-! ### Latest database -/

structure LatestRel (conf : Conf) (d : Disk) (db : LatestDb) (slot : EventType → Option Event) : Prop where
  nodEvents : (Dict.keys db.events).Nodup
  events : ∀ t e, Dict.get db.events t = some e ↔ slot t = some e ∧ Visible conf e
  refs : ∀ t k, Dict.get db.eventTypeRefs t = some k ↔ over db.changes.types d.latestType k = some t
  next : ∀ k t, over db.changes.types d.latestType k = some t → k < db.nextRef
  nextPos : 1 ≤ db.nextRef
  nodTypes : (Dict.keys db.changes.types).Nodup
  nodData : (Dict.keys db.changes.data).Nodup
  data : ∀ k e, over db.changes.data d.latestData k = some e →
    over db.changes.types d.latestType k = some e.type
  slot : ∀ t e, slot t = some e ↔ ∃ k, over db.changes.types d.latestType k = some t ∧
    over db.changes.data d.latestData k = some e

theorem latestRel_typeRef {conf : Conf} {d : Disk} {db : LatestDb} {slot : EventType → Option Event}
    (h : LatestRel conf d db slot) (t : EventType) :
    LatestRel conf d (db.typeRef t).2 slot ∧
      over (db.typeRef t).2.changes.types d.latestType (db.typeRef t).1 = some t ∧
      (db.typeRef t).2.events = db.events ∧ (db.typeRef t).2.changes.data = db.changes.data := by
  unfold LatestDb.typeRef
  cases hr : Dict.get db.eventTypeRefs t with
  | some k => exact ⟨h, (h.refs t k).1 hr, rfl, rfl⟩
  | none =>
    have hnew : over db.changes.types d.latestType db.nextRef = none := by
      cases ho : over db.changes.types d.latestType db.nextRef with
      | none => rfl
      | some t' => exact absurd (h.next _ _ ho) (lt_irrefl _)
    have hno : ∀ k, over db.changes.types d.latestType k ≠ some t := by
      intro k hk
      rw [← h.refs, hr] at hk; simp at hk
    refine ⟨⟨h.nodEvents, h.events, ?_, ?_, ?_, Dict.nodup_keys_set h.nodTypes, h.nodData, ?_, ?_⟩,
      ?_, rfl, rfl⟩
    · intro t' k
      simp only [Dict.get_set, over_set]
      by_cases ht : t = t'
      · subst ht
        rw [if_pos rfl]
        by_cases hk : db.nextRef = k
        · simp [hk]
        · rw [if_neg hk]
          constructor
          · intro h'; exact absurd (Option.some.inj h') hk
          · intro h'; exact absurd h' (hno k)
      · rw [if_neg ht, h.refs]
        by_cases hk : db.nextRef = k
        · subst hk
          rw [if_pos rfl, hnew]
          simp [ht]
        · rw [if_neg hk]
    · intro k t' hk
      simp only [over_set] at hk
      by_cases hk' : db.nextRef = k
      · simp only; omega
      · rw [if_neg hk'] at hk
        have := h.next k t' hk
        simp only; omega
    · have := h.nextPos; simp only; omega
    · intro k e hk
      have h1 := h.data k e hk
      simp only [over_set]
      rw [if_neg]
      · exact h1
      · intro hk'
        have := h.next _ _ h1; omega
    · intro t' e
      rw [h.slot]
      simp only [over_set]
      constructor
      · rintro ⟨k, h1, h2⟩
        refine ⟨k, ?_, h2⟩
        rw [if_neg]
        · exact h1
        · intro hk'
          have := h.next _ _ h1; omega
      · rintro ⟨k, h1, h2⟩
        by_cases hk : db.nextRef = k
        · subst hk
          have := h.data _ _ h2
          rw [hnew] at this; simp at this
        · rw [if_neg hk] at h1
          exact ⟨k, h1, h2⟩
    · simp only [over_set]; simp

/-- What `LatestDb.add` does. -/
theorem latestRel_add {conf : Conf} {d : Disk} {db : LatestDb} {st : Store}
    (h : LatestRel conf d db st.slot) (e : Event) (hcond : conf.conditions e = true) :
    (¬ ToLatest conf st e ∧ db.add conf e = (db, ⟨none, none⟩)) ∨
    (ToLatest conf st e ∧ ∃ db' k, db.add conf e =
        (db', ⟨some (.latest k), (Dict.get db.events e.type).map fun p => (p.id, .latest k)⟩) ∧
      over db'.changes.types d.latestType k = some e.type ∧
      (∀ k', over db'.changes.data d.latestData k' =
        if k = k' then some e else over db.changes.data d.latestData k') ∧
      (∀ k' t, over db.changes.types d.latestType k' = some t →
        over db'.changes.types d.latestType k' = some t) ∧
      (∀ slot', (∀ t, slot' t = if t = e.type then some e else st.slot t) →
        LatestRel conf d db' slot')) := by
  unfold LatestDb.add
  by_cases hm : conf.latestSub.matches e.type = true
  swap
  · left
    refine ⟨fun ht => hm ht.1, ?_⟩
    have : conf.latestSub.matches e.type = false := by simpa using hm
    rw [if_pos this]
  have hm' : ¬ conf.latestSub.matches e.type = false := by simp [hm]
  rw [if_neg hm']
  by_cases hnew : ∃ p, Dict.get db.events e.type = some p ∧ Newer p e
  · obtain ⟨p, hp, hn⟩ := hnew
    left
    refine ⟨?_, ?_⟩
    · rintro ⟨_, h2⟩
      obtain ⟨h3, h4⟩ := (h.events _ _).1 hp
      exact h2 p h3 h4 hn
    · simp only [hp, previousNewer, Event.gt_iff.2 hn, if_true]
  · right
    have hto : ToLatest conf st e := by
      refine ⟨hm, fun p hp hv hn => hnew ⟨p, (h.events _ _).2 ⟨hp, hv⟩, hn⟩⟩
    have hif : ¬ (previousNewer (Dict.get db.events e.type) e = true) := by
      cases hg : Dict.get db.events e.type with
      | none => simp [previousNewer]
      | some p =>
        intro hgt
        exact hnew ⟨p, hg, Event.gt_iff.1 hgt⟩
    obtain ⟨h1, h2, h3, h4⟩ := latestRel_typeRef h e.type
    have hmono : ∀ k' t, over db.changes.types d.latestType k' = some t →
        over (db.typeRef e.type).2.changes.types d.latestType k' = some t := by
      intro k' t hk
      unfold LatestDb.typeRef
      cases hr : Dict.get db.eventTypeRefs e.type with
      | some k => exact hk
      | none =>
        simp only [over_set]
        rw [if_neg]
        · exact hk
        · intro hk'
          have := h.next _ _ hk; omega
    simp only [if_neg hif]
    generalize db.typeRef e.type = r at h1 h2 h3 h4 hmono
    refine ⟨hto, _, r.1, rfl, h2, ?_, hmono, ?_⟩
    · intro k'
      simp only [over_set, h4]
    intro slot' hs
    refine ⟨Dict.nodup_keys_set h1.nodEvents, ?_, h1.refs, h1.next, h1.nextPos, h1.nodTypes,
      Dict.nodup_keys_set h1.nodData, ?_, ?_⟩
    · intro t x
      simp only [Dict.get_set, hs]
      by_cases ht : e.type = t
      · subst ht
        simp only [if_true]
        constructor
        · intro hx; cases hx; exact ⟨rfl, hcond, hm⟩
        · intro hx; exact hx.1
      · have ht' : ¬ t = e.type := fun hh => ht hh.symm
        rw [if_neg ht, if_neg ht', h1.events]
    · intro k x hx
      simp only [over_set] at hx
      by_cases hk : r.1 = k
      · subst hk
        rw [if_pos rfl] at hx; cases hx
        exact h2
      · rw [if_neg hk] at hx
        exact h1.data k x hx
    · intro t x
      simp only [hs, over_set]
      by_cases ht : t = e.type
      · subst ht
        rw [if_pos rfl]
        constructor
        · intro hx; cases hx
          exact ⟨r.1, h2, by simp⟩
        · rintro ⟨k, hk1, hk2⟩
          have : k = r.1 := by
            have a := (h1.refs _ _).2 hk1
            have b := (h1.refs _ _).2 h2
            rw [a] at b; exact Option.some.inj b
          subst this
          rw [if_pos rfl] at hk2; exact hk2
      · rw [if_neg ht, h1.slot]
        constructor
        · rintro ⟨k, hk1, hk2⟩
          refine ⟨k, hk1, ?_⟩
          rw [if_neg]
          · exact hk2
          · rintro rfl
            rw [h2] at hk1; exact ht (Option.some.inj hk1).symm
        · rintro ⟨k, hk1, hk2⟩
          refine ⟨k, hk1, ?_⟩
          rw [if_neg] at hk2
          · exact hk2
          · rintro rfl
            rw [h2] at hk1; exact ht (Option.some.inj hk1).symm

/-! ### Timeseries database -/

structure TsRel (d : Disk) (ch : TimeseriesChanges) (entry : TimeseriesKey → Option Event) : Prop where
  nod : (Dict.keys ch).Nodup
  pnod : (Dict.keys (timeseriesEntries ch)).Nodup
  fresh : ∀ k ∈ Dict.keys (timeseriesEntries ch), Dict.get d.tsData k = none
  entry : ∀ k, entry k = over (timeseriesEntries ch) d.tsData k

/-- The entries an event gets in the partitions `l`. -/
def seriesNew (e : Event) (l : List (Int × Partition)) : List (TimeseriesKey × Event) :=
  l.filterMap fun p => (orderTimestamp p.2.orderBy e).map fun t => (⟨p.1, t, e.id⟩, e)

theorem entries_set_perm (ch : TimeseriesChanges) (q : Int) (x : Timestamp × Event)
    (hn : (Dict.keys ch).Nodup) :
    (timeseriesEntries (Dict.set ch q (((Dict.get ch q).getD []) ++ [x]))).Perm
      (timeseriesEntries ch ++ [(⟨q, x.1, x.2.id⟩, x.2)]) := by
  induction ch with
  | nil => simp [timeseriesEntries, Dict.set]
  | cons p ch ih =>
    obtain ⟨k, v⟩ := p
    simp only [Dict.keys_cons, List.nodup_cons] at hn
    by_cases h : k = q
    · subst h
      simp only [Dict.set, Dict.get_cons, if_true, Option.getD_some]
      simp only [timeseriesEntries, List.flatMap_cons, List.map_append, List.map_cons, List.map_nil,
        List.append_assoc]
      exact List.Perm.append_left _ List.perm_append_comm
    · have h1 : Dict.set ((k, v) :: ch) q (((Dict.get ((k, v) :: ch) q).getD []) ++ [x]) =
          (k, v) :: Dict.set ch q (((Dict.get ch q).getD []) ++ [x]) := by
        simp only [Dict.set, Dict.get_cons, h, if_false]
      rw [h1]
      simp only [timeseriesEntries, List.flatMap_cons, List.append_assoc]
      exact List.Perm.append_left _ (ih hn.2)

theorem timeseriesAdd_spec (e : Event) : ∀ (l : List (Int × Partition)) (ch : TimeseriesChanges),
    (Dict.keys ch).Nodup →
    (Dict.keys (timeseriesAdd e l ch).1).Nodup ∧
    (timeseriesEntries (timeseriesAdd e l ch).1).Perm (timeseriesEntries ch ++ seriesNew e l) ∧
    (timeseriesAdd e l ch).2 = (seriesNew e l).map (fun x => .timeseries x.1) ∧
    (seriesNew e l = [] → (timeseriesAdd e l ch).1 = ch) ∧
    ∀ q, (Dict.get (timeseriesAdd e l ch).1 q).getD [] = (Dict.get ch q).getD [] ++
      ((seriesNew e l).filter fun x => x.1.partition = q).map fun x => (x.1.timestamp, x.2)
  | [], ch, hn => by
    simp [timeseriesAdd, seriesNew, hn]
  | (i, p) :: l, ch, hn => by
    rw [timeseriesAdd]
    cases ho : orderTimestamp p.orderBy e with
    | none =>
      have : seriesNew e ((i, p) :: l) = seriesNew e l := by
        unfold seriesNew
        rw [List.filterMap_cons_none]
        simp [ho]
      rw [this]
      exact timeseriesAdd_spec e l ch hn
    | some t =>
      have : seriesNew e ((i, p) :: l) = (⟨i, t, e.id⟩, e) :: seriesNew e l := by
        unfold seriesNew
        rw [List.filterMap_cons_some]
        simp [ho]
      rw [this]
      simp only
      obtain ⟨h1, h2, h3, _, h5⟩ := timeseriesAdd_spec e l
        (Dict.set ch i (((Dict.get ch i).getD []) ++ [(t, e)])) (Dict.nodup_keys_set hn)
      refine ⟨h1, ?_, ?_, by simp, ?_⟩
      · refine h2.trans ((List.Perm.append_right _ (entries_set_perm ch i (t, e) hn)).trans ?_)
        simp
      · simp [h3]
      · intro q
        rw [h5, Dict.get_set]
        by_cases hq : i = q
        · simp [hq]
        · simp [hq]

theorem get_perm {κ υ : Type} [DecidableEq κ] {a b : Dict κ υ} (h : a.Perm b)
    (hn : (Dict.keys b).Nodup) (k : κ) : Dict.get a k = Dict.get b k := by
  have hn' : (Dict.keys a).Nodup := (h.map Prod.fst).nodup_iff.2 hn
  cases hb : Dict.get b k with
  | some v =>
    rw [Dict.get_eq_some_iff hn']
    exact h.mem_iff.2 (Dict.mem_of_get hb)
  | none =>
    rw [Dict.get_eq_none_iff] at hb ⊢
    intro hk; exact hb ((h.map Prod.fst).mem_iff.1 hk)

theorem get_append {κ υ : Type} [DecidableEq κ] (a b : Dict κ υ) (k : κ) :
    Dict.get (a ++ b) k = over a b k := by
  unfold over
  induction a with
  | nil => simp
  | cons p a ih =>
    rw [List.cons_append, Dict.get_cons, Dict.get_cons, ih]
    by_cases h : p.1 = k <;> simp [h]

theorem mem_seriesNew {e : Event} {l : List (Int × Partition)} {x : TimeseriesKey × Event} :
    x ∈ seriesNew e l ↔ x.2 = e ∧ x.1.id = e.id ∧ ∃ p, (x.1.partition, p) ∈ l ∧
      orderTimestamp p.orderBy e = some x.1.timestamp := by
  unfold seriesNew
  simp only [List.mem_filterMap, Option.map_eq_some_iff]
  constructor
  · rintro ⟨a, ha, t, ht, rfl⟩
    exact ⟨rfl, rfl, a.2, ha, ht⟩
  · obtain ⟨⟨q, t, i⟩, y⟩ := x
    rintro ⟨h1, h2, p, hp, ho⟩
    simp only at h1 h2 hp ho
    subst h1; subst h2
    exact ⟨(q, p), hp, t, ho, rfl⟩

theorem orderTimestamp_iff {o : OrderBy} {e : Event} {t : Timestamp} :
    orderTimestamp o e = some t ↔ (o = .timestamp ∧ t = e.timestamp) ∨
      (o = .sourceTimestamp ∧ e.sourceTimestamp = some t) := by
  cases o <;> simp [orderTimestamp, eq_comm]

/-- Partitions from the configuration. -/
def PartsIn (conf : Conf) (parts : Dict Int Partition) : Prop :=
  (Dict.keys parts).Nodup ∧ ∀ x ∈ parts, x.2 ∈ conf.partitions

theorem mem_seriesNew_lookup {conf : Conf} (hc : LookupLaw conf) {parts : Dict Int Partition}
    (hn : PartsIn conf parts) {e : Event} {x : TimeseriesKey × Event} :
    x ∈ seriesNew e (conf.lookup parts e.type) ↔ x.2 = e ∧ InSeries parts e x.1 := by
  rw [mem_seriesNew]
  unfold InSeries
  simp only [(hc parts e.type hn.1 hn.2).2, orderTimestamp_iff]
  constructor
  · rintro ⟨h1, h2, p, ⟨h3, h4⟩, h5⟩
    exact ⟨h1, h2, p, (Dict.get_eq_some_iff hn.1).2 h3, h4, h5⟩
  · rintro ⟨h1, h2, p, h3, h4, h5⟩
    exact ⟨h1, h2, p, ⟨(Dict.get_eq_some_iff hn.1).1 h3, h4⟩, h5⟩

theorem nodup_seriesNew {conf : Conf} (hc : LookupLaw conf) {parts : Dict Int Partition}
    (hn : PartsIn conf parts) (e : Event) :
    (Dict.keys (seriesNew e (conf.lookup parts e.type))).Nodup := by
  have h1 := (hc parts e.type hn.1 hn.2).1
  have h2 : ((conf.lookup parts e.type).map Prod.fst).Nodup := by
    rw [List.nodup_map_iff_inj_on h1]
    intro x hx y hy hxy
    have hx' := (Dict.get_eq_some_iff hn.1).2 (((hc parts e.type hn.1 hn.2).2 x).1 hx).1
    have hy' := (Dict.get_eq_some_iff hn.1).2 (((hc parts e.type hn.1 hn.2).2 y).1 hy).1
    rw [hxy, hy'] at hx'
    exact Prod.ext hxy (Option.some.inj hx').symm
  generalize conf.lookup parts e.type = l at h2
  clear h1
  induction l with
  | nil => simp [seriesNew, Dict.keys]
  | cons p l ih =>
    simp only [List.map_cons, List.nodup_cons] at h2
    have ih := ih h2.2
    unfold seriesNew at ih ⊢
    cases ho : orderTimestamp p.2.orderBy e with
    | none => rw [List.filterMap_cons_none (by simp [ho])]; exact ih
    | some t =>
      rw [List.filterMap_cons_some (b := (⟨p.1, t, e.id⟩, e)) (by simp [ho])]
      rw [Dict.keys_cons, List.nodup_cons]
      refine ⟨?_, ih⟩
      intro hm
      obtain ⟨x, hx, hx'⟩ := List.mem_map.1 hm
      have := (mem_seriesNew.1 hx).2.2
      obtain ⟨p', hp', _⟩ := this
      rw [hx'] at hp'
      exact h2.1 (List.mem_map.2 ⟨_, hp', rfl⟩)

theorem tsRel_add {conf : Conf} (hc : LookupLaw conf) {parts : Dict Int Partition}
    (hn : PartsIn conf parts) {d : Disk} {ch : TimeseriesChanges} {st : Store}
    (hs : StoreOk st) {e : Event} (ha : Admissible conf st e) (h : TsRel d ch st.entry)
    {entry' : TimeseriesKey → Option Event}
    (he : ∀ k, (InSeries parts e k → entry' k = some e) ∧ (¬ InSeries parts e k → entry' k = st.entry k)) :
    TsRel d (timeseriesAdd e (conf.lookup parts e.type) ch).1 entry' := by
  obtain ⟨h1, h2, _, _, _⟩ := timeseriesAdd_spec e (conf.lookup parts e.type) ch h.nod
  have hnone : ∀ k, InSeries parts e k → st.entry k = none := by
    intro k hk
    cases hx : st.entry k with
    | none => rfl
    | some x =>
      obtain ⟨h3, h4, _⟩ := hs.entryId k x hx
      exact absurd (h3.symm.trans hk.1) (admissible_fresh hs ha h4)
  have hboth : ∀ k, InSeries parts e k → k ∉ Dict.keys (timeseriesEntries ch) ∧
      Dict.get d.tsData k = none := by
    intro k hk
    have := hnone k hk
    rw [h.entry] at this
    unfold over at this
    cases hg : Dict.get (timeseriesEntries ch) k with
    | some v => rw [hg] at this; simp at this
    | none => rw [hg] at this; exact ⟨Dict.get_eq_none_iff.1 hg, this⟩
  have hnod : (Dict.keys (timeseriesEntries ch ++ seriesNew e (conf.lookup parts e.type))).Nodup := by
    unfold Dict.keys
    rw [List.map_append, List.nodup_append]
    refine ⟨h.pnod, nodup_seriesNew hc hn e, ?_⟩
    intro a h3 b h4 hab
    subst hab
    obtain ⟨x, hx, rfl⟩ := List.mem_map.1 h4
    exact (hboth x.1 ((mem_seriesNew_lookup hc hn).1 hx).2).1 h3
  refine ⟨h1, ?_, ?_, ?_⟩
  · exact (h2.map Prod.fst).nodup_iff.2 hnod
  · intro k hk
    have := (h2.map Prod.fst).mem_iff.1 hk
    rw [List.map_append] at this
    rcases List.mem_append.1 this with hk | hk
    · exact h.fresh k hk
    · obtain ⟨x, hx, rfl⟩ := List.mem_map.1 hk
      exact (hboth x.1 ((mem_seriesNew_lookup hc hn).1 hx).2).2
  · intro k
    have hgp : over (timeseriesEntries (timeseriesAdd e (conf.lookup parts e.type) ch).1) d.tsData k =
        over (timeseriesEntries ch ++ seriesNew e (conf.lookup parts e.type)) d.tsData k := by
      unfold over; rw [get_perm h2 hnod]
    rw [hgp]
    by_cases hk : InSeries parts e k
    · rw [(he k).1 hk]
      have : Dict.get (timeseriesEntries ch ++ seriesNew e (conf.lookup parts e.type)) k = some e := by
        rw [Dict.get_eq_some_iff hnod, List.mem_append]
        exact .inr ((mem_seriesNew_lookup hc hn).2 ⟨rfl, hk⟩)
      unfold over; rw [this]
    · rw [(he k).2 hk, h.entry]
      have h3 : Dict.get (seriesNew e (conf.lookup parts e.type)) k = none := by
        rw [Dict.get_eq_none_iff]
        intro hm
        obtain ⟨x, hx, rfl⟩ := List.mem_map.1 hm
        exact hk ((mem_seriesNew_lookup hc hn).1 hx).2
      have : Dict.get (timeseriesEntries ch ++ seriesNew e (conf.lookup parts e.type)) k =
          Dict.get (timeseriesEntries ch) k := by
        rw [get_append]; unfold over; rw [h3]
        cases Dict.get (timeseriesEntries ch) k <;> rfl
      unfold over; rw [this]

/-! ### Pending entries of a partition, in the order of registration -/

/-- The entry of an event in a partition. -/
def pendingEntry (parts : Dict Int Partition) (q : Int) (e : Event) : Option (Timestamp × Event) :=
  match Dict.get parts q with
  | some part =>
    if part.subscription.matches e.type = true then (orderTimestamp part.orderBy e).map (·, e) else none
  | none => none

theorem pendingEntry_iff {parts : Dict Int Partition} {q : Int} {e : Event} {x : Timestamp × Event} :
    pendingEntry parts q e = some x ↔ x.2 = e ∧ InSeries parts e ⟨q, x.1, e.id⟩ := by
  unfold pendingEntry InSeries
  cases hg : Dict.get parts q with
  | none => simp [hg]
  | some part =>
    simp only [hg, Option.some.injEq, exists_eq_left', true_and]
    by_cases hm : part.subscription.matches e.type = true
    · rw [if_pos hm, Option.map_eq_some_iff]
      simp only [hm, true_and, ← orderTimestamp_iff]
      constructor
      · rintro ⟨t, ht, rfl⟩; exact ⟨rfl, ht⟩
      · rintro ⟨h1, h2⟩; exact ⟨x.1, h2, by rw [← h1]⟩
    · simp [hm]

theorem seriesNew_partition {conf : Conf} (hc : LookupLaw conf) {parts : Dict Int Partition}
    (hn : PartsIn conf parts) (e : Event) (q : Int) :
    ((seriesNew e (conf.lookup parts e.type)).filter fun x => x.1.partition = q).map
      (fun x => (x.1.timestamp, x.2)) = (pendingEntry parts q e).toList := by
  have hmem : ∀ y, y ∈ ((seriesNew e (conf.lookup parts e.type)).filter fun x => x.1.partition = q).map
      (fun x => (x.1.timestamp, x.2)) ↔ pendingEntry parts q e = some y := by
    intro y
    rw [pendingEntry_iff]
    simp only [List.mem_map, List.mem_filter, mem_seriesNew_lookup hc hn, decide_eq_true_eq]
    constructor
    · rintro ⟨x, ⟨⟨h1, h2⟩, rfl⟩, rfl⟩
      refine ⟨h1, ?_⟩
      have : (⟨x.1.partition, x.1.timestamp, e.id⟩ : TimeseriesKey) = x.1 := by
        rw [← h2.1]
      simpa [this] using h2
    · rintro ⟨h1, h2⟩
      refine ⟨(⟨q, y.1, e.id⟩, y.2), ⟨⟨h1, h2⟩, rfl⟩, rfl⟩
  have hnod : (((seriesNew e (conf.lookup parts e.type)).filter fun x => x.1.partition = q).map
      (fun x => (x.1.timestamp, x.2))).Nodup := by
    apply List.Nodup.map_on
    · intro x hx y hy hxy
      simp only [List.mem_filter, mem_seriesNew_lookup hc hn, decide_eq_true_eq] at hx hy
      simp only [Prod.mk.injEq] at hxy
      refine Prod.ext ?_ hxy.2
      refine TimeseriesKey.ext' (hx.2.trans hy.2.symm) hxy.1 ?_
      rw [hx.1.2.1, hy.1.2.1]
    · exact (List.Nodup.of_map _ (nodup_seriesNew hc hn e)).filter _
  cases hp : pendingEntry parts q e with
  | none =>
    rw [Option.toList_none, List.eq_nil_iff_forall_not_mem]
    intro y hy
    rw [hmem, hp] at hy; simp at hy
  | some y =>
    rw [Option.toList_some, ← List.perm_singleton]
    rw [List.perm_ext_iff_of_nodup hnod (List.nodup_singleton _)]
    intro z
    rw [hmem, hp]; simp [eq_comm]

/-! ### Volatile state -/

/-- The volatile state `m` over the disk `d`: `cur` is the store, `fl` the
store of the disk. -/
structure MemRel (conf : Conf) (d : Disk) (m : Mem) (parts : Dict Int Partition) (fl cur : Store) :
    Prop where
  partsEq : m.timeseries.partitions = parts
  partsIn : PartsIn conf parts
  sys : SysRel d m.system cur.last
  latest : LatestRel conf d m.latest cur.slot
  ts : TsRel d m.timeseries.changes cur.entry
  refLast : ∀ s i, Dict.get m.ref.lastEventIds s = some i → ∃ l, cur.last s = some l ∧ IdLe i l.id
  pend : ∃ pend, cur.log = fl.log ++ pend ∧
    ∀ q, (Dict.get m.timeseries.changes q).getD [] = pend.filterMap (pendingEntry parts q)

theorem MemRel.nodParts {conf : Conf} {d : Disk} {m : Mem} {parts : Dict Int Partition} {fl cur : Store}
    (h : MemRel conf d m parts fl cur) : (Dict.keys parts).Nodup := h.partsIn.1

theorem getLastEventId_eq {d : Disk} {db : SystemDb} {st : Store} (h : SysRel d db st.last) (s : Int) :
    db.getLastEventId s = st.lastId s := by
  unfold SystemDb.getLastEventId Store.lastId
  rw [h.ids]
  cases st.last s <;> rfl

theorem registerEvent_rel {conf : Conf} (hc : LookupLaw conf) {d : Disk} {m : Mem}
    {parts : Dict Int Partition} {fl cur : Store} (hs : StoreOk cur) (h : MemRel conf d m parts fl cur)
    (e : Event) :
    ∃ m', registerEvent conf m e = .ok m' ∧ MemRel conf d m' parts fl (cur.offer conf parts e) ∧
      ((m' = m ∧ cur.offer conf parts e = cur) ∨
        (Admissible conf cur e ∧ (ToLatest conf cur e ∨ ∃ k, InSeries parts e k) ∧
          storeEvent conf m e = .ok m')) := by
  unfold registerEvent
  rw [getLastEventId_eq h.sys]
  have hskip : ∀ {P : Prop}, (Admissible conf cur e → P → False) → P →
      ∃ m', (Except.ok m : Except PyErr Mem) = .ok m' ∧
        MemRel conf d m' parts fl (cur.offer conf parts e) ∧
        ((m' = m ∧ cur.offer conf parts e = cur) ∨
          (Admissible conf cur e ∧ (ToLatest conf cur e ∨ ∃ k, InSeries parts e k) ∧
            storeEvent conf m e = .ok m')) := by
    intro P hP hp
    have : cur.offer conf parts e = cur := by
      unfold Store.offer
      rw [if_neg]
      rintro ⟨ha, _⟩
      exact hP ha hp
    exact ⟨m, rfl, by rw [this]; exact h, .inl ⟨rfl, this⟩⟩
  by_cases h1 : e.id.le (cur.lastId e.id.server) = true
  · rw [if_pos h1]
    refine hskip (fun ha h1 => ?_) h1
    rw [EventId.le_iff] at h1
    exact not_idLe.2 ha.1 h1
  rw [if_neg h1]
  have hts : m.system.getLastTimestamp e.id.server = (match cur.last e.id.server with
      | some l => l.timestamp
      | none => minTimestamp) := by
    unfold SystemDb.getLastTimestamp
    rw [h.sys.tss]
    cases cur.last e.id.server <;> rfl
  by_cases h2 : e.timestamp.lt (m.system.getLastTimestamp e.id.server) = true
  · rw [if_pos h2]
    refine hskip (fun ha h2 => ?_) h2
    rw [Timestamp.lt_iff, hts] at h2
    exact not_timeLt.2 ha.2.1 h2
  rw [if_neg h2]
  by_cases h3 : conf.conditions e = false
  · rw [if_pos h3]
    refine hskip (fun ha h3 => ?_) h3
    rw [ha.2.2] at h3; simp at h3
  rw [if_neg h3]
  have ha : Admissible conf cur e := by
    refine ⟨?_, ?_, by simpa using h3⟩
    · rw [EventId.le_iff, not_idLe] at h1; exact h1
    · rw [Timestamp.lt_iff, hts, not_timeLt] at h2; exact h2
  have hex : (∃ k, InSeries parts e k) ↔ seriesNew e (conf.lookup parts e.type) ≠ [] := by
    constructor
    · rintro ⟨k, hk⟩ hnil
      have := (mem_seriesNew_lookup hc h.partsIn (x := (k, e))).2 ⟨rfl, hk⟩
      rw [hnil] at this; simp at this
    · intro hne
      obtain ⟨x, hx⟩ := List.exists_mem_of_ne_nil _ hne
      exact ⟨x.1, ((mem_seriesNew_lookup hc h.partsIn).1 hx).2⟩
  obtain ⟨t1, t2, t3, t4, t5⟩ :=
    timeseriesAdd_spec e (conf.lookup parts e.type) m.timeseries.changes h.ts.nod
  have htsadd : m.timeseries.add conf e =
      (⟨parts, (timeseriesAdd e (conf.lookup parts e.type) m.timeseries.changes).1⟩,
        (seriesNew e (conf.lookup parts e.type)).map fun x => .timeseries x.1) := by
    unfold TimeseriesDb.add
    simp only [h.partsEq, t3]
  by_cases hstore : ToLatest conf cur e ∨ ∃ k, InSeries parts e k
  swap
  · -- nothing to store
    have hoff : cur.offer conf parts e = cur := by
      unfold Store.offer; rw [if_neg]; rintro ⟨_, hh⟩; exact hstore hh
    have hnl : ¬ ToLatest conf cur e := fun hh => hstore (.inl hh)
    have hnil : seriesNew e (conf.lookup parts e.type) = [] := by
      by_contra hne
      exact hstore (.inr (hex.2 hne))
    have hm : storeEvent conf m e = .ok m := by
      unfold storeEvent
      rcases latestRel_add h.latest e ha.2.2 with ⟨_, hadd⟩ | ⟨hl, _⟩
      · simp only [hadd, htsadd, hnil, List.map_nil, RefDb.removeRef, Option.toList_none,
          List.append_nil, if_true, t4 hnil]
        rw [← h.partsEq]
      · exact absurd hl hnl
    exact ⟨m, hm, by rw [hoff]; exact h, .inl ⟨rfl, hoff⟩⟩
  · have hoff := offer_stored ⟨ha, hstore⟩
    have hlast : ∀ s, (cur.offer conf parts e).last s = if e.id.server = s then some e else cur.last s := by
      intro s; rw [hoff, last_append]
    have hlog : (cur.offer conf parts e).log = cur.log ++ [e] := by rw [hoff]
    -- the parts of the new state
    have hts' : TsRel d (timeseriesAdd e (conf.lookup parts e.type) m.timeseries.changes).1
        (cur.offer conf parts e).entry := by
      refine tsRel_add hc h.partsIn hs ha h.ts ?_
      intro k
      rw [hoff]
      exact ⟨fun hk => by simp only [hk, if_true], fun hk => by simp only [hk, if_false]⟩
    have hsys' := sysRel_set h.sys e hlast
    have hpend' : ∃ pend, (cur.offer conf parts e).log = fl.log ++ pend ∧
        ∀ q, (Dict.get (timeseriesAdd e (conf.lookup parts e.type) m.timeseries.changes).1 q).getD [] =
          pend.filterMap (pendingEntry parts q) := by
      obtain ⟨pend, p1, p2⟩ := h.pend
      refine ⟨pend ++ [e], by rw [hlog, p1, List.append_assoc], ?_⟩
      intro q
      rw [t5, p2, seriesNew_partition hc h.partsIn, List.filterMap_append]
      cases hp : pendingEntry parts q e <;> simp [hp]
    have hlat : ∃ db' r, m.latest.add conf e = (db', r) ∧
        LatestRel conf d db' (cur.offer conf parts e).slot ∧
        (r.addedRef = none → ¬ ToLatest conf cur e) := by
      rcases latestRel_add h.latest e ha.2.2 with ⟨hl, hadd⟩ | ⟨hl, db', k, hadd, _, _, _, hrel⟩
      · refine ⟨_, _, hadd, ?_, fun _ => hl⟩
        have : (cur.offer conf parts e).slot = cur.slot := by
          rw [hoff]; funext t; simp only [hl, and_false, if_false]
        rw [this]; exact h.latest
      · refine ⟨_, _, hadd, hrel _ ?_, by simp⟩
        intro t
        rw [hoff]; simp only [hl, and_true]
    obtain ⟨db', r, hadd, hlrel, hr⟩ := hlat
    have hrefLast : ∀ rr s, Dict.get (m.ref.removeRef rr).lastEventIds s =
        Dict.get m.ref.lastEventIds s := by
      intro rr s
      cases rr with
      | none => rfl
      | some x => rfl
    have hradd : ∀ rr refs, ∃ rd, (m.ref.removeRef rr).add e refs = .ok rd ∧
        ∀ s i, Dict.get rd.lastEventIds s = some i →
          ∃ l, (cur.offer conf parts e).last s = some l ∧ IdLe i l.id := by
      intro rr refs
      unfold RefDb.add
      rw [hrefLast]
      cases hg : Dict.get m.ref.lastEventIds e.id.server with
      | none =>
        refine ⟨_, by simp only [Bool.false_eq_true, if_false]; rfl, ?_⟩
        intro s i hi
        rw [hlast]
        simp only [Dict.get_set, hrefLast] at hi
        by_cases hse : e.id.server = s
        · simp only [hse, if_true, Option.some.injEq] at hi ⊢
          exact ⟨e, rfl, .inr hi.symm⟩
        · simp only [hse, if_false] at hi ⊢
          exact h.refLast s i hi
      | some last =>
        have hnot : ¬ e.id.lt last = true := by
          rw [EventId.lt_iff, not_idLt]
          obtain ⟨l, hl1, hl2⟩ := h.refLast _ _ hg
          obtain ⟨m1, m2⟩ := last_mem hl1
          exact .inl (hl2.trans_lt (admissible_new hs ha m1 m2).1)
        refine ⟨_, by simp only [hnot]; rfl, ?_⟩
        intro s i hi
        rw [hlast]
        simp only [Dict.get_set, hrefLast] at hi
        by_cases hse : e.id.server = s
        · simp only [hse, if_true, Option.some.injEq] at hi ⊢
          exact ⟨e, rfl, .inr hi.symm⟩
        · simp only [hse, if_false] at hi ⊢
          exact h.refLast s i hi
    obtain ⟨rd, hrd, hrd'⟩ := hradd r.removedRef
      (r.addedRef.toList ++ (seriesNew e (conf.lookup parts e.type)).map fun x => .timeseries x.1)
    have hm : storeEvent conf m e = .ok { m with
        latest := db'
        timeseries := ⟨parts, (timeseriesAdd e (conf.lookup parts e.type) m.timeseries.changes).1⟩
        ref := rd
        system := (m.system.setLastEventId e.id).setLastTimestamp e.id.server e.timestamp } := by
      unfold storeEvent
      simp only [hadd, htsadd]
      rw [if_neg]
      · rw [hrd]; rfl
      · intro hnil
        rw [List.append_eq_nil_iff] at hnil
        obtain ⟨n1, n2⟩ := hnil
        rcases hstore with hh | hh
        · refine hr ?_ hh
          cases ho : r.addedRef with
          | none => rfl
          | some x => rw [ho] at n1; simp at n1
        · exact hex.1 hh (List.map_eq_nil_iff.1 n2)
    exact ⟨_, hm, ⟨rfl, h.partsIn, hsys', hlrel, hts', hrd', hpend'⟩, .inr ⟨ha, hstore, hm⟩⟩

theorem register_rel {conf : Conf} (hc : LookupLaw conf) {d : Disk} {m : Mem}
    {parts : Dict Int Partition} {fl cur : Store} (hs : StoreOk cur) (h : MemRel conf d m parts fl cur)
    (es : List Event) :
    ∃ m', m.register conf es = .ok m' ∧
      MemRel conf d m' parts fl (es.foldl (Store.offer conf parts) cur) := by
  have key : ∀ (es : List Event) (m : Mem) (cur : Store), StoreOk cur → MemRel conf d m parts fl cur →
      ∃ m', es.foldlM (registerEvent conf) m = .ok m' ∧
        MemRel conf d m' parts fl (es.foldl (Store.offer conf parts) cur) := by
    intro es
    induction es with
    | nil => intro m cur _ h; exact ⟨m, rfl, h⟩
    | cons e es ih =>
      intro m cur hs h
      obtain ⟨m1, h1, h2, _⟩ := registerEvent_rel hc hs h e
      obtain ⟨m2, h3, h4⟩ := ih m1 _ (storeOk_offer hs e) h2
      refine ⟨m2, ?_, h4⟩
      rw [List.foldlM_cons, h1]; exact h3
  obtain ⟨m', h1, h2⟩ := key es m cur hs h
  refine ⟨{ m' with registered := m'.registered ++ [es] }, ?_, ?_⟩
  · unfold Mem.register; rw [h1]; rfl
  · exact ⟨h2.partsEq, h2.partsIn, h2.sys, h2.latest, h2.ts, h2.refLast, h2.pend⟩

end HatEvent
