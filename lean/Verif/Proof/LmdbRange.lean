import Verif.Proof.LmdbReturned
import Verif.Proof.LmdbSeries
import Verif.Props.Codec
import Verif.Props.LmdbOpen
import Mathlib.Data.List.Induction

/-!
# Storable events can be flushed
-/

namespace HatEvent
open Spec

/-- Everything stored of the event has a byte representation. -/
def Spec.Storable (e : Event) : Prop :=
  IdRange e.id ∧ TimeRange e.timestamp ∧ ∀ s, e.sourceTimestamp = some s → TimeRange s

/-- Pending references have a byte representation. -/
def RefChangesIn (ch : RefChanges) : Prop :=
  ∀ x ∈ ch, (∀ y ∈ x.2.added, IdRange y.1 ∧ ∀ r ∈ y.2.2, RefRange r) ∧ ∀ y ∈ x.2.removed, IdRange y.1

/-- Bounds of what is volatile. -/
structure MemRange (m : Mem) (N : Int) : Prop where
  next : 0 ≤ m.latest.nextRef ∧ m.latest.nextRef ≤ N + 1
  typeRefs : ∀ p ∈ m.latest.eventTypeRefs, 0 ≤ p.2 ∧ p.2 ≤ N
  types : ∀ p ∈ m.latest.changes.types, 0 ≤ p.1 ∧ p.1 ≤ N
  data : ∀ p ∈ m.latest.changes.data, 0 ≤ p.1 ∧ p.1 ≤ N
  touched : ∀ p ∈ m.timeseries.changes, U64 p.1
  refs : RefChangesIn m.ref.changes

theorem MemRange.mono {m : Mem} {N N' : Int} (h : MemRange m N) (hn : N ≤ N') : MemRange m N' := by
  refine ⟨⟨h.next.1, by have := h.next.2; omega⟩, ?_, ?_, ?_, h.touched, h.refs⟩
  · intro p hp; have := h.typeRefs p hp; omega
  · intro p hp; have := h.types p hp; omega
  · intro p hp; have := h.data p hp; omega

theorem refChangesIn_getD {ch : RefChanges} (h : RefChangesIn ch) (s : Int) :
    (∀ y ∈ ((Dict.get ch s).getD .empty).added, IdRange y.1 ∧ ∀ r ∈ y.2.2, RefRange r) ∧
      ∀ y ∈ ((Dict.get ch s).getD .empty).removed, IdRange y.1 := by
  cases hg : Dict.get ch s with
  | none => simp [ServerChanges.empty]
  | some sc => exact h (s, sc) (Dict.mem_of_get hg)

theorem refChangesIn_set {ch : RefChanges} (h : RefChangesIn ch) (s : Int) (sc : ServerChanges)
    (hs : (∀ y ∈ sc.added, IdRange y.1 ∧ ∀ r ∈ y.2.2, RefRange r) ∧ ∀ y ∈ sc.removed, IdRange y.1) :
    RefChangesIn (Dict.set ch s sc) := by
  intro x hx
  rcases mem_dict_set hx with hx | rfl
  · exact h x hx
  · exact hs

theorem refChangesIn_remove {db : RefDb} (h : RefChangesIn db.changes) (r : Option (EventId × EventRef))
    (hr : ∀ x, r = some x → IdRange x.1) : RefChangesIn (db.removeRef r).changes := by
  cases r with
  | none => exact h
  | some p =>
    obtain ⟨i, ref⟩ := p
    have hi := hr _ rfl
    refine refChangesIn_set h _ _ ?_
    obtain ⟨h0, h1⟩ := refChangesIn_getD h i.server
    generalize (Dict.get db.changes i.server).getD .empty = sc at h0 h1
    have hrem : ∀ y ∈ Dict.set sc.removed i (setAdd ((Dict.get sc.removed i).getD []) ref), IdRange y.1 := by
      intro y hy
      rcases mem_dict_set hy with hy | rfl
      · exact h1 y hy
      · exact hi
    unfold ServerChanges.remove
    simp only
    split
    · next event refs hg =>
      split
      · split
        · exact ⟨fun y hy => h0 y (mem_dict_del hy), h1⟩
        · refine ⟨?_, h1⟩
          intro y hy
          rcases mem_dict_set hy with hy | rfl
          · exact h0 y hy
          · refine ⟨hi, fun r hr => (h0 _ (Dict.mem_of_get hg)).2 r (List.mem_of_mem_filter hr)⟩
      · exact ⟨h0, hrem⟩
    · exact ⟨h0, hrem⟩

theorem refChangesIn_add {db db' : RefDb} {e : Event} {refs : List EventRef}
    (h : RefChangesIn db.changes) (he : IdRange e.id) (hr : ∀ r ∈ refs, RefRange r)
    (ha : db.add e refs = .ok db') : RefChangesIn db'.changes := by
  unfold RefDb.add at ha
  rcases ite_cases ha with ⟨_, ha⟩ | ⟨_, ha⟩
  · simp at ha
  · cases ha
    obtain ⟨h0, h1⟩ := refChangesIn_getD h e.id.server
    refine refChangesIn_set h _ _ ⟨?_, h1⟩
    intro y hy
    rcases mem_dict_set hy with hy | rfl
    · exact h0 y hy
    · exact ⟨he, fun r hrr => hr r (mem_toSet.1 hrr)⟩

theorem timeseriesAdd_range (e : Event) (he : Storable e) (l : List (Int × Partition)) (hl : ∀ x ∈ l, U64 x.1)
    (ch : TimeseriesChanges) (hch : ∀ p ∈ ch, U64 p.1) :
    (∀ p ∈ (timeseriesAdd e l ch).1, U64 p.1) ∧ ∀ r ∈ (timeseriesAdd e l ch).2, RefRange r := by
  induction l generalizing ch with
  | nil => exact ⟨hch, by simp [timeseriesAdd]⟩
  | cons x l ih =>
    obtain ⟨pid, part⟩ := x
    have hu := hl (pid, part) (by simp)
    have ih := fun ch hch => ih (fun x hx => hl x (by simp [hx])) ch hch
    unfold timeseriesAdd
    cases ho : orderTimestamp part.orderBy e with
    | none => exact ih ch hch
    | some t =>
      simp only
      obtain ⟨h1, h2⟩ := ih (Dict.set ch pid (((Dict.get ch pid).getD []) ++ [(t, e)])) (by
        intro p hp
        rcases mem_dict_set hp with hp | rfl
        · exact hch p hp
        · exact hu)
      refine ⟨h1, ?_⟩
      intro r hr
      rcases List.mem_cons.1 hr with rfl | hr
      · refine ⟨hu, ?_, he.1⟩
        unfold orderTimestamp at ho
        cases hob : part.orderBy with
        | timestamp => rw [hob] at ho; cases ho; exact he.2.1
        | sourceTimestamp => rw [hob] at ho; exact he.2.2 t ho
      · exact h2 r hr

theorem latestAdd_range {conf : Conf} {db : LatestDb} {N : Int} (e : Event)
    (hN : 0 ≤ N ∧ N + 1 < 2 ^ 64)
    (hnext : 0 ≤ db.nextRef ∧ db.nextRef ≤ N + 1)
    (hrefs : ∀ p ∈ db.eventTypeRefs, 0 ≤ p.2 ∧ p.2 ≤ N)
    (htypes : ∀ p ∈ db.changes.types, 0 ≤ p.1 ∧ p.1 ≤ N)
    (hdata : ∀ p ∈ db.changes.data, 0 ≤ p.1 ∧ p.1 ≤ N)
    (hprev : ∀ p, Dict.get db.events e.type = some p → IdRange p.id) :
    let r := db.add conf e
    (0 ≤ r.1.nextRef ∧ r.1.nextRef ≤ N + 2) ∧ (∀ p ∈ r.1.eventTypeRefs, 0 ≤ p.2 ∧ p.2 ≤ N + 1) ∧
    (∀ p ∈ r.1.changes.types, 0 ≤ p.1 ∧ p.1 ≤ N + 1) ∧ (∀ p ∈ r.1.changes.data, 0 ≤ p.1 ∧ p.1 ≤ N + 1) ∧
    (∀ x ∈ r.2.addedRef.toList, RefRange x) ∧ ∀ x, r.2.removedRef = some x → IdRange x.1 := by
  have mono : ∀ {k : Int}, 0 ≤ k ∧ k ≤ N → 0 ≤ k ∧ k ≤ N + 1 := by omega
  have same : (0 ≤ db.nextRef ∧ db.nextRef ≤ N + 2) ∧ (∀ p ∈ db.eventTypeRefs, 0 ≤ p.2 ∧ p.2 ≤ N + 1) ∧
      (∀ p ∈ db.changes.types, 0 ≤ p.1 ∧ p.1 ≤ N + 1) ∧ (∀ p ∈ db.changes.data, 0 ≤ p.1 ∧ p.1 ≤ N + 1) :=
    ⟨by omega, fun p hp => mono (hrefs p hp), fun p hp => mono (htypes p hp), fun p hp => mono (hdata p hp)⟩
  obtain ⟨s1, s2, s3, s4⟩ := same
  intro r
  have hr : r = db.add conf e := rfl
  clear_value r
  unfold LatestDb.add at hr
  split at hr
  · subst hr; exact ⟨s1, s2, s3, s4, by simp, by simp⟩
  · simp only at hr
    split at hr
    · subst hr; exact ⟨s1, s2, s3, s4, by simp, by simp⟩
    · have hrem : ∀ k : Int, ∀ x, (Dict.get db.events e.type).map (fun p => (p.id, EventRef.latest k)) = some x →
          IdRange x.1 := by
        intro k x hx
        obtain ⟨p, hp, rfl⟩ := Option.map_eq_some_iff.1 hx
        exact hprev p hp
      have hset : ∀ k : Int, 0 ≤ k ∧ k ≤ N + 1 → ∀ p ∈ Dict.set db.changes.data k e, 0 ≤ p.1 ∧ p.1 ≤ N + 1 := by
        intro k hk p hp
        rcases mem_dict_set hp with hp | rfl
        · exact s4 p hp
        · exact hk
      unfold LatestDb.typeRef at hr
      cases hg : Dict.get db.eventTypeRefs e.type with
      | some k =>
        rw [hg] at hr
        subst hr
        have hk := mono (hrefs _ (Dict.mem_of_get hg))
        simp only at hk
        refine ⟨s1, s2, s3, hset k hk, ?_, hrem k⟩
        intro x hx
        simp only [Option.toList_some, List.mem_singleton] at hx
        subst hx
        exact ⟨hk.1, by omega⟩
      | none =>
        rw [hg] at hr
        subst hr
        refine ⟨by simp only; omega, ?_, ?_, hset _ hnext, ?_, hrem _⟩
        · intro p hp
          rcases mem_dict_set hp with hp | rfl
          · exact s2 p hp
          · exact hnext
        · intro p hp
          rcases mem_dict_set hp with hp | rfl
          · exact s3 p hp
          · exact hnext
        · intro x hx
          simp only [Option.toList_some, List.mem_singleton] at hx
          subst hx
          exact ⟨hnext.1, by omega⟩

theorem registerEvent_range {conf : Conf} (hc : LookupLaw conf) {d : Disk} {m m' : Mem}
    {parts : Dict Int Partition} {fl cur : Store} (hs : StoreOk cur) (h : MemRel conf d m parts fl cur)
    (hlog : ∀ x ∈ cur.log, Storable x) (hparts : ∀ q ∈ Dict.keys parts, U64 q)
    (e : Event) (hst : Storable e) {N : Int} (hN : 0 ≤ N ∧ N + 1 < 2 ^ 64)
    (hr : MemRange m N) (he : registerEvent conf m e = .ok m') : MemRange m' (N + 1) := by
  obtain ⟨m2, h2, h3, h4⟩ := registerEvent_rel hc hs h e
  rw [he] at h2; cases h2
  rcases h4 with ⟨h5, h6⟩ | ⟨h5, h6, h7⟩
  · rw [h5]; exact hr.mono (by omega)
  · obtain ⟨l1, l2, l3, l4, l5, l6⟩ := latestAdd_range (conf := conf) (db := m.latest) e hN hr.next hr.typeRefs
      hr.types hr.data (by
        intro p hp
        exact (hlog p (hs.slotType _ _ ((h.latest.events _ _).1 hp).1).2).1)
    obtain ⟨t1, t2⟩ := timeseriesAdd_range e hst (conf.lookup m.timeseries.partitions e.type) (by
      intro x hx
      rw [h.partsEq] at hx
      have := ((hc parts e.type h.partsIn.1 h.partsIn.2).2 x).1 hx
      exact hparts _ (Dict.mem_keys_of_mem this.1)) m.timeseries.changes hr.touched
    unfold storeEvent at h7
    simp only at h7
    split at h7
    · cases h7
      exact ⟨⟨l1.1, by simp only; omega⟩, l2, l3, l4, t1, refChangesIn_remove hr.refs _ l6⟩
    · obtain ⟨r, h8, h9⟩ := bind_ok h7
      cases h9
      refine ⟨⟨l1.1, by simp only; omega⟩, l2, l3, l4, t1,
        refChangesIn_add (refChangesIn_remove hr.refs _ l6) hst.1 ?_ h8⟩
      intro r hr'
      rcases List.mem_append.1 hr' with hr' | hr'
      · exact l5 r hr'
      · exact t2 r hr'

theorem register_range {conf : Conf} (hc : LookupLaw conf) {d : Disk} {m m' : Mem}
    {parts : Dict Int Partition} {fl cur : Store} (hs : StoreOk cur) (h : MemRel conf d m parts fl cur)
    (hlog : ∀ x ∈ cur.log, Storable x) (hparts : ∀ q ∈ Dict.keys parts, U64 q)
    (es : List Event) (hst : ∀ e ∈ es, Storable e) {N : Int} (hN : 0 ≤ N ∧ N + es.length < 2 ^ 64)
    (hr : MemRange m N) (hm : m.register conf es = .ok m') : MemRange m' (N + es.length) := by
  have key : ∀ (es : List Event) (m m' : Mem) (cur : Store) (N : Int), StoreOk cur →
      MemRel conf d m parts fl cur → (∀ x ∈ cur.log, Storable x) → (∀ e ∈ es, Storable e) →
      0 ≤ N ∧ N + es.length < 2 ^ 64 → MemRange m N →
      es.foldlM (registerEvent conf) m = .ok m' → MemRange m' (N + es.length) := by
    intro es
    induction es with
    | nil => intro m m' cur N _ _ _ _ _ hr hm; cases hm; simpa using hr
    | cons e es ih =>
      intro m m' cur N hs h hlog hst hN hr hm
      rw [List.foldlM_cons] at hm
      obtain ⟨m1, h1, hm⟩ := bind_ok hm
      obtain ⟨m2, h2, h3, h4⟩ := registerEvent_rel hc hs h e
      rw [h1] at h2; cases h2
      rw [List.length_cons] at hN ⊢
      push_cast at hN ⊢
      have := ih m1 m' _ (N + 1) (storeOk_offer hs e) h3 (by
          intro x hx
          rcases (log_offers (conf := conf) (parts := parts) [e] cur).2 x hx with hx | hx
          · exact hlog x hx
          · rw [List.mem_singleton.1 hx]; exact hst e (by simp))
        (fun x hx => hst x (by simp [hx])) (by omega)
        (registerEvent_range hc hs h hlog hparts e (hst e (by simp)) (by omega) hr h1) hm
      have he : N + 1 + (es.length : Int) = N + (es.length + 1) := by omega
      rw [he] at this
      exact this
  unfold Mem.register at hm
  obtain ⟨m1, h1, hm⟩ := bind_ok hm
  simp only [pure_ok, Except.ok.injEq] at hm
  have := key es m m1 cur N hs h hlog hst hN hr h1
  subst hm
  exact ⟨this.next, this.typeRefs, this.types, this.data, this.touched, this.refs⟩

/-! ### The flush -/

theorem encodeUint_ok {v : Int} (h : U64 v) : ∃ b, encodeUint v = .ok b := by
  have := (C13_accepts [.latest v]).2 (by simpa [RefRange] using h)
  obtain ⟨b, hb⟩ := this
  rw [encodeEventRefs] at hb
  obtain ⟨b1, h1, _⟩ := bind_ok hb
  unfold encodeEventRef at h1
  obtain ⟨b2, h2, _⟩ := bind_ok h1
  exact ⟨_, h2⟩

theorem incCounts_total {t : Table Int Int} {l : List (Int × Int)} (hn : (Dict.keys l).Nodup)
    (hk : ∀ p ∈ l, U64 p.1 ∧ U64 ((Dict.get t p.1).getD 0 + p.2)) : ∃ t', incCounts t l = .ok t' := by
  induction l generalizing t with
  | nil => exact ⟨t, rfl⟩
  | cons p l ih =>
    obtain ⟨i, n⟩ := p
    have h0 := hk (i, n) (by simp)
    have hw := Table.write_ok t [(i, (Dict.get t i).getD 0 + n)] (by
      intro p hp
      rw [List.mem_singleton.1 hp]
      exact ⟨encodeUint_ok h0.1, encodeUint_ok h0.2⟩)
    rw [incCounts, hw, ok_bind]
    simp only [Dict.keys_cons, List.nodup_cons] at hn
    refine ih hn.2 ?_
    intro p hp
    have hne : p.1 ≠ i := by rintro rfl; exact hn.1 (Dict.mem_keys_of_mem hp)
    have := hk p (by simp [hp])
    simp only [List.foldl_cons, List.foldl_nil, Table.get_put]
    rw [if_neg (fun h => hne h.symm)]
    exact this

/-- References on the disk have a byte representation. -/
def RefsIn (t : Table EventId (List EventRef)) : Prop := ∀ x ∈ t, ∀ r ∈ x.2, RefRange r

theorem refWriteOne_total {sc : ServerChanges} (hs : ∀ y ∈ sc.added, ∀ r ∈ y.2.2, RefRange r)
    {t : Table EventId (List EventRef)} (ht : RefsIn t) {i : EventId} (hi : IdRange i) :
    ∃ t', refWriteOne sc t i = .ok t' ∧ RefsIn t' := by
  obtain ⟨b, hb⟩ := (C12_event_id_accepts i).2 hi
  unfold refWriteOne
  rw [hb, ok_bind]
  simp only
  have hold : ∀ r ∈ (Dict.get t i).getD [], RefRange r := by
    cases hg : Dict.get t i with
    | none => simp
    | some v => exact ht _ (Dict.mem_of_get hg)
  have hv : ∀ r ∈ refValue sc ((Dict.get t i).getD []) i, RefRange r := by
    generalize (Dict.get t i).getD [] = v at hold
    have hu : ∀ u : List EventRef, (∀ r ∈ u, RefRange r) →
        ∀ r ∈ (match Dict.get sc.removed i with | some refs => setDiff u refs | none => u), RefRange r := by
      intro u hu
      cases Dict.get sc.removed i with
      | none => exact hu
      | some w => exact fun r hr => hu r (List.mem_of_mem_filter hr)
    unfold refValue
    refine hu _ ?_
    cases hg : Dict.get sc.added i with
    | none => exact hold
    | some w =>
      intro r hr
      rcases List.mem_append.1 hr with hr | hr
      · exact hold r hr
      · exact hs _ (Dict.mem_of_get hg) r (List.mem_of_mem_filter hr)
  have hd : RefsIn (Dict.del t i) := fun x hx => ht x (mem_dict_del hx)
  split
  · exact ⟨_, rfl, hd⟩
  · obtain ⟨b, hb⟩ := (C13_accepts _).2 hv
    rw [hb]
    refine ⟨_, rfl, ?_⟩
    intro x hx
    rcases Table.mem_put hx with rfl | hx
    · exact hv
    · exact hd x hx

theorem refWrite_total {ch : RefChanges} (hc : RefChangesIn ch) {t : Table EventId (List EventRef)}
    (ht : RefsIn t) : ∃ t', (ch.map Prod.snd).foldlM refWriteServer t = .ok t' ∧ RefsIn t' := by
  induction ch generalizing t with
  | nil => exact ⟨t, rfl, ht⟩
  | cons x ch ih =>
    obtain ⟨h0, h1⟩ := hc x (by simp)
    have key : ∀ (l : List EventId), (∀ i ∈ l, IdRange i) → ∀ t, RefsIn t →
        ∃ t', l.foldlM (refWriteOne x.2) t = .ok t' ∧ RefsIn t' := by
      intro l
      induction l with
      | nil => exact fun _ t ht => ⟨t, rfl, ht⟩
      | cons i l ih =>
        intro hl t ht
        obtain ⟨t1, h2, h3⟩ := refWriteOne_total (fun y hy => (h0 y hy).2) ht (hl i (by simp))
        obtain ⟨t2, h4, h5⟩ := ih (fun j hj => hl j (by simp [hj])) t1 h3
        exact ⟨t2, by rw [List.foldlM_cons, h2]; exact h4, h5⟩
    obtain ⟨t1, h2, h3⟩ := key (toSet (Dict.keys x.2.added ++ Dict.keys x.2.removed)) (by
      intro i hi
      rw [mem_toSet, List.mem_append, Dict.keys, Dict.keys, List.mem_map, List.mem_map] at hi
      rcases hi with ⟨y, hy, rfl⟩ | ⟨y, hy, rfl⟩
      · exact (h0 y hy).1
      · exact h1 y hy) t ht
    obtain ⟨t2, h4, h5⟩ := ih (fun y hy => hc y (by simp [hy])) h3
    exact ⟨t2, by
      rw [List.map_cons, List.foldlM_cons]
      unfold refWriteServer
      rw [h2]; exact h4, h5⟩

/-- Bounds of what is on the disk. -/
structure DiskRange (d : Disk) (fl : Store) (N : Int) : Prop where
  types : ∀ p ∈ d.latestType, 0 ≤ p.1 ∧ p.1 ≤ N
  refs : RefsIn d.ref
  counts : ∀ q, (Dict.get d.tsCount q).getD 0 ≤ fl.log.length

theorem flush_total {conf : Conf} {d : Disk} {m : Mem} {parts : Dict Int Partition} {fl cur : Store}
    (hok : StoreOk cur) (h : DiskRel d fl) (hm : MemRel conf d m parts fl cur)
    (hlog : ∀ x ∈ cur.log, Storable x) {N : Int} (hN : 0 ≤ N ∧ N < 2 ^ 64) (hlen : cur.log.length ≤ N)
    (hd : DiskRange d fl N) (hr : MemRange m N) :
    ∃ d', extFlush d m.createChanges.1 = .ok d' ∧ DiskRange d' cur N := by
  have hlast : ∀ s e, cur.last s = some e → Storable e ∧ e.id.server = s := by
    intro s e he
    have := List.mem_of_getLast? he
    rw [List.mem_filter] at this
    exact ⟨hlog _ this.1, by simpa using this.2⟩
  have w1 := Table.write_ok d.lastEventId m.system.changes.lastEventIds (by
    intro p hp
    have h1 := hm.sys.chIds p.1
    rw [over, Dict.get_of_mem hm.sys.nodIds hp] at h1
    obtain ⟨e, he, hi⟩ := Option.map_eq_some_iff.1 h1.symm
    obtain ⟨h2, h3⟩ := hlast _ _ he
    exact ⟨encodeUint_ok (h3 ▸ h2.1.1), (C12_event_id_accepts _).2 (hi ▸ h2.1)⟩)
  have w2 := Table.write_ok d.lastTimestamp m.system.changes.lastTimestamps (by
    intro p hp
    have h1 := hm.sys.chTss p.1
    rw [over, Dict.get_of_mem hm.sys.nodTss hp] at h1
    obtain ⟨e, he, hi⟩ := Option.map_eq_some_iff.1 h1.symm
    obtain ⟨h2, h3⟩ := hlast _ _ he
    exact ⟨encodeUint_ok (h3 ▸ h2.1.1), (C11_accepts _).2 (hi ▸ h2.2.1)⟩)
  have w3 := Table.write_ok d.latestData m.latest.changes.data (by
    intro p hp
    have := hr.data p hp
    exact ⟨encodeUint_ok ⟨this.1, by omega⟩, ⟨[], rfl⟩⟩)
  have w4 := Table.write_ok d.latestType m.latest.changes.types (by
    intro p hp
    have := hr.types p hp
    exact ⟨encodeUint_ok ⟨this.1, by omega⟩, ⟨[], rfl⟩⟩)
  have w5 := Table.write_ok d.tsData (timeseriesEntries m.timeseries.changes) (by
    intro p hp
    refine ⟨(C12_key_accepts _).2 ?_, ⟨[], rfl⟩⟩
    have he := hm.ts.entry p.1
    rw [over, Dict.get_of_mem hm.ts.pnod hp] at he
    obtain ⟨h1, h2, h3⟩ := hok.entryId _ _ he
    have hst := hlog _ h2
    refine ⟨?_, ?_, h1 ▸ hst.1⟩
    · unfold timeseriesEntries at hp
      obtain ⟨x, hx, hp⟩ := List.mem_flatMap.1 hp
      obtain ⟨y, _, rfl⟩ := List.mem_map.1 hp
      exact hr.touched x hx
    · rcases h3 with h3 | h3
      · rw [h3]; exact hst.2.1
      · exact hst.2.2 _ h3)
  obtain ⟨pend, hp1, hp2⟩ := hm.pend
  have hsum : ∀ q, (Dict.get d.tsCount q).getD 0 + (((Dict.get m.timeseries.changes q).getD []).length : Int)
      ≤ cur.log.length := by
    intro q
    have h1 := hd.counts q
    have h2 := List.length_filterMap_le (pendingEntry parts q) pend
    rw [hp2, hp1, List.length_append]
    push_cast
    omega
  have hnod : (Dict.keys (m.timeseries.changes.map fun p => (p.1, (p.2.length : Int)))).Nodup := by
    have : Dict.keys (m.timeseries.changes.map fun p => (p.1, (p.2.length : Int))) =
        Dict.keys m.timeseries.changes := by simp [Dict.keys, Function.comp_def]
    rw [this]; exact hm.ts.nod
  obtain ⟨counts, w6⟩ := incCounts_total (t := d.tsCount) hnod (by
    intro p hp
    obtain ⟨x, hx, rfl⟩ := List.mem_map.1 hp
    refine ⟨hr.touched x hx, ?_⟩
    have h1 := hsum x.1
    rw [Dict.get_of_mem hm.ts.nod hx] at h1
    have h2 := h.counts x.1
    simp only [Option.getD_some] at h1 ⊢
    refine ⟨?_, ?_⟩
    · rw [h2]; positivity
    · omega)
  obtain ⟨ref, w7, w8⟩ := refWrite_total hr.refs hd.refs
  have hout : ∃ d', extFlush d m.createChanges.1 = .ok d' := by
    unfold extFlush systemWrite latestWrite timeseriesWrite refWrite Mem.createChanges
    simp only [w1, w2, w3, w4, w5, w6, w7, ok_bind, pure_ok]
    exact ⟨_, rfl⟩
  obtain ⟨d', hd'⟩ := hout
  refine ⟨d', hd', ?_⟩
  obtain ⟨ids, tss, data, types, tsd, counts', ref', f1, f2, f3, f4, f5, f6, f7, rfl⟩ := extFlush_ok hd'
  simp only [Mem.createChanges] at f1 f2 f3 f4 f5 f6 f7
  rw [w6] at f6; cases f6
  rw [w7] at f7; cases f7
  rw [w4] at f4; cases f4
  refine ⟨?_, w8, ?_⟩
  · intro p hp
    rcases mem_puts hp with hp | hp
    · exact hr.types p hp
    · exact hd.types p hp
  · intro q
    rw [(incCounts_ok w6 hnod).2 q]
    have h1 := hsum q
    have h2 : Dict.get (m.timeseries.changes.map fun p => (p.1, (p.2.length : Int))) q =
        (Dict.get m.timeseries.changes q).map fun l => (l.length : Int) := by
      generalize m.timeseries.changes = l
      induction l with
      | nil => rfl
      | cons x l ih =>
        obtain ⟨k, v⟩ := x
        simp only [List.map_cons, Dict.get_cons]
        split
        · rfl
        · exact ih
    rw [h2]
    cases hg : Dict.get m.timeseries.changes q with
    | none => rw [hg] at h1; simpa using h1
    | some l => rw [hg] at h1; simpa using h1

/-! ### Histories -/

/-- Number of events offered to the backend. -/
def Spec.offered (ops : List BackendOp) : Nat :=
  (ops.map fun op => match op with | .register es => es.length | _ => 0).sum

/-- Registered events are storable and touched partitions have identifiers of
partitions. -/
def Spec.StorableOps (ops : List BackendOp) : Prop :=
  (∀ es, .register es ∈ ops → ∀ e ∈ es, Storable e) ∧ ∀ p, .touch p ∈ ops → U64 p

theorem offered_snoc (ops : List BackendOp) (op : BackendOp) :
    offered (ops ++ [op]) = offered ops + offered [op] := by
  simp [offered]

/-- Bounds hold. -/
structure WorldRange (b : Backend) (w : World) (N : Nat) : Prop where
  disk : DiskRange b.disk w.flushed N
  opened : ∀ m, b.mem = some m → MemRange m N
  log : w.cur.log.length ≤ N
  flushed : w.flushed.log.length ≤ N

theorem DiskRange.mono {d : Disk} {fl : Store} {N N' : Int} (h : DiskRange d fl N) (hn : N ≤ N') :
    DiskRange d fl N' :=
  ⟨fun p hp => by have := h.types p hp; omega, h.refs, h.counts⟩

theorem refCleanup_refsIn {t t' : Table EventId (List EventRef)} {l : List TimeseriesKey} (ht : RefsIn t)
    (h : refCleanup t l = .ok t') : RefsIn t' := by
  induction l generalizing t with
  | nil => cases h; exact ht
  | cons k l ih =>
    rw [refCleanup] at h
    obtain ⟨_, _, h⟩ := bind_ok h
    have hd : RefsIn (Dict.del t k.id) := fun x hx => ht x (mem_dict_del hx)
    split at h
    · exact ih ht h
    · next v hg =>
      simp only at h
      rcases ite_cases h with ⟨_, h⟩ | ⟨_, h⟩
      · exact ih hd h
      · obtain ⟨_, _, h⟩ := bind_ok h
        refine ih ?_ h
        intro x hx
        rcases Table.mem_put hx with rfl | hx
        · exact fun r hr => ht _ (Dict.mem_of_get hg) r (List.mem_of_mem_filter hr)
        · exact hd x hx

theorem cleanup_range {conf : Conf} {fl : Rat → Rat} {se : Rat → Option Int} {now : Timestamp}
    {d d' : Disk} {m : Mem} {parts : Dict Int Partition} {flst cur : Store} {r : Bool} {N : Int}
    (h : DiskRel d flst) (hm : MemRel conf d m parts flst cur) (hr : DiskRange d flst N)
    (hc : extCleanup fl se now m.timeseries.partitions d = .ok (d', r)) : DiskRange d' flst N := by
  obtain ⟨rem, _, _, c1, c2, _, _, _, c3⟩ := cleanup_rel h hm hc
  have hcounts : ∀ q, (Dict.get d'.tsCount q).getD 0 ≤ flst.log.length := by
    intro q
    have h1 := hr.counts q
    rw [h.counts] at h1
    rw [c2.counts, c1]
    have : (entriesOf (d.tsData.filter fun x => x.1 ∉ rem) q).length ≤ (entriesOf d.tsData q).length :=
      (List.Sublist.filter _ List.filter_sublist).length_le
    omega
  rcases c3 with ⟨_, rfl⟩ | ⟨counts, ref, c4, c5⟩
  · exact ⟨hr.types, hr.refs, hcounts⟩
  · refine ⟨?_, ?_, hcounts⟩
    · rw [c5]; exact hr.types
    · rw [c5]; exact refCleanup_refsIn hr.refs c4

theorem create_range {c : Conf} {d d' : Disk} {m : Mem} {fl : Store} {N : Int} (hN : 0 ≤ N)
    (hr : DiskRange d fl N) (h : createDbs c d = .ok (d', m)) : DiskRange d' fl N ∧ MemRange m N := by
  unfold createDbs at h
  obtain ⟨_, _, h⟩ := bind_ok h
  obtain ⟨_, _, h⟩ := bind_ok h
  cases h
  refine ⟨⟨hr.types, hr.refs, hr.counts⟩, ?_⟩
  have hrefs : ∀ p ∈ d.latestType.foldl (fun d p => Dict.set d p.2 p.1) ([] : Dict EventType Int),
      0 ≤ p.2 ∧ p.2 ≤ N := by
    have : ∀ (l : Table Int EventType) (a : Dict EventType Int), (∀ p ∈ l, 0 ≤ p.1 ∧ p.1 ≤ N) →
        (∀ p ∈ a, 0 ≤ p.2 ∧ p.2 ≤ N) →
        ∀ p ∈ l.foldl (fun d p => Dict.set d p.2 p.1) a, 0 ≤ p.2 ∧ p.2 ≤ N := by
      intro l
      induction l with
      | nil => exact fun a _ h => h
      | cons x l ih =>
        intro a hl ha
        refine ih _ (fun p hp => hl p (by simp [hp])) ?_
        intro p hp
        rcases mem_dict_set hp with hp | rfl
        · exact ha p hp
        · exact hl x (by simp)
    exact this _ _ hr.types (by simp)
  have hmax : ∀ (l : List Int) (a : Int), 0 ≤ a ∧ a ≤ N → (∀ x ∈ l, 0 ≤ x ∧ x ≤ N) →
      0 ≤ l.foldl max a ∧ l.foldl max a ≤ N := by
    intro l
    induction l with
    | nil => exact fun a h _ => h
    | cons x l ih =>
      intro a ha hl
      have := hl x (by simp)
      exact ih _ (by omega) (fun y hy => hl y (by simp [hy]))
  refine ⟨?_, hrefs, by simp [LatestDb.create], by simp [LatestDb.create], by simp, by simp [RefChangesIn]⟩
  have := hmax ((d.latestType.foldl (fun d p => Dict.set d p.2 p.1) ([] : Dict EventType Int)).map Prod.snd) 0
    ⟨le_refl _, hN⟩ (by
      intro x hx
      obtain ⟨p, hp, rfl⟩ := List.mem_map.1 hx
      exact hrefs p hp)
  simp only [LatestDb.create]
  omega

theorem length_offers {conf : Conf} {parts : Dict Int Partition} (es : List Event) (st : Store) :
    (es.foldl (Store.offer conf parts) st).log.length ≤ st.log.length + es.length := by
  induction es generalizing st with
  | nil => simp
  | cons e es ih =>
    rw [List.foldl_cons]
    refine le_trans (ih _) ?_
    rcases log_offer (conf := conf) (parts := parts) st e with h | h
    · rw [h, List.length_cons]; omega
    · rw [h, List.length_append, List.length_cons, List.length_cons, List.length_nil]; omega

theorem drop_log (st : Store) (r : TimeseriesKey → Prop) : (st.drop r).log = st.log := rfl

theorem run_range (conf : Conf) (ops : List BackendOp) (hl : LookupLaws ops) (hs : StorableOps ops)
    (hN : offered ops < 2 ^ 64) :
    ∃ w, Reached conf ops w ∧ WorldRange ((Backend.new conf).run ops) w (offered ops) := by
  induction ops using List.reverseRecOn with
  | nil =>
    refine ⟨_, ⟨.nil, worldRel_new conf, by simp [Backend.run, Backend.new]⟩, ?_⟩
    refine ⟨⟨?_, ?_, ?_⟩, ?_, ?_, ?_⟩ <;>
      simp [Backend.run, Backend.new, Disk.empty, RefsIn, World.new, Store.empty]
  | append_singleton ops op ih =>
    rw [offered_snoc] at hN
    have hl' : LookupLaws ops := fun c hc => hl c (by simp [hc])
    obtain ⟨w, hw, hr⟩ := ih hl'
      ⟨fun es h => hs.1 es (by simp [h]), fun p h => hs.2 p (by simp [h])⟩ (by omega)
    obtain ⟨h1, h2, h3⟩ := hw
    generalize hb : (Backend.new conf).run ops = b at *
    have hlc : b.mem ≠ none → LookupLaw b.conf :=
      fun hm => hl _ (by have := run_conf conf ops (hb ▸ hm); simp [← hb, this])
    have hpt : PartsOk b := hb ▸ (run_partTable _ ops (partsOk_new conf)).1
    obtain ⟨w', h4, h5⟩ := step_rel h2 hlc op
    have hsn : (Backend.new conf).run (ops ++ [op]) = b.step op := by rw [run_snoc, hb]
    have hreach : Reached conf (ops ++ [op]) w' := by
      refine ⟨.snoc h1 h4 (by rw [hsn]; exact h5.isOpen), by rw [hsn]; exact h5, ?_⟩
      rw [hsn]
      exact step_added h2 hlc h4 h5 h3
    refine ⟨w', hreach, ?_⟩
    have hrun := run_ok h1
    have hstored : ∀ x ∈ w.cur.log, Storable x := by
      intro x hx
      obtain ⟨es, h6, h7⟩ := hrun.logC x hx
      exact hs.1 es (by simp [h6]) x h7
    rw [hsn, offered_snoc]
    have hpos : 0 ≤ offered [op] := Nat.zero_le _
    have hmono : (offered ops : Int) ≤ ((offered ops + offered [op] : Nat) : Int) := by push_cast; omega
    have hlen : w'.cur.log.length ≤ offered ops + offered [op] ∧
        w'.flushed.log.length ≤ offered ops + offered [op] := by
      have e1 := hr.log
      have e2 := hr.flushed
      cases h4 with
      | register _ =>
        refine ⟨?_, by simp only; omega⟩
        refine le_trans (length_offers _ _) ?_
        simp only [offered, List.map_cons, List.map_nil, List.sum_cons, List.sum_nil]
        simp only [offered] at e1
        omega
      | _ => exact ⟨by (try simp only [drop_log]); omega, by (try simp only [drop_log]); omega⟩
    have hst := stepTo b op
    generalize b.step op = b' at hst h5
    have hopen : ∀ m, b.mem = some m → w.isOpen = true := fun m hm => (h2.opened m hm).1
    have hopen' : w'.isOpen = b'.mem.isSome := h5.isOpen
    have same : ∀ {d : Disk} {fl : Store}, DiskRange d w.flushed (offered ops) → fl.log = w.flushed.log →
        DiskRange d fl ((offered ops + offered [op] : Nat) : Int) :=
      fun hd hf => ⟨(hd.mono hmono).types, hd.refs, fun q => hf ▸ hd.counts q⟩
    suffices hx : DiskRange b'.disk w'.flushed ((offered ops + offered [op] : Nat) : Int) ∧
        ∀ m, b'.mem = some m → MemRange m ((offered ops + offered [op] : Nat) : Int) from
      ⟨hx.1, hx.2, hlen.1, hlen.2⟩
    have mem : ∀ m, b.mem = some m → MemRange m ((offered ops + offered [op] : Nat) : Int) :=
      fun m hm => (hr.opened m hm).mono hmono
    cases hst with
    | closed e1 e2 =>
      refine ⟨?_, mem⟩
      have hc := (h2.closed e1).1
      cases h4 with
      | closed _ _ => exact same hr.disk rfl
      | reopen _ => exact absurd rfl (e2 _)
      | reopenFail => exact absurd rfl (e2 _)
      | cleanup _ h _ => rw [hc] at h; simp at h
      | _ h => rw [hc] at h; simp at h
    | register e1 e2 =>
      cases h4 with
      | closed h _ => rw [hopen _ e1] at h; simp at h
      | register _ =>
        refine ⟨same hr.disk rfl, ?_⟩
        rintro m2 ⟨⟩
        have hlk := hlc (by simp [e1])
        rw [h2.conf] at hlk e2
        have hm := (h2.opened _ e1).2
        have := register_range hlk h2.okC hm hstored (by
          intro q hq
          rw [← hm.partsEq] at hq
          obtain ⟨v, hv⟩ := Option.ne_none_iff_exists'.1 (fun hn => Dict.get_eq_none_iff.1 hn hq)
          exact hpt.1.range _ _ ((hpt.2 _ e1).2 _ _ hv)) _ (hs.1 _ (by simp)) (N := offered ops) (by
            simp only [offered, List.map_cons, List.map_nil, List.sum_cons, List.sum_nil] at hN ⊢
            omega) (hr.opened _ e1) e2
        simpa [offered] using this
    | registerFail e1 e2 =>
      refine ⟨?_, by simp⟩
      cases h4 with
      | closed h _ => exact same hr.disk rfl
      | register _ => exact same hr.disk rfl
    | touch e1 =>
      refine ⟨?_, ?_⟩
      · cases h4 with
        | closed h _ => exact same hr.disk rfl
        | touch _ => exact same hr.disk rfl
      · rintro m2 ⟨⟩
        have hm := mem _ e1
        refine ⟨hm.next, hm.typeRefs, hm.types, hm.data, ?_, hm.refs⟩
        intro p hp
        rcases mem_dict_set hp with hp | rfl
        · exact hm.touched p hp
        · exact hs.2 _ (by simp)
    | flush e1 e2 =>
      have hm := (h2.opened _ e1).2
      obtain ⟨d', f1, f2⟩ := flush_total h2.okC h2.disk hm hstored (N := offered ops) (by
        simp only [offered] at hN ⊢; omega) (by exact_mod_cast hr.log) hr.disk (hr.opened _ e1)
      rw [e2] at f1; cases f1
      refine ⟨?_, ?_⟩
      · cases h4 with
        | closed h _ => rw [hopen _ e1] at h; simp at h
        | flush _ => exact f2.mono hmono
        | flushFail _ => simp at hopen'
      · rintro m2 ⟨⟩
        have hm := mem _ e1
        exact ⟨hm.next, hm.typeRefs, by simp [Mem.createChanges], by simp [Mem.createChanges],
          by simp [Mem.createChanges], by simp [Mem.createChanges, RefChangesIn]⟩
    | flushFail e1 e2 =>
      refine ⟨?_, by simp⟩
      cases h4 with
      | closed h _ => exact same hr.disk rfl
      | flush h => simp only [h, Option.isSome_none] at hopen'; simp at hopen'
      | flushFail _ => exact same hr.disk rfl
    | cleanup e1 e2 =>
      have hd := cleanup_range h2.disk (h2.opened _ e1).2 hr.disk e2
      refine ⟨?_, mem⟩
      cases h4 with
      | closed h _ => exact same hd rfl
      | cleanup _ _ _ => exact same hd rfl
      | cleanupFail _ => exact same hd rfl
    | cleanupFail e1 e2 =>
      refine ⟨?_, by simp⟩
      cases h4 with
      | closed h _ => exact same hr.disk rfl
      | cleanup _ _ _ => exact same hr.disk rfl
      | cleanupFail _ => exact same hr.disk rfl
    | reopen e1 =>
      obtain ⟨f1, f2⟩ := create_range (by omega) hr.disk e1
      refine ⟨?_, ?_⟩
      · cases h4 with
        | closed _ h => exact absurd rfl (h _)
        | reopen _ => exact same f1 rfl
        | reopenFail => exact same f1 rfl
      · rintro m2 ⟨⟩
        exact f2.mono hmono
    | reopenFail e1 =>
      refine ⟨?_, by simp⟩
      cases h4 with
      | closed _ h => exact absurd rfl (h _)
      | reopen _ => exact same hr.disk rfl
      | reopenFail => exact same hr.disk rfl

/-- A flush of storable events succeeds. -/
theorem flush_open (conf : Conf) (ops : List BackendOp) (hl : LookupLaws ops) (hs : StorableOps ops)
    (hN : offered ops < 2 ^ 64) (ho : ((Backend.new conf).run ops).mem ≠ none) :
    ((Backend.new conf).run (ops ++ [.flush])).mem ≠ none := by
  obtain ⟨w, hw, hr⟩ := run_range conf ops hl hs hN
  rw [run_snoc]
  have h2 := hw.rel
  generalize (Backend.new conf).run ops = b at *
  obtain ⟨m, hm⟩ := Option.ne_none_iff_exists'.1 ho
  obtain ⟨d', f1, f2⟩ := flush_total h2.okC h2.disk (h2.opened m hm).2 (by
      intro x hx
      obtain ⟨es, h6, h7⟩ := (run_ok hw.run).logC x hx
      exact hs.1 es h6 x h7) (N := offered ops) (by simp only [offered] at hN ⊢; omega)
    (by exact_mod_cast hr.log) hr.disk (hr.opened m hm)
  have hst := stepTo b .flush
  generalize b.step .flush = b' at hst
  cases hst with
  | closed h _ => rw [hm] at h; simp at h
  | flush _ _ => simp
  | flushFail h e => rw [hm] at h; cases h; rw [f1] at e; simp at e

end HatEvent
