import Verif.Proof.LmdbRefs

/-! # Server queries -/

namespace HatEvent
open Spec

instance (a b : EventId) : Decidable (IdLt a b) := by unfold IdLt; infer_instance

/-- After an optional identifier. -/
def isAfter (after : Option EventId) (e : Event) : Bool :=
  match after with
  | some l => decide (IdLt l e.id)
  | none => true

theorem isAfter_iff {after : Option EventId} {e : Event} :
    isAfter after e = true ↔ ∀ l, after = some l → IdLt l e.id := by
  unfold isAfter; cases after <;> simp

theorem queryRefs_spec (conf : Conf) (d : Disk) (stop : EventId) :
    ∀ (E : Table EventId (List EventRef)),
    (∀ p ∈ E, p.2 ≠ [] ∧ ∃ e, e.id = p.1 ∧ ∀ r ∈ p.2, getEvent d r = some e) →
    ∃ full : List Event,
      (∀ n, queryRefs conf d stop n E = .ok (full.take n.toNat)) ∧
      full.map (·.id) = (E.takeWhile fun p => p.1.lt stop).map Prod.fst ∧
      ∀ x ∈ full, ∃ refs r, (x.id, refs) ∈ E ∧ r ∈ refs ∧ getEvent d r = some x
  | [], _ => ⟨[], fun n => by simp [queryRefs], rfl, by simp⟩
  | (key, refs) :: E, h => by
    obtain ⟨full, h1, h2, h3⟩ := queryRefs_spec conf d stop E (fun p hp => h p (by simp [hp]))
    obtain ⟨hne, e, he, hall⟩ := h (key, refs) (by simp)
    simp only at hne he hall
    by_cases hs : key.lt stop = true
    · refine ⟨e :: full, ?_, ?_, ?_⟩
      · intro n
        rw [queryRefs]
        by_cases hn : n < 1
        · have : n.toNat = 0 := by omega
          rw [if_pos hn, this]; rfl
        · rw [if_neg hn]
          simp only [hs, Bool.not_true, Bool.false_eq_true, if_false]
          have hpos : 0 < refs.length := List.length_pos_of_ne_nil hne
          have hlt : conf.pick refs % refs.length < refs.length := Nat.mod_lt _ hpos
          rw [List.getElem?_eq_getElem hlt]
          simp only [hall _ (List.getElem_mem hlt), h1]
          have : n.toNat = (n - 1).toNat + 1 := by omega
          rw [this, List.take_succ_cons]
          rfl
      · rw [List.takeWhile_cons_of_pos (by simpa using hs)]
        simp [he, h2]
      · intro x hx
        rcases List.mem_cons.1 hx with rfl | hx
        · obtain ⟨r, hr⟩ := List.exists_mem_of_ne_nil _ hne
          exact ⟨refs, r, by simp [he], hr, hall r hr⟩
        · obtain ⟨rs, r, a1, a2, a3⟩ := h3 x hx
          exact ⟨rs, r, by simp [a1], a2, a3⟩
    · refine ⟨[], ?_, ?_, by simp⟩
      · intro n
        rw [queryRefs]
        have hs' : key.lt stop = false := by simpa using hs
        by_cases hn : n < 1
        · rw [if_pos hn]; simp
        · rw [if_neg hn]; simp [hs']
      · rw [List.takeWhile_cons_of_neg (by simpa using hs)]; rfl

theorem held_disk {d : Disk} {st : Store} (h : DiskRel d st) (hr : DiskRefs d st) (hs : StoreOk st)
    {e : Event} : st.Held e ↔ e ∈ st.log ∧ ∃ r, HasRef d.ref e.id r := by
  constructor
  · rintro (h1 | ⟨k, h1⟩)
    · obtain ⟨k, h2, h3⟩ := (h.slot _ _).1 h1
      exact ⟨(hs.slotType _ _ h1).2, .latest k, (hr.real _ _).2 ⟨e, h3, rfl⟩⟩
    · obtain ⟨h2, h3, _⟩ := hs.entryId k e h1
      exact ⟨h3, .timeseries k, (hr.real _ _).2 ⟨h2, e, h1⟩⟩
  · rintro ⟨h1, r, h2⟩
    rw [hr.real] at h2
    cases r with
    | latest k =>
      obtain ⟨x, hx, hid⟩ := h2
      have hsl := (h.slot _ _).2 ⟨k, h.data k x hx, hx⟩
      have : x = e := storeOk_unique hs (hs.slotType _ _ hsl).2 h1 hid
      subst this
      exact .inl hsl
    | timeseries k =>
      obtain ⟨hid, x, hx⟩ := h2
      obtain ⟨h3, h4, _⟩ := hs.entryId k x hx
      have : x = e := storeOk_unique hs h4 h1 (h3.symm.trans hid)
      subst this
      exact .inr ⟨k, hx⟩

/-- A stored reference leads to the event. -/
theorem getEvent_ref {d : Disk} {st : Store} (h : DiskRel d st) (hr : DiskRefs d st) (hs : StoreOk st)
    {id : EventId} {r : EventRef} (hh : HasRef d.ref id r) :
    ∃ e, getEvent d r = some e ∧ e.id = id ∧ e ∈ st.log := by
  rw [hr.real] at hh
  cases r with
  | latest k =>
    obtain ⟨x, hx, hid⟩ := hh
    have hsl := (h.slot _ _).2 ⟨k, h.data k x hx, hx⟩
    exact ⟨x, hx, hid, (hs.slotType _ _ hsl).2⟩
  | timeseries k =>
    obtain ⟨hid, x, hx⟩ := hh
    obtain ⟨h3, h4, _⟩ := hs.entryId k x hx
    rw [h.entry] at hx
    exact ⟨x, hx, h3.symm.trans hid, h4⟩

/-- The first key of the query. -/
def startOf (server : Int) (after : Option EventId) : EventId := after.getD ⟨server, 0, 0⟩

theorem after_iff {server : Int} {after : Option EventId} {st : Store} (hs : StoreOk st) {e : Event}
    (he : e ∈ st.log) (hsrv : e.id.server = server) :
    IdLt (startOf server after) e.id ↔ ∀ l, after = some l → IdLt l e.id := by
  unfold startOf
  cases after with
  | none => simpa [← hsrv] using hs.pos e he
  | some l => simp

theorem extQuery_spec {conf : Conf} {d : Disk} {st : Store} (h : DiskRel d st) (hr : DiskRefs d st)
    (hs : StoreOk st) (server : Int) (after : Option EventId)
    (h1 : IdRange (startOf server after)) (h2 : U64 (server + 1))
    (h3 : ∀ l, after = some l → l.server = server) :
    ∃ full, ServerList st.Held server after full ∧
      ∀ n, extQueryEvents conf d server n after = .ok (full.take n.toNat) := by
  have hstart : (startOf server after).server = server := by
    unfold startOf; cases after with
    | none => rfl
    | some l => exact h3 l rfl
  obtain ⟨b1, hb1⟩ := (C12_event_id_accepts _).2 h1
  obtain ⟨b2, hb2⟩ := (C12_event_id_accepts (⟨server + 1, 0, 0⟩)).2 (by
    refine ⟨h2, ?_, ?_⟩ <;> (unfold U64; norm_num))
  have hentries : (match Table.fromKey d.ref (startOf server after) with
      | (k, v) :: r => if k = startOf server after then r else (k, v) :: r
      | [] => []) = d.ref.filter fun p => decide (IdLt (startOf server after) p.1) := by
    rw [Table.fromKey_eq hr.table.sorted]
    have hf : (d.ref.filter fun p => decide (IdLt (startOf server after) p.1)) =
        (d.ref.filter fun p => !DbKey.lt p.1 (startOf server after)).filter
          fun p => decide (p.1 ≠ startOf server after) := by
      rw [List.filter_filter]
      apply List.filter_congr
      intro p _
      have hd : (!DbKey.lt p.1 (startOf server after)) = true ↔ ¬ IdLt p.1 (startOf server after) := by
        rw [← idKey_lt]; simp
      rw [Bool.eq_iff_iff]
      simp only [decide_eq_true_eq, Bool.and_eq_true, hd]
      constructor
      · intro hlt; exact ⟨hlt.ne.symm, hlt.asymm⟩
      · rintro ⟨q1, q2⟩
        rcases id_trichotomy p.1 (startOf server after) with g | g | g
        · exact absurd g q2
        · exact absurd g q1
        · exact g
    rw [hf]
    have hsorted : Table.Sorted (d.ref.filter fun p => !DbKey.lt p.1 (startOf server after)) :=
      List.Pairwise.filter _ hr.table.sorted
    have hge : ∀ p ∈ (d.ref.filter fun p => !DbKey.lt p.1 (startOf server after)),
        ¬ IdLt p.1 (startOf server after) := by
      intro p hp
      have := (List.mem_filter.1 hp).2
      rw [← idKey_lt]; simpa using this
    generalize (d.ref.filter fun p => !DbKey.lt p.1 (startOf server after)) = l at hsorted hge
    cases l with
    | nil => rfl
    | cons p l =>
      obtain ⟨k, v⟩ := p
      simp only
      have hl : ∀ q ∈ l, q.1 ≠ startOf server after := by
        intro q hq heq
        have := List.rel_of_pairwise_cons hsorted hq
        rw [idKey_lt, heq] at this
        exact hge (k, v) (by simp) this
      have hfl : l.filter (fun p => decide (p.1 ≠ startOf server after)) = l :=
        List.filter_eq_self.2 fun q hq => by simpa using hl q hq
      by_cases hk : k = startOf server after
      · rw [if_pos hk, List.filter_cons_of_neg (by simpa using hk), hfl]
      · rw [if_neg hk, List.filter_cons_of_pos (by simpa using hk), hfl]
  have hmemref : ∀ p, p ∈ d.ref → p.2 ≠ [] ∧ ∀ r ∈ p.2, HasRef d.ref p.1 r := by
    intro p hp
    have hg := Dict.get_of_mem hr.table.sorted.nodup hp
    exact ⟨hr.table.nonempty _ _ hg, fun r hr => ⟨p.2, hg, hr⟩⟩
  obtain ⟨full, f1, f2, f3⟩ := queryRefs_spec conf d ⟨server + 1, 0, 0⟩
    (d.ref.filter fun p => decide (IdLt (startOf server after) p.1)) (by
      intro p hp
      have hp := (List.mem_filter.1 hp).1
      obtain ⟨hne, hall⟩ := hmemref p hp
      refine ⟨hne, ?_⟩
      obtain ⟨r0, hr0⟩ := List.exists_mem_of_ne_nil _ hne
      obtain ⟨e, e1, e2, e3⟩ := getEvent_ref h hr hs (hall r0 hr0)
      refine ⟨e, e2, ?_⟩
      intro r hrm
      obtain ⟨x, x1, x2, x3⟩ := getEvent_ref h hr hs (hall r hrm)
      rw [x1, storeOk_unique hs x3 e3 (x2.trans e2.symm)])
  have hsortE : Table.Sorted (d.ref.filter fun p => decide (IdLt (startOf server after) p.1)) :=
    List.Pairwise.filter _ hr.table.sorted
  have htw : ((d.ref.filter fun p => decide (IdLt (startOf server after) p.1)).takeWhile
      fun p => p.1.lt ⟨server + 1, 0, 0⟩) =
      (d.ref.filter fun p => decide (IdLt (startOf server after) p.1)).filter
        fun p => p.1.lt ⟨server + 1, 0, 0⟩ := by
    refine Table.takeWhile_sorted hsortE (fun k => k.lt ⟨server + 1, 0, 0⟩) ?_
    intro a b hab hb
    rw [idKey_lt] at hab
    simp only [EventId.lt_iff] at hb ⊢
    exact hab.trans hb
  rw [htw] at f2
  -- identifiers of the result
  have hids : ∀ id, id ∈ full.map (·.id) ↔ (∃ r, HasRef d.ref id r) ∧
      IdLt (startOf server after) id ∧ IdLt id ⟨server + 1, 0, 0⟩ := by
    intro id
    rw [f2]
    simp only [List.mem_map, List.mem_filter, decide_eq_true_eq, EventId.lt_iff]
    constructor
    · rintro ⟨p, ⟨⟨p1, p2⟩, p3⟩, rfl⟩
      obtain ⟨hne, hall⟩ := hmemref p p1
      obtain ⟨r0, hr0⟩ := List.exists_mem_of_ne_nil _ hne
      exact ⟨⟨r0, hall r0 hr0⟩, p2, p3⟩
    · rintro ⟨⟨r, refs, q1, q2⟩, q3, q4⟩
      exact ⟨(id, refs), ⟨⟨Dict.mem_of_get q1, q3⟩, q4⟩, rfl⟩
  have hfull : ∀ x ∈ full, st.Held x := by
    intro x hx
    obtain ⟨refs, r, a1, a2, a3⟩ := f3 x hx
    have hh := (hmemref _ (List.mem_filter.1 a1).1).2 r a2
    obtain ⟨y, y1, y2, y3⟩ := getEvent_ref h hr hs hh
    rw [a3] at y1; cases y1
    exact (held_disk h hr hs).2 ⟨y3, r, hh⟩
  refine ⟨full, ⟨?_, ?_⟩, ?_⟩
  · have : (full.map (·.id)).Pairwise IdLt := by
      rw [f2]
      rw [List.pairwise_map]
      exact (List.Pairwise.filter _ hsortE).imp fun hh => idKey_lt.1 hh
    rwa [List.pairwise_map] at this
  · intro e
    constructor
    · intro he
      have hheld := hfull e he
      have hlog := ((held_disk h hr hs).1 hheld).1
      obtain ⟨_, g1, g2⟩ := (hids e.id).1 (List.mem_map.2 ⟨e, he, rfl⟩)
      have hsrv : e.id.server = server := by
        have hp := hs.pos e hlog
        unfold IdLt at g1 g2 hp
        rw [hstart] at g1
        simp only at g2 hp
        omega
      exact ⟨hheld, hsrv, (after_iff hs hlog hsrv).1 g1⟩
    · rintro ⟨hheld, hsrv, ha⟩
      obtain ⟨hlog, hrr⟩ := (held_disk h hr hs).1 hheld
      have : e.id ∈ full.map (·.id) := by
        rw [hids]
        refine ⟨hrr, (after_iff hs hlog hsrv).2 ha, ?_⟩
        unfold IdLt; simp only; omega
      obtain ⟨x, hx, hxe⟩ := List.mem_map.1 this
      have hxl := ((held_disk h hr hs).1 (hfull x hx)).1
      rw [← storeOk_unique hs hxl hlog hxe]; exact hx
  · intro n
    unfold extQueryEvents
    rw [show after.getD ⟨server, 0, 0⟩ = startOf server after from rfl]
    simp only [hb1, hb2]
    have := f1 n
    rw [← hentries] at this
    exact this

/-- Events held by the open backend and not by the disk alone. -/
theorem held_mem {conf : Conf} {d : Disk} {m : Mem} {parts : Dict Int Partition} {fl cur : Store}
    (h : MemRel conf d m parts fl cur) (hr : MemRefs d m fl cur) (hs : StoreOk cur) {e : Event} :
    cur.Held e ↔ e ∈ cur.log ∧ ∃ r, (HasRef d.ref e.id r ∨ PendAdded m.ref.changes e.id r) ∧
      ¬ PendRemoved m.ref.changes e.id r := by
  simp only [← hr.real]
  constructor
  · rintro (h1 | ⟨k, h1⟩)
    · obtain ⟨k, h2, h3⟩ := (h.latest.slot _ _).1 h1
      exact ⟨(hs.slotType _ _ h1).2, .latest k, e, h3, rfl⟩
    · obtain ⟨h2, h3, _⟩ := hs.entryId k e h1
      exact ⟨h3, .timeseries k, h2, e, h1⟩
  · rintro ⟨h1, r, h2⟩
    cases r with
    | latest k =>
      obtain ⟨x, hx, hid⟩ := h2
      have hsl := (h.latest.slot _ _).2 ⟨k, h.latest.data k x hx, hx⟩
      have : x = e := storeOk_unique hs (hs.slotType _ _ hsl).2 h1 hid
      subst this
      exact .inl hsl
    | timeseries k =>
      obtain ⟨hid, x, hx⟩ := h2
      obtain ⟨h3, h4, _⟩ := hs.entryId k x hx
      have : x = e := storeOk_unique hs h4 h1 (h3.symm.trans hid)
      subst this
      exact .inr ⟨k, hx⟩

/-- Pending events of a server, in the order of their identifiers. -/
def pendingOf (ch : RefChanges) (server : Int) : List Event :=
  match Dict.get ch server with
  | none => []
  | some sc => sc.added.map fun p => p.2.1

theorem pendingOf_sorted {ch : RefChanges} (h : AddedOk ch) (server : Int) :
    (pendingOf ch server).Pairwise fun a b => IdLt a.id b.id := by
  unfold pendingOf
  cases hg : Dict.get ch server with
  | none => exact List.Pairwise.nil
  | some sc =>
    simp only
    rw [List.pairwise_map]
    have hid : ∀ p ∈ sc.added, p.2.1.id = p.1 := by
      intro p hp
      have hgp := Dict.get_of_mem (h.nodup hg) hp
      have hsrv := h.added _ _ hg _ _ hgp
      refine (h.event p.1 p.2.1 p.2.2 ?_).1
      unfold addedOf; rw [hsrv, hg]; exact hgp
    refine List.Pairwise.imp_of_mem ?_ (h.sorted _ _ hg)
    intro a b ha hb hlt
    rw [hid a ha, hid b hb]; exact hlt

theorem mem_pendingOf {ch : RefChanges} (h : AddedOk ch) {server : Int} {e : Event} :
    e ∈ pendingOf ch server ↔ e.id.server = server ∧ ∃ refs, addedOf ch e.id = some (e, refs) := by
  unfold pendingOf
  constructor
  · intro he
    cases hg : Dict.get ch server with
    | none => rw [hg] at he; simp at he
    | some sc =>
      rw [hg] at he
      obtain ⟨p, hp, rfl⟩ := List.mem_map.1 he
      have hgp := Dict.get_of_mem (h.nodup hg) hp
      have hsrv := h.added _ _ hg _ _ hgp
      have ha : addedOf ch p.1 = some (p.2.1, p.2.2) := by
        unfold addedOf; rw [hsrv, hg]; exact hgp
      have hid := (h.event _ _ _ ha).1
      rw [hid]
      exact ⟨hsrv, p.2.2, ha⟩
  · rintro ⟨rfl, refs, ha⟩
    unfold addedOf at ha
    cases hg : Dict.get ch e.id.server with
    | none => rw [hg] at ha; simp at ha
    | some sc =>
      rw [hg] at ha
      simp only [Option.bind_some] at ha
      exact List.mem_map.2 ⟨_, Dict.mem_of_get ha, rfl⟩

theorem pendingOf_held {conf : Conf} {d : Disk} {m : Mem} {parts : Dict Int Partition} {fl cur : Store}
    (hd : DiskRel d fl) (hdr : DiskRefs d fl) (hsf : StoreOk fl)
    (h : MemRel conf d m parts fl cur) (hr : MemRefs d m fl cur) (hs : StoreOk cur) {server : Int}
    {e : Event} : e ∈ pendingOf m.ref.changes server ↔
      e.id.server = server ∧ cur.Held e ∧ ∀ x ∈ fl.log, x.id ≠ e.id := by
  rw [mem_pendingOf hr.ok, held_mem h hr hs]
  constructor
  · rintro ⟨h1, refs, h2⟩
    obtain ⟨h3, h4⟩ := hr.new _ _ _ h2
    refine ⟨h1, ⟨h3, ?_⟩, h4⟩
    obtain ⟨r, hrr⟩ := List.exists_mem_of_ne_nil _ (hr.ok.event _ _ _ h2).2
    refine ⟨r, .inr (pendAdded_iff.2 ⟨e, refs, h2, hrr⟩), ?_⟩
    intro hpr
    obtain ⟨x, hx, hxe⟩ := diskRefs_id hd hdr hsf (hr.old _ _ hpr).1
    exact h4 x hx hxe
  · rintro ⟨h1, ⟨h2, r, h3, h4⟩, h5⟩
    refine ⟨h1, ?_⟩
    rcases h3 with h3 | h3
    · obtain ⟨x, hx, hxe⟩ := diskRefs_id hd hdr hsf h3
      exact absurd hxe (h5 x hx)
    · obtain ⟨x, refs, h6, _⟩ := pendAdded_iff.1 h3
      have hx := (hr.new _ _ _ h6).1
      have hid := (hr.ok.event _ _ _ h6).1
      rw [storeOk_unique hs hx h2 hid] at h6
      exact ⟨refs, h6⟩

/-- Everything after an identifier is a suffix of a sorted list. -/
theorem dropWhile_events {l : List Event} (h : l.Pairwise fun a b => IdLt a.id b.id) (last : EventId) :
    l.dropWhile (fun e => e.id.le last) = l.filter fun e => decide (IdLt last e.id) := by
  induction l with
  | nil => rfl
  | cons a l ih =>
    by_cases ha : a.id.le last = true
    · rw [List.dropWhile_cons_of_pos (by simpa using ha), List.filter_cons_of_neg, ih h.of_cons]
      rw [EventId.le_iff] at ha
      simpa using not_idLt.2 ha
    · rw [List.dropWhile_cons_of_neg (by simpa using ha), eq_comm, List.filter_eq_self]
      intro x hx
      rw [EventId.le_iff, not_idLe] at ha
      rcases List.mem_cons.1 hx with rfl | hx
      · simpa using ha
      · simpa using ha.trans (List.rel_of_pairwise_cons h hx)

theorem queryChanges_eq {ch : RefChanges} (h : AddedOk ch) (server n : Int) (last : Option EventId) :
    queryChanges ch server n last = ((pendingOf ch server).filter (isAfter last)).take n.toNat := by
  have hs := pendingOf_sorted h server
  unfold queryChanges pendingOf at *
  cases hg : Dict.get ch server with
  | none => simp
  | some sc =>
    rw [hg] at hs
    simp only at hs ⊢
    cases last with
    | none =>
      rw [List.filter_eq_self.2 (by simp [isAfter])]
    | some l =>
      simp only
      rw [dropWhile_events hs]
      rfl

theorem take_append_pages {α : Type} (a b : List α) (n : Nat) (h : a.length ≤ n) :
    a ++ b.take (n - a.length) = (a ++ b).take n := by
  rw [List.take_append, List.take_of_length_le h]

theorem server_spec {conf : Conf} {d : Disk} {m : Mem} {parts : Dict Int Partition} {fl cur : Store}
    (hd : DiskRel d fl) (hdr : DiskRefs d fl) (hsf : StoreOk fl)
    (h : MemRel conf d m parts fl cur) (hr : MemRefs d m fl cur) (hs : StoreOk cur)
    (server : Int) (persisted : Bool) (after : Option EventId)
    (h1 : IdRange (startOf server after)) (h2 : U64 (server + 1))
    (h3 : ∀ l, after = some l → l.server = server) :
    ∃ full, ServerList (fun e => fl.Held e ∨ (persisted = false ∧ cur.Held e)) server after full ∧
      ∀ mr, 0 ≤ limitResults mr refMaxResults →
        m.ref.query conf d ⟨server, persisted, mr, after⟩ =
          .ok (page full (limitResults mr refMaxResults).toNat) := by
  obtain ⟨fullD, ⟨s1, s2⟩, s3⟩ := extQuery_spec (conf := conf) hd hdr hsf server after h1 h2 h3
  have hguard : ∀ mr, wrongServer ⟨server, persisted, mr, after⟩ = false := by
    intro mr
    unfold wrongServer
    cases after with
    | none => rfl
    | some l => simpa using h3 l rfl
  obtain ⟨pend, hp, _⟩ := h.pend
  have hsub : ∀ x ∈ fl.log, x ∈ cur.log := by
    intro x hx; rw [hp]; exact List.mem_append_left _ hx
  -- pending events come after those on the disk
  have hlater : ∀ a ∈ fullD, ∀ b ∈ pendingOf m.ref.changes server, IdLt a.id b.id := by
    intro a ha b hb
    obtain ⟨a1, a2, _⟩ := (s2 a).1 ha
    have alog := ((held_disk hd hdr hsf).1 a1).1
    obtain ⟨b1, b2, b3⟩ := (pendingOf_held hd hdr hsf h hr hs).1 hb
    have blog := ((held_mem h hr hs).1 b2).1
    rw [hp, List.mem_append] at blog
    have hbp : b ∈ pend := by
      rcases blog with hb | hb
      · exact absurd rfl (b3 b hb)
      · exact hb
    have hm := hs.mono
    rw [hp, List.pairwise_append] at hm
    exact (hm.2.2 a alog b hbp (by rw [a2, b1])).1
  generalize hP : (pendingOf m.ref.changes server).filter (isAfter after) = P
  have hPmem : ∀ e, e ∈ P ↔ e ∈ pendingOf m.ref.changes server ∧ ∀ l, after = some l → IdLt l e.id := by
    intro e; rw [← hP, List.mem_filter, isAfter_iff]
  have hPsort : P.Pairwise fun a b => IdLt a.id b.id := by
    rw [← hP]; exact (pendingOf_sorted hr.ok server).filter _
  -- the identifier used for pending events selects the same events
  have hsel : ∀ n : Int, queryChanges m.ref.changes server n (pendingAfter fullD after) =
      P.take n.toNat := by
    intro n
    rw [queryChanges_eq hr.ok]
    congr 1
    rw [← hP]
    unfold pendingAfter
    apply List.filter_congr
    intro b hb
    cases hl : fullD.getLast? with
    | none => rfl
    | some x =>
      have hx := List.mem_of_getLast? hl
      have hlt := hlater x hx b hb
      have e1 : isAfter (some x.id) b = true := by simp [isAfter, hlt]
      simp only [e1]
      rw [eq_comm, isAfter_iff]
      intro l hl'
      exact (((s2 x).1 hx).2.2 l hl').trans hlt
  cases persisted with
  | true =>
    refine ⟨fullD, ⟨s1, ?_⟩, ?_⟩
    · intro e; rw [s2]; simp
    · intro mr hmr
      have hq : m.ref.query conf d ⟨server, true, mr, after⟩ =
          cutResults (fullD.take (limitResults mr refMaxResults + 1).toNat)
            (limitResults mr refMaxResults) := by
        unfold RefDb.query withPending
        simp only [hguard, s3, Bool.not_true, Bool.false_and, Bool.false_eq_true, if_false]
        rfl
      rw [hq]
      unfold cutResults page
      generalize limitResults mr refMaxResults = mx at hmr
      rw [List.length_take]
      by_cases hlen : mx.toNat < fullD.length
      · rw [if_pos (by omega), if_neg (by omega)]
        rw [List.take_take, Nat.min_eq_left (by omega)]
        simp [hlen]
      · rw [if_neg (by omega), List.take_of_length_le (by omega), List.take_of_length_le (by omega)]
        simp [hlen]
  | false =>
    refine ⟨fullD ++ P, ⟨?_, ?_⟩, ?_⟩
    · rw [List.pairwise_append]
      exact ⟨s1, hPsort, fun a ha b hb => hlater a ha b ((hPmem b).1 hb).1⟩
    · intro e
      rw [List.mem_append, s2, hPmem, pendingOf_held hd hdr hsf h hr hs]
      simp only [true_and]
      constructor
      · rintro (⟨g1, g2, g3⟩ | ⟨⟨g1, g2, g3⟩, g4⟩)
        · exact ⟨.inl g1, g2, g3⟩
        · exact ⟨.inr g2, g1, g4⟩
      · rintro ⟨g1 | g1, g2, g3⟩
        · exact .inl ⟨g1, g2, g3⟩
        · by_cases hnew : ∀ x ∈ fl.log, x.id ≠ e.id
          · exact .inr ⟨⟨g2, g1, hnew⟩, g3⟩
          · left
            refine ⟨?_, g2, g3⟩
            push Not at hnew
            obtain ⟨x, hx, hxe⟩ := hnew
            obtain ⟨k1, r, k2, k3⟩ := (held_mem h hr hs).1 g1
            have := storeOk_unique hs (hsub x hx) k1 hxe
            subst this
            refine (held_disk hd hdr hsf).2 ⟨hx, r, ?_⟩
            rcases k2 with k2 | k2
            · exact k2
            · obtain ⟨y, refs, k4, _⟩ := pendAdded_iff.1 k2
              exact absurd rfl ((hr.new _ _ _ k4).2 x hx)
    · intro mr hmr
      have hq : m.ref.query conf d ⟨server, false, mr, after⟩ =
          cutResults (withPending m.ref.changes ⟨server, false, mr, after⟩
            (limitResults mr refMaxResults) (fullD.take (limitResults mr refMaxResults + 1).toNat))
            (limitResults mr refMaxResults) := by
        unfold RefDb.query
        simp only [hguard, s3, Bool.false_eq_true, if_false]
        rfl
      rw [hq]
      unfold withPending
      simp only [Bool.not_false, Bool.true_and, decide_eq_true_eq]
      generalize limitResults mr refMaxResults = mx at hmr
      by_cases hlen : mx.toNat < fullD.length
      · have hno : ¬ (((fullD.take (mx + 1).toNat).length : Int) ≤ mx) := by
          rw [List.length_take]; omega
        rw [if_neg hno]
        unfold cutResults page
        rw [if_pos (by omega), if_neg (by omega)]
        rw [List.take_take, Nat.min_eq_left (by omega), List.take_append_of_le_length (by omega)]
        have : mx.toNat < (fullD ++ P).length := by rw [List.length_append]; omega
        simp only [this, decide_true]
      · have hall : fullD.take (mx + 1).toNat = fullD := List.take_of_length_le (by omega)
        rw [hall]
        have hyes : ((fullD.length : Int) ≤ mx) := by omega
        rw [if_pos hyes]
        have hev : fullD ++ queryChanges m.ref.changes server (mx + 1 - fullD.length)
            (pendingAfter fullD after) = (fullD ++ P).take (mx.toNat + 1) := by
          rw [hsel, ← take_append_pages fullD P _ (by omega)]
          congr 2
          omega
        rw [hev]
        unfold cutResults page
        rw [List.length_take]
        by_cases hlen2 : mx.toNat < (fullD ++ P).length
        · rw [if_pos (by omega), if_neg (by omega), List.take_take, Nat.min_eq_left (by omega)]
          simp only [hlen2, decide_true]
        · rw [if_neg (by omega), List.take_of_length_le (by omega), List.take_of_length_le (by omega)]
          simp only [hlen2, decide_false]

/-! ### Paging -/

/-- Paging through a query that returns the events after an identifier. -/
theorem pages_exact {query : Option EventId → Except PyErr QueryResult} {held : Event → Prop}
    {server : Int} {n : Nat} (hn : 0 < n) (ok : Option EventId → Prop)
    (hok : ∀ e, held e → e.id.server = server → ok (some e.id))
    (hq : ∀ i, ok i → ∃ full, ServerList held server i full ∧ query i = .ok (page full n))
    (i : Option EventId) (hi : ok i) (full : List Event) (hf : ServerList held server i full) :
    Pages query i full ∧ ∀ r, Pages query i r → r = full := by
  have huniq : ∀ {i : Option EventId} {a b : List Event}, ServerList held server i a →
      ServerList held server i b → a = b := by
    intro i a b ha hb
    refine List.Perm.eq_of_pairwise (le := fun a b : Event => IdLt a.id b.id) ?_ ha.sorted hb.sorted ?_
    · intro a b _ _ h1 h2; exact absurd h2 h1.asymm
    · rw [List.perm_ext_iff_of_nodup]
      · intro x; rw [ha.mem, hb.mem]
      · exact ha.sorted.imp fun hh => by rintro rfl; exact hh.irrefl
      · exact hb.sorted.imp fun hh => by rintro rfl; exact hh.irrefl
  induction hlen : full.length using Nat.strong_induction_on generalizing i full with
  | _ len ih =>
    obtain ⟨full', hf', hqi⟩ := hq i hi
    have := huniq hf hf'; subst this
    unfold page at hqi
    by_cases hlt : n < full.length
    · simp only [hlt, decide_true] at hqi
      -- the last received event
      have htne : full.take n ≠ [] := by
        intro h0
        have := congrArg List.length h0
        rw [List.length_take, List.length_nil] at this; omega
      obtain ⟨x, hx⟩ : ∃ x, (full.take n).getLast? = some x := by
        cases hg : (full.take n).getLast? with
        | none => exact absurd (List.getLast?_eq_none_iff.1 hg) htne
        | some x => exact ⟨x, rfl⟩
      have hxt := List.mem_of_getLast? hx
      have hxm := List.mem_of_mem_take hxt
      obtain ⟨x1, x2, x3⟩ := (hf.mem x).1 hxm
      have hsplit := List.take_append_drop n full
      have hsorted := hf.sorted
      rw [← hsplit, List.pairwise_append] at hsorted
      obtain ⟨p1, p2, p3⟩ := hsorted
      have hxlast : ∀ y ∈ full.take n, IdLe y.id x.id := by
        intro y hy
        obtain ⟨l, hl⟩ := List.getLast?_eq_some_iff.1 hx
        rw [hl] at hy p1
        rw [List.pairwise_append] at p1
        rcases List.mem_append.1 hy with hy | hy
        · exact .inl (p1.2.2 y hy x (by simp))
        · simp only [List.mem_singleton] at hy; subst hy; exact .refl
      have hrest : ServerList held server (some x.id) (full.drop n) := by
        refine ⟨p2, ?_⟩
        intro e
        constructor
        · intro he
          obtain ⟨e1, e2, _⟩ := (hf.mem e).1 (List.mem_of_mem_drop he)
          refine ⟨e1, e2, ?_⟩
          rintro l ⟨⟩
          exact p3 x hxt e he
        · rintro ⟨e1, e2, e3⟩
          have hlt := e3 x.id rfl
          have hm : e ∈ full := (hf.mem e).2 ⟨e1, e2, fun l hl => (x3 l hl).trans hlt⟩
          rw [← hsplit, List.mem_append] at hm
          rcases hm with hm | hm
          · exact absurd (hxlast e hm) (not_idLe.2 hlt)
          · exact hm
      have hlen' : (full.drop n).length < len := by
        rw [List.length_drop, ← hlen]; omega
      obtain ⟨q1, q2⟩ := ih _ hlen' (some x.id) (hok x x1 x2) _ hrest rfl
      constructor
      · have := Pages.more hqi hx q1
        rwa [hsplit] at this
      · intro r hr
        cases hr with
        | last h1 => rw [hqi] at h1; simp at h1
        | more h1 h2 h3 =>
          rw [hqi] at h1
          simp only [Except.ok.injEq, QueryResult.mk.injEq, and_true] at h1
          subst h1
          rw [hx] at h2; cases h2
          rw [q2 _ h3, hsplit]
    · simp only [hlt, decide_false] at hqi
      rw [List.take_of_length_le (Nat.le_of_not_lt hlt)] at hqi
      refine ⟨.last hqi, ?_⟩
      intro r hr
      cases hr with
      | last h1 =>
        rw [hqi] at h1
        simp only [Except.ok.injEq, QueryResult.mk.injEq, and_true] at h1
        exact h1.symm
      | more h1 h2 h3 => rw [hqi] at h1; simp at h1

end HatEvent
