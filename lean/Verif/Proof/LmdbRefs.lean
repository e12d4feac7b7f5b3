import Verif.Proof.LmdbRef

/-! # References point to stored events

For histories in which events that are shown by latest queries stay shown. -/

namespace HatEvent
open Spec

/-- `r` refers to a stored event with the identifier `id`. -/
def RealRef (data : Int → Option Event) (entry : TimeseriesKey → Option Event) (id : EventId) :
    EventRef → Prop
  | .latest k => ∃ e, data k = some e ∧ e.id = id
  | .timeseries k => k.id = id ∧ ∃ e, entry k = some e

/-- The references on the disk. -/
structure DiskRefs (d : Disk) (st : Store) : Prop where
  table : RefTableOk d.ref
  real : ∀ id r, HasRef d.ref id r ↔ RealRef (Dict.get d.latestData) st.entry id r

/-- The references on the disk with the pending changes. -/
structure MemRefs (d : Disk) (m : Mem) (fl cur : Store) : Prop where
  ok : AddedOk m.ref.changes
  real : ∀ id r, RealRef (over m.latest.changes.data d.latestData) cur.entry id r ↔
    (HasRef d.ref id r ∨ PendAdded m.ref.changes id r) ∧ ¬ PendRemoved m.ref.changes id r
  new : ∀ id e refs, addedOf m.ref.changes id = some (e, refs) → e ∈ cur.log ∧ ∀ x ∈ fl.log, x.id ≠ id
  old : ∀ id r, PendRemoved m.ref.changes id r → HasRef d.ref id r ∧ ∃ k, r = .latest k

/-- All events in the slots of known types are shown. -/
def Shown (conf : Conf) (st : Store) : Prop :=
  ∀ t e, st.slot t = some e → conf.latestSub.matches e.type = true → conf.conditions e = true

theorem diskRefs_id {d : Disk} {st : Store} (h : DiskRel d st) (hr : DiskRefs d st) (hs : StoreOk st)
    {id : EventId} {r : EventRef} (hh : HasRef d.ref id r) : ∃ x ∈ st.log, x.id = id := by
  rw [hr.real] at hh
  cases r with
  | latest k =>
    obtain ⟨e, he, hid⟩ := hh
    have := (h.slot e.type e).2 ⟨k, h.data k e he, he⟩
    exact ⟨e, (hs.slotType _ _ this).2, hid⟩
  | timeseries k =>
    obtain ⟨hid, e, he⟩ := hh
    obtain ⟨h1, h2, _⟩ := hs.entryId k e he
    exact ⟨e, h2, h1.symm.trans hid⟩

theorem shown_offer {conf : Conf} {parts : Dict Int Partition} {st : Store} (h : Shown conf st)
    (e : Event) : Shown conf (st.offer conf parts e) := by
  unfold Store.offer
  split
  · next hc =>
    intro t x hx
    simp only at hx
    split at hx
    · next ht => cases hx; exact fun _ => hc.1.2.2
    · exact h t x hx
  · exact h

theorem shown_offers {conf : Conf} {parts : Dict Int Partition} (es : List Event) {st : Store}
    (h : Shown conf st) : Shown conf (es.foldl (Store.offer conf parts) st) := by
  induction es generalizing st with
  | nil => exact h
  | cons e es ih => exact ih (shown_offer h e)

theorem refs_logic {D A R Rm I N : Prop} (f1 : I → ¬ R) (f2 : I → ¬ Rm) (f3 : A → D → False) :
    (((D ∨ A) ∧ ¬ R) ∧ ¬ Rm) ∨ (I ∧ N) ↔
      (D ∨ A ∧ ¬ Rm ∨ I ∧ N) ∧ ¬ (R ∨ Rm ∧ ¬ A) := by tauto

theorem store_refs {conf : Conf} (hc : LookupLaw conf) {d : Disk} {m m' : Mem}
    {parts : Dict Int Partition} {fl cur : Store} (hs : StoreOk cur) (hsf : StoreOk fl)
    (hd : DiskRel d fl) (hdr : DiskRefs d fl) (h : MemRel conf d m parts fl cur)
    (hr : MemRefs d m fl cur) (hv : Shown conf cur) {e : Event} (ha : Admissible conf cur e)
    (hpl : ToLatest conf cur e ∨ ∃ k, InSeries parts e k) (hm : storeEvent conf m e = .ok m') :
    MemRefs d m' fl (cur.offer conf parts e) := by
  have hoff := offer_stored ⟨ha, hpl⟩
  obtain ⟨t1, t2, t3, t4, t5⟩ :=
    timeseriesAdd_spec e (conf.lookup parts e.type) m.timeseries.changes h.ts.nod
  have htsadd : m.timeseries.add conf e =
      (⟨parts, (timeseriesAdd e (conf.lookup parts e.type) m.timeseries.changes).1⟩,
        (seriesNew e (conf.lookup parts e.type)).map fun x => .timeseries x.1) := by
    unfold TimeseriesDb.add
    simp only [h.partsEq, t3]
  have hmemts : ∀ r : EventRef, (r ∈ (seriesNew e (conf.lookup parts e.type)).map
      fun x => EventRef.timeseries x.1) ↔ ∃ k, r = .timeseries k ∧ InSeries parts e k := by
    intro r
    simp only [List.mem_map, mem_seriesNew_lookup hc h.partsIn]
    constructor
    · rintro ⟨x, ⟨h1, h2⟩, rfl⟩; exact ⟨x.1, rfl, h2⟩
    · rintro ⟨k, rfl, hk⟩; exact ⟨(k, e), ⟨rfl, hk⟩, rfl⟩
  obtain ⟨pend, hp, _⟩ := h.pend
  have hsub : ∀ x ∈ fl.log, x ∈ cur.log := by
    intro x hx; rw [hp]; exact List.mem_append_left _ hx
  have hfresh : ∀ x ∈ cur.log, x.id ≠ e.id := fun x hx => admissible_fresh hs ha hx
  -- an added event is not on the disk
  have hAD : ∀ id r r', PendAdded m.ref.changes id r → HasRef d.ref id r' → False := by
    intro id r r' h1 h2
    obtain ⟨x, hx, hid⟩ := diskRefs_id hd hdr hsf h2
    rw [pendAdded_iff] at h1
    obtain ⟨e', refs, h3, _⟩ := h1
    exact (hr.new id e' refs h3).2 x hx hid
  -- the general argument
  have main : ∀ (Rm : EventId → EventRef → Prop) (refs : List EventRef) (ch1 : RefDb) (rd : RefDb)
      (data' : Int → Option Event),
      (∀ id r, Rm id r → (∃ p ∈ cur.log, p.id = id) ∧ (∃ k, r = .latest k) ∧
        RealRef (over m.latest.changes.data d.latestData) cur.entry id r) →
      AddedOk ch1.changes →
      (∀ id r, PendAdded ch1.changes id r ↔ PendAdded m.ref.changes id r ∧ ¬ Rm id r) →
      (∀ id r, PendRemoved ch1.changes id r ↔
        PendRemoved m.ref.changes id r ∨ (Rm id r ∧ ¬ PendAdded m.ref.changes id r)) →
      (∀ id e refs, addedOf ch1.changes id = some (e, refs) →
        ∃ refs', addedOf m.ref.changes id = some (e, refs')) →
      refs ≠ [] → ch1.add e refs = .ok rd →
      (∀ id r, RealRef data' (cur.offer conf parts e).entry id r ↔
        (RealRef (over m.latest.changes.data d.latestData) cur.entry id r ∧ ¬ Rm id r) ∨
          (id = e.id ∧ r ∈ refs)) →
      m'.ref = rd → over m'.latest.changes.data d.latestData = data' →
      MemRefs d m' fl (cur.offer conf parts e) := by
    intro Rm refs ch1 rd data' hRm hok hA hR hsubA hne hadd hreal hmr hmd
    have hnew : ∀ sc, Dict.get ch1.changes e.id.server = some sc → ∀ x ∈ sc.added, IdLt x.1 e.id := by
      intro sc hsc x hx
      have hg := Dict.get_of_mem (hok.nodup hsc) hx
      have hsrv := hok.added _ _ hsc _ _ hg
      have hao : addedOf ch1.changes x.1 = some (x.2.1, x.2.2) := by
        unfold addedOf; rw [hsrv, hsc]; exact hg
      obtain ⟨refs', h1⟩ := hsubA _ _ _ hao
      have h2 := (hr.new _ _ _ h1).1
      have h3 := (hr.ok.event _ _ _ h1).1
      rw [← h3]
      exact (admissible_new hs ha h2 (by rw [h3, hsrv])).1
    obtain ⟨a1, a2, a3, a4⟩ := refAdd_spec hok hne hnew hadd
    subst hmr
    refine ⟨a1, ?_, ?_, ?_⟩
    · intro id r
      rw [hmd, hreal, a2, a3, hA, hR, hr.real]
      have f1 : id = e.id → ¬ PendRemoved m.ref.changes id r := by
        intro hid hpr
        obtain ⟨x, hx, hx'⟩ := diskRefs_id hd hdr hsf (hr.old id r hpr).1
        exact hfresh x (hsub x hx) (hx'.trans hid)
      have f2 : id = e.id → ¬ Rm id r := by
        intro hid hrm
        obtain ⟨p, hp1, hp2⟩ := (hRm id r hrm).1
        exact hfresh p hp1 (hp2.trans hid)
      have := refs_logic (N := r ∈ refs) f1 f2 (hAD id r r)
      rw [this]
    · intro id x rs hx
      rw [a4] at hx
      split at hx
      · next hid =>
        cases hx
        refine ⟨by rw [hoff]; simp, ?_⟩
        intro y hy hyid
        exact hfresh y (hsub y hy) (hyid.trans hid)
      · obtain ⟨refs', h1⟩ := hsubA _ _ _ hx
        obtain ⟨h2, h3⟩ := hr.new _ _ _ h1
        exact ⟨by rw [hoff]; simp [h2], h3⟩
    · intro id r hpr
      rw [a3, hR] at hpr
      rcases hpr with hpr | ⟨hrm, hna⟩
      · exact hr.old id r hpr
      · obtain ⟨_, h2, h3⟩ := hRm id r hrm
        rw [hr.real] at h3
        exact ⟨h3.1.resolve_right hna, h2⟩
  have hentry : ∀ k, (∃ x, (cur.offer conf parts e).entry k = some x) ↔
      (∃ x, cur.entry k = some x) ∨ InSeries parts e k := by
    intro k
    rw [hoff]
    simp only
    by_cases hk : InSeries parts e k
    · simp [hk]
    · simp [hk]
  unfold storeEvent at hm
  rcases latestRel_add h.latest e ha.2.2 with ⟨hl, hadd⟩ | ⟨hl, db', k, hadd, hk1, hk2, hk3, hrel⟩
  · simp only [hadd, htsadd, Option.toList_none, List.nil_append, RefDb.removeRef] at hm
    have hne : (seriesNew e (conf.lookup parts e.type)).map (fun x => EventRef.timeseries x.1) ≠ [] := by
      obtain ⟨k, hk⟩ := hpl.resolve_left hl
      intro hnil
      have := (hmemts (.timeseries k)).2 ⟨k, rfl, hk⟩
      rw [hnil] at this; simp at this
    rw [if_neg hne] at hm
    obtain ⟨rd, hrd, hm⟩ := bind_ok hm
    simp only [pure_ok, Except.ok.injEq] at hm
    refine main (fun _ _ => False) _ m.ref rd _ (by simp) hr.ok (by simp) (by simp)
      (fun id e refs hx => ⟨refs, hx⟩) hne hrd ?_ (by rw [← hm]) (by rw [← hm])
    intro id r
    rw [hmemts]
    cases r with
    | latest k => simp [RealRef]
    | timeseries k =>
      simp only [RealRef, hentry, EventRef.timeseries.injEq, exists_eq_left', not_false_eq_true,
        and_true]
      constructor
      · rintro ⟨h1, h2 | h2⟩
        · exact .inl ⟨h1, h2⟩
        · exact .inr ⟨h1.symm.trans h2.1, h2⟩
      · rintro (⟨h1, h2⟩ | ⟨h1, h2⟩)
        · exact ⟨h1, .inl h2⟩
        · exact ⟨h2.1.trans h1.symm, .inr h2⟩
  · simp only [hadd, htsadd, Option.toList_some, List.cons_append, List.nil_append] at hm
    have hne : EventRef.latest k :: (seriesNew e (conf.lookup parts e.type)).map
        (fun x => EventRef.timeseries x.1) ≠ [] := by simp
    rw [if_neg hne] at hm
    obtain ⟨rd, hrd, hm⟩ := bind_ok hm
    simp only [pure_ok, Except.ok.injEq] at hm
    -- the value of the slot is the value of the key
    have hslot : ∀ x, over m.latest.changes.data d.latestData k = some x ↔ cur.slot e.type = some x := by
      have hinj : ∀ k', over db'.changes.types d.latestType k' = some e.type → k' = k := by
        intro k' hk'
        have hrel' := hrel (fun t => if t = e.type then some e else cur.slot t) (fun _ => rfl)
        have h1 := (hrel'.refs e.type k').2 hk'
        have h2 := (hrel'.refs e.type k).2 hk1
        rw [h1] at h2; exact Option.some.inj h2
      intro x
      constructor
      · intro hx
        have h1 := h.latest.data k x hx
        have h2 := hk3 _ _ h1
        rw [hk1] at h2
        rw [Option.some.inj h2]
        exact (h.latest.slot _ _).2 ⟨k, h1, hx⟩
      · intro hx
        obtain ⟨k', h1, h2⟩ := (h.latest.slot _ _).1 hx
        rw [hinj k' (hk3 _ _ h1)] at h2; exact h2
    have hev : ∀ x, Dict.get m.latest.events e.type = some x ↔ cur.slot e.type = some x := by
      intro x
      rw [h.latest.events]
      refine ⟨fun hx => hx.1, fun hx => ⟨hx, ?_⟩⟩
      have hxs : conf.latestSub.matches x.type = true := by
        rw [(hs.slotType _ _ hx).1]; exact hl.1
      exact ⟨hv _ _ hx hxs, hxs⟩
    have hreal : ∀ id r, RealRef (over db'.changes.data d.latestData)
        (cur.offer conf parts e).entry id r ↔
        (RealRef (over m.latest.changes.data d.latestData) cur.entry id r ∧
          ¬ (r = .latest k ∧ ∃ p, cur.slot e.type = some p ∧ p.id = id)) ∨
          (id = e.id ∧ r ∈ EventRef.latest k :: (seriesNew e (conf.lookup parts e.type)).map
            (fun x => EventRef.timeseries x.1)) := by
      intro id r
      rw [List.mem_cons, hmemts]
      cases r with
      | latest k' =>
        simp only [RealRef, hk2, EventRef.latest.injEq, reduceCtorEq, false_and, exists_false, or_false]
        by_cases hk : k = k'
        · subst hk
          simp only [hslot]
          simp [eq_comm]
        · have : ¬ k' = k := fun x => hk x.symm
          simp [hk, this]
      | timeseries k' =>
        simp only [RealRef, hentry, EventRef.timeseries.injEq, exists_eq_left', reduceCtorEq, false_and,
          not_false_eq_true, and_true, false_or]
        constructor
        · rintro ⟨h1, h2 | h2⟩
          · exact .inl ⟨h1, h2⟩
          · exact .inr ⟨h1.symm.trans h2.1, h2⟩
        · rintro (⟨h1, h2⟩ | ⟨h1, h2⟩)
          · exact ⟨h1, .inl h2⟩
          · exact ⟨h2.1.trans h1.symm, .inr h2⟩
    have hRm : ∀ id r, (r = EventRef.latest k ∧ ∃ p, cur.slot e.type = some p ∧ p.id = id) →
        (∃ p ∈ cur.log, p.id = id) ∧ (∃ k, r = .latest k) ∧
        RealRef (over m.latest.changes.data d.latestData) cur.entry id r := by
      rintro id r ⟨rfl, p, hp1, hp2⟩
      exact ⟨⟨p, (hs.slotType _ _ hp1).2, hp2⟩, ⟨k, rfl⟩, p, (hslot p).2 hp1, hp2⟩
    cases hsl : cur.slot e.type with
    | none =>
      have hnone : Dict.get m.latest.events e.type = none := by
        cases hx : Dict.get m.latest.events e.type with
        | none => rfl
        | some x => rw [hev, hsl] at hx; simp at hx
      rw [hnone] at hrd
      refine main _ _ m.ref rd _ hRm hr.ok ?_ ?_ (fun id e refs hx => ⟨refs, hx⟩) hne hrd hreal
        (by rw [← hm]) (by rw [← hm])
      · simp [hsl]
      · simp [hsl]
    | some p =>
      have hsome : Dict.get m.latest.events e.type = some p := (hev p).2 hsl
      rw [hsome] at hrd
      obtain ⟨b1, b2, b3, b4⟩ := refRemove_spec hr.ok p.id (.latest k)
      refine main _ _ (m.ref.remove p.id (.latest k)) rd _ hRm b1 ?_ ?_ b4 hne hrd hreal
        (by rw [← hm]) (by rw [← hm])
      · intro id r
        rw [b2, hsl]
        simp only [Option.some.injEq, exists_eq_left']
        constructor
        · rintro ⟨h1, h2⟩; exact ⟨h1, fun hx => h2 ⟨hx.2.symm, hx.1⟩⟩
        · rintro ⟨h1, h2⟩; exact ⟨h1, fun hx => h2 ⟨hx.2, hx.1.symm⟩⟩
      · intro id r
        rw [b3, hsl]
        simp only [Option.some.injEq, exists_eq_left']
        constructor
        · rintro (h1 | ⟨rfl, rfl, h3⟩)
          · exact .inl h1
          · exact .inr ⟨⟨rfl, rfl⟩, h3⟩
        · rintro (h1 | ⟨⟨rfl, rfl⟩, h3⟩)
          · exact .inl h1
          · exact .inr ⟨rfl, rfl, h3⟩

theorem register_refs {conf : Conf} (hc : LookupLaw conf) {d : Disk} {m m' : Mem}
    {parts : Dict Int Partition} {fl cur : Store} (hs : StoreOk cur) (hsf : StoreOk fl)
    (hd : DiskRel d fl) (hdr : DiskRefs d fl) (h : MemRel conf d m parts fl cur)
    (hr : MemRefs d m fl cur) (hv : Shown conf cur) (es : List Event)
    (hm : m.register conf es = .ok m') :
    MemRefs d m' fl (es.foldl (Store.offer conf parts) cur) := by
  have key : ∀ (es : List Event) (m m' : Mem) (cur : Store), StoreOk cur →
      MemRel conf d m parts fl cur → MemRefs d m fl cur → Shown conf cur →
      es.foldlM (registerEvent conf) m = .ok m' →
      MemRefs d m' fl (es.foldl (Store.offer conf parts) cur) := by
    intro es
    induction es with
    | nil => intro m m' cur _ _ hr _ hm; cases hm; exact hr
    | cons e es ih =>
      intro m m' cur hs h hr hv hm
      rw [List.foldlM_cons] at hm
      obtain ⟨m1, h1, hm⟩ := bind_ok hm
      obtain ⟨m2, h2, h3, h4⟩ := registerEvent_rel hc hs h e
      rw [h1] at h2; cases h2
      rw [List.foldl_cons]
      refine ih m1 m' _ (storeOk_offer hs e) h3 ?_ (shown_offer hv e) hm
      rcases h4 with ⟨h5, h6⟩ | ⟨h5, h6, h7⟩
      · rw [h5, h6]; exact hr
      · exact store_refs hc hs hsf hd hdr h hr hv h5 h6 h7
  unfold Mem.register at hm
  obtain ⟨m1, h1, hm⟩ := bind_ok hm
  simp only [pure_ok, Except.ok.injEq] at hm
  obtain ⟨a1, a2, a3, a4⟩ := key es m m1 cur hs h hr hv h1
  subst hm
  exact ⟨a1, a2, a3, a4⟩

theorem diskRefs_empty : DiskRefs .empty .empty := by
  refine ⟨⟨.nil, by simp [Disk.empty]⟩, ?_⟩
  intro id r
  cases r <;> simp [HasRef, RealRef, Disk.empty, Store.empty]

theorem memRefs_of_disk {d : Disk} {m : Mem} {st : Store} (h : DiskRefs d st)
    (h1 : m.ref.changes = []) (h2 : m.latest.changes.data = []) : MemRefs d m st st := by
  refine ⟨by rw [h1]; exact addedOk_nil, ?_, by rw [h1]; simp [addedOf], by rw [h1]; simp [PendRemoved]⟩
  intro id r
  rw [h1, h2, h.real]
  have : over [] d.latestData = Dict.get d.latestData := by funext k; rfl
  rw [this]
  simp [PendAdded, PendRemoved]

theorem flush_refs {conf : Conf} {d d' : Disk} {m : Mem} {parts : Dict Int Partition} {fl cur : Store}
    (hdr : DiskRefs d fl) (hm : MemRel conf d m parts fl cur)
    (hr : MemRefs d m fl cur) (hf : extFlush d m.createChanges.1 = .ok d') :
    DiskRefs d' cur ∧ MemRefs d' { m.createChanges.2 with registered := [] } cur cur := by
  have hdisk : DiskRefs d' cur := by
    obtain ⟨ids, tss, data, types, tsd, counts, ref, h1, h2, h3, h4, h5, h6, h7, rfl⟩ := extFlush_ok hf
    have e3 := (Table.write_eq h3).1
    simp only [Mem.createChanges] at *
    have g3 : Dict.get data = over m.latest.changes.data d.latestData := by
      funext k; rw [e3, get_puts' hm.latest.nodData]
    obtain ⟨r1, r2⟩ := refWrite_spec hr.ok.toChangesOk hdr.table h7
    refine ⟨r1, ?_⟩
    intro id r
    simp only
    rw [r2, g3, hr.real]
  exact ⟨hdisk, memRefs_of_disk hdisk rfl rfl⟩

theorem cleanup_refs {d d' : Disk} {m : Mem} {fl cur : Store} {rem : List TimeseriesKey}
    (hd : DiskRel d fl) (hsf : StoreOk fl)
    (hdr : DiskRefs d fl) (hr : MemRefs d m fl cur)
    (hrem : ∀ k ∈ rem, ∃ e, fl.entry k = some e)
    (hform : (rem = [] ∧ d' = d) ∨ ∃ counts ref, refCleanup d.ref rem = .ok ref ∧
      d' = { d with tsData := d.tsData.filter (fun x => x.1 ∉ rem), tsCount := counts, ref := ref }) :
    DiskRefs d' (fl.drop (· ∈ rem)) ∧ MemRefs d' m (fl.drop (· ∈ rem)) (cur.drop (· ∈ rem)) := by
  have href : RefTableOk d'.ref ∧ ∀ id r, HasRef d'.ref id r ↔ HasRef d.ref id r ∧
      ¬ ∃ k ∈ rem, k.id = id ∧ r = .timeseries k := by
    rcases hform with ⟨rfl, rfl⟩ | ⟨counts, ref, h1, rfl⟩
    · exact ⟨hdr.table, by simp⟩
    · exact refCleanup_spec hdr.table h1
  have hdata : d'.latestData = d.latestData := by
    rcases hform with ⟨_, rfl⟩ | ⟨_, _, _, rfl⟩ <;> rfl
  have hreal : ∀ (data : Int → Option Event) (st : Store) id r,
      RealRef data (st.drop (· ∈ rem)).entry id r ↔ RealRef data st.entry id r ∧
        ¬ ∃ k ∈ rem, k.id = id ∧ r = .timeseries k := by
    intro data st id r
    cases r with
    | latest k => simp [RealRef]
    | timeseries k =>
      simp only [RealRef, Store.drop, EventRef.timeseries.injEq]
      by_cases hk : k ∈ rem
      · simp only [hk, if_true]
        constructor
        · rintro ⟨_, _, hx⟩; simp at hx
        · rintro ⟨⟨h1, _⟩, h2⟩
          exact absurd ⟨k, hk, h1, rfl⟩ h2
      · simp only [hk, if_false, iff_self_and]
        rintro _ ⟨k', h1, _, rfl⟩
        exact hk h1
  refine ⟨⟨href.1, ?_⟩, ⟨hr.ok, ?_, ?_, ?_⟩⟩
  · intro id r
    rw [href.2, hdr.real, hdata, hreal]
  · intro id r
    rw [hdata, hreal, href.2, hr.real]
    have f1 : PendAdded m.ref.changes id r → ¬ ∃ k ∈ rem, k.id = id ∧ r = .timeseries k := by
      rintro hpa ⟨k, hk, rfl, rfl⟩
      obtain ⟨e, he⟩ := hrem k hk
      have hh : HasRef d.ref k.id (.timeseries k) := (hdr.real _ _).2 ⟨rfl, e, he⟩
      obtain ⟨x, hx, hxid⟩ := diskRefs_id hd hdr hsf hh
      rw [pendAdded_iff] at hpa
      obtain ⟨_, _, h3, _⟩ := hpa
      exact (hr.new _ _ _ h3).2 x hx hxid
    generalize (∃ k ∈ rem, k.id = id ∧ r = EventRef.timeseries k) = P at f1 ⊢
    clear hreal href hrem hform
    tauto
  · intro id e refs hx
    exact hr.new id e refs hx
  · intro id r hx
    obtain ⟨h1, k, rfl⟩ := hr.old id r hx
    exact ⟨(href.2 _ _).2 ⟨h1, by simp⟩, k, rfl⟩

/-- What holds of a backend if visible events stay visible. -/
structure WorldRefs (b : Backend) (w : World) : Prop where
  disk : DiskRefs b.disk w.flushed
  shownF : Shown w.conf w.flushed
  shownC : Shown w.conf w.cur
  opened : ∀ m, b.mem = some m → MemRefs b.disk m w.flushed w.cur

theorem step_refs {b : Backend} {w : World} (h : WorldRel b w) (hlc : b.mem ≠ none → LookupLaw b.conf)
    (hr : WorldRefs b w) (op : BackendOp) (hop : ∀ c, op = .reopen c → Shown c w.flushed) :
    ∃ w', Step w op w' ∧ WorldRel (b.step op) w' ∧ WorldRefs (b.step op) w' := by
  have hst := stepTo b op
  generalize b.step op = b' at hst
  cases hst with
  | closed h1 h2 => exact ⟨w, .closed (h.closed h1).1 h2, h, hr⟩
  | register h1 h2 =>
    obtain ⟨ho, hm⟩ := h.opened _ h1
    have hl := hlc (by simp [h1])
    rw [h.conf] at hl h2
    obtain ⟨m3, h3, h4⟩ := register_rel hl h.okC hm _
    rw [h2] at h3; cases h3
    refine ⟨_, .register ho, ⟨h.conf, h.disk, h.okF, storeOk_offers _ h.okC, ?_, by simp⟩,
      ⟨hr.disk, hr.shownF, shown_offers _ hr.shownC, ?_⟩⟩
    · rintro m2 ⟨⟩
      exact ⟨ho, h4⟩
    · rintro m2 ⟨⟩
      exact register_refs hl h.okC h.okF h.disk hr.disk hm (hr.opened _ h1) hr.shownC _ h2
  | registerFail h1 h2 =>
    obtain ⟨ho, hm⟩ := h.opened _ h1
    have hl := hlc (by simp [h1])
    rw [h.conf] at hl h2
    obtain ⟨m3, h3, h4⟩ := register_rel hl h.okC hm _
    rw [h2] at h3; simp at h3
  | touch h1 =>
    obtain ⟨ho, hm⟩ := h.opened _ h1
    refine ⟨w, .touch ho, ⟨h.conf, h.disk, h.okF, h.okC, ?_, by simp⟩,
      ⟨hr.disk, hr.shownF, hr.shownC, ?_⟩⟩
    · rintro m2 ⟨⟩
      exact ⟨ho, touch_rel hm _⟩
    · rintro m2 ⟨⟩
      obtain ⟨a1, a2, a3, a4⟩ := hr.opened _ h1
      exact ⟨a1, a2, a3, a4⟩
  | flush h1 h2 =>
    obtain ⟨ho, hm⟩ := h.opened _ h1
    obtain ⟨h3, h4⟩ := flush_rel h.disk hm h2
    obtain ⟨h5, h6⟩ := flush_refs hr.disk hm (hr.opened _ h1) h2
    refine ⟨_, .flush ho, ⟨h.conf, h3, h.okC, h.okC, ?_, by simp⟩, ⟨h5, hr.shownC, hr.shownC, ?_⟩⟩
    · rintro m2 ⟨⟩
      exact ⟨ho, h4⟩
    · rintro m2 ⟨⟩
      exact h6
  | flushFail h1 h2 =>
    obtain ⟨ho, hm⟩ := h.opened _ h1
    exact ⟨_, .flushFail ho, ⟨h.conf, h.disk, h.okF, h.okF, by simp, by simp⟩,
      ⟨hr.disk, hr.shownF, hr.shownF, by simp⟩⟩
  | cleanup h1 h2 =>
    obtain ⟨ho, hm⟩ := h.opened _ h1
    obtain ⟨rem, ⟨r1, _⟩, r2, r3, r4, r5, _, _, r6⟩ := cleanup_rel h.disk hm h2
    obtain ⟨h5, h6⟩ := cleanup_refs h.disk h.okF hr.disk (hr.opened _ h1) (fun k hk => (r2 k hk).1) r6
    refine ⟨_, .cleanup (· ∈ rem) ho r2, ⟨h.conf, r4, storeOk_drop h.okF _, storeOk_drop h.okC _, ?_, ?_⟩,
      ⟨h5, hr.shownF, hr.shownC, ?_⟩⟩
    · intro m2 hm2
      simp only at hm2
      rw [h1] at hm2; cases hm2
      exact ⟨ho, r5⟩
    · intro hn; simp only at hn; rw [h1] at hn; simp at hn
    · intro m2 hm2
      simp only at hm2
      rw [h1] at hm2; cases hm2
      exact h6
  | cleanupFail h1 h2 =>
    obtain ⟨ho, hm⟩ := h.opened _ h1
    exact ⟨_, .cleanupFail ho, ⟨h.conf, h.disk, h.okF, h.okF, by simp, by simp⟩,
      ⟨hr.disk, hr.shownF, hr.shownF, by simp⟩⟩
  | reopen h1 =>
    obtain ⟨h2, h3, h4⟩ := reopen_rel h.disk h.okF h1
    have hs := hop _ rfl
    obtain ⟨s, p, _, _, rfl, rfl⟩ := createDbs_ok h1
    have hd : DiskRefs { b.disk with settings := s, tsPartition := p.table } w.flushed :=
      ⟨hr.disk.table, hr.disk.real⟩
    refine ⟨_, .reopen h3, ⟨rfl, h2, h.okF, h.okF, ?_, by simp⟩, ⟨hd, hs, hs, ?_⟩⟩
    · rintro m2 ⟨⟩
      exact ⟨rfl, h4⟩
    · rintro m2 ⟨⟩
      exact memRefs_of_disk hd rfl rfl
  | reopenFail h1 =>
    have hs := hop _ rfl
    exact ⟨_, .reopenFail, ⟨rfl, h.disk, h.okF, h.okF, by simp, by simp⟩,
      ⟨hr.disk, hs, hs, by simp⟩⟩

end HatEvent
