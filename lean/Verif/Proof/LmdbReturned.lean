import Verif.Proof.LmdbSeries
import Verif.Props.Event

/-!
# Events returned by queries, newest events
-/

namespace HatEvent
open Spec

/-! ### Pending changes of the reference database contain stored events -/

def AddedIn (ch : RefChanges) (log : List Event) : Prop :=
  ∀ x ∈ ch, ∀ y ∈ x.2.added, y.2.1 ∈ log

theorem mem_dict_set {κ υ : Type} [DecidableEq κ] {d : Dict κ υ} {k : κ} {v : υ} {x : κ × υ}
    (h : x ∈ Dict.set d k v) : x ∈ d ∨ x = (k, v) := by
  induction d with
  | nil => simp [Dict.set] at h; exact .inr h
  | cons p d ih =>
    obtain ⟨a, b⟩ := p
    unfold Dict.set at h
    split at h
    · rcases List.mem_cons.1 h with h | h
      · exact .inr h
      · exact .inl (List.mem_cons_of_mem _ h)
    · rcases List.mem_cons.1 h with h | h
      · exact .inl (by rw [h]; simp)
      · rcases ih h with h | h
        · exact .inl (List.mem_cons_of_mem _ h)
        · exact .inr h

theorem mem_dict_del {κ υ : Type} [DecidableEq κ] {d : Dict κ υ} {k : κ} {x : κ × υ}
    (h : x ∈ Dict.del d k) : x ∈ d := by
  induction d with
  | nil => exact h
  | cons p d ih =>
    obtain ⟨a, b⟩ := p
    unfold Dict.del at h
    split at h
    · exact List.mem_cons_of_mem _ (ih h)
    · rcases List.mem_cons.1 h with h | h
      · rw [h]; simp
      · exact List.mem_cons_of_mem _ (ih h)

theorem addedIn_getD {ch : RefChanges} {log : List Event} (h : AddedIn ch log) (s : Int) :
    ∀ y ∈ ((Dict.get ch s).getD .empty).added, y.2.1 ∈ log := by
  cases hg : Dict.get ch s with
  | none => simp [ServerChanges.empty]
  | some sc => exact h (s, sc) (Dict.mem_of_get hg)

theorem addedIn_set {ch : RefChanges} {log : List Event} (h : AddedIn ch log) (s : Int)
    (sc : ServerChanges) (hs : ∀ y ∈ sc.added, y.2.1 ∈ log) : AddedIn (Dict.set ch s sc) log := by
  intro x hx
  rcases mem_dict_set hx with hx | rfl
  · exact h x hx
  · exact hs

theorem addedIn_remove {db : RefDb} {log : List Event} (h : AddedIn db.changes log)
    (r : Option (EventId × EventRef)) : AddedIn (db.removeRef r).changes log := by
  cases r with
  | none => exact h
  | some p =>
    obtain ⟨i, ref⟩ := p
    refine addedIn_set h _ _ ?_
    have h0 := addedIn_getD h i.server
    generalize (Dict.get db.changes i.server).getD .empty = sc at h0
    intro y hy
    unfold ServerChanges.remove at hy
    simp only at hy
    split at hy
    · next event refs hg =>
      split at hy
      · split at hy
        · exact h0 y (mem_dict_del hy)
        · rcases mem_dict_set hy with hy | rfl
          · exact h0 y hy
          · have := h0 _ (Dict.mem_of_get hg); exact this
      · exact h0 y hy
    · exact h0 y hy

theorem addedIn_mono {ch : RefChanges} {log log' : List Event} (h : AddedIn ch log)
    (hl : ∀ e ∈ log, e ∈ log') : AddedIn ch log' :=
  fun x hx y hy => hl _ (h x hx y hy)

theorem addedIn_add {db db' : RefDb} {log : List Event} {e : Event} {refs : List EventRef}
    (h : AddedIn db.changes log) (he : e ∈ log) (ha : db.add e refs = .ok db') :
    AddedIn db'.changes log := by
  unfold RefDb.add at ha
  rcases ite_cases ha with ⟨_, ha⟩ | ⟨_, ha⟩
  · simp at ha
  · cases ha
    refine addedIn_set h _ _ ?_
    intro y hy
    rcases mem_dict_set hy with hy | rfl
    · exact addedIn_getD h _ y hy
    · exact he

theorem registerEvent_added {conf : Conf} (hc : LookupLaw conf) {d : Disk} {m m' : Mem}
    {parts : Dict Int Partition} {fl cur : Store} (hs : StoreOk cur) (h : MemRel conf d m parts fl cur)
    (ha : AddedIn m.ref.changes cur.log) (e : Event) (he : registerEvent conf m e = .ok m') :
    AddedIn m'.ref.changes (cur.offer conf parts e).log := by
  obtain ⟨m2, h2, h3, h4⟩ := registerEvent_rel hc hs h e
  rw [he] at h2; cases h2
  rcases h4 with ⟨h5, h6⟩ | ⟨h5, h6, h7⟩
  · rw [h5, h6]; exact ha
  · rw [offer_stored ⟨h5, h6⟩]
    simp only
    have ha' : AddedIn m.ref.changes (cur.log ++ [e]) := addedIn_mono ha (by simp +contextual)
    unfold storeEvent at h7
    simp only at h7
    split at h7
    · cases h7
      exact addedIn_remove ha' _
    · obtain ⟨r, h8, h9⟩ := bind_ok h7
      cases h9
      exact addedIn_add (addedIn_remove ha' _) (by simp) h8

theorem register_added {conf : Conf} (hc : LookupLaw conf) {d : Disk} {m m' : Mem}
    {parts : Dict Int Partition} {fl cur : Store} (hs : StoreOk cur) (h : MemRel conf d m parts fl cur)
    (ha : AddedIn m.ref.changes cur.log) (es : List Event) (hm : m.register conf es = .ok m') :
    AddedIn m'.ref.changes (es.foldl (Store.offer conf parts) cur).log := by
  have key : ∀ (es : List Event) (m m' : Mem) (cur : Store), StoreOk cur →
      MemRel conf d m parts fl cur → AddedIn m.ref.changes cur.log →
      es.foldlM (registerEvent conf) m = .ok m' →
      AddedIn m'.ref.changes (es.foldl (Store.offer conf parts) cur).log := by
    intro es
    induction es with
    | nil => intro m m' cur _ _ hr hm; cases hm; exact hr
    | cons e es ih =>
      intro m m' cur hs h hr hm
      rw [List.foldlM_cons] at hm
      obtain ⟨m1, h1, hm⟩ := bind_ok hm
      obtain ⟨m2, h2, h3, h4⟩ := registerEvent_rel hc hs h e
      rw [h1] at h2; cases h2
      rw [List.foldl_cons]
      exact ih m1 m' _ (storeOk_offer hs e) h3 (registerEvent_added hc hs h hr e h1) hm
  unfold Mem.register at hm
  obtain ⟨m1, h1, hm⟩ := bind_ok hm
  simp only [pure_ok, Except.ok.injEq] at hm
  have := key es m m1 cur hs h ha h1
  subst hm
  exact this

/-- Everything known about the backend after a history. -/
structure Reached (conf : Conf) (ops : List BackendOp) (w : World) : Prop where
  run : Run conf ops w
  rel : WorldRel ((Backend.new conf).run ops) w
  added : ∀ m, ((Backend.new conf).run ops).mem = some m → AddedIn m.ref.changes w.cur.log

theorem step_added {b : Backend} {w w' : World} (h : WorldRel b w) (hlc : b.mem ≠ none → LookupLaw b.conf)
    {op : BackendOp} (hs : Step w op w') (h' : WorldRel (b.step op) w')
    (ha : ∀ m, b.mem = some m → AddedIn m.ref.changes w.cur.log) :
    ∀ m, (b.step op).mem = some m → AddedIn m.ref.changes w'.cur.log := by
  have hst := stepTo b op
  generalize b.step op = b' at hst h'
  have hopen : ∀ m, b.mem = some m → w.isOpen = true := fun m hm => (h.opened m hm).1
  intro m' hm'
  have hopen' := (h'.opened m' hm').1
  cases hst with
  | closed h1 h2 => rw [h1] at hm'; simp at hm'
  | register h1 h2 =>
    cases hm'
    cases hs with
    | closed h3 _ => rw [hopen _ h1] at h3; simp at h3
    | register _ =>
      have hl := hlc (by simp [h1])
      rw [h.conf] at hl h2
      exact register_added hl h.okC (h.opened _ h1).2 (ha _ h1) _ h2
  | registerFail h1 h2 => simp at hm'
  | touch h1 =>
    cases hm'
    cases hs with
    | closed h3 _ => have := ha _ h1; exact this
    | touch _ => have := ha _ h1; exact this
  | flush h1 h2 =>
    cases hm'
    intro x hx
    simp [Mem.createChanges] at hx
  | flushFail h1 h2 => simp at hm'
  | cleanup h1 h2 =>
    simp only at hm'
    cases hs with
    | closed h3 _ => exact ha _ hm'
    | cleanup r _ _ => exact ha _ hm'
    | cleanupFail _ => simp at hopen'
  | cleanupFail h1 h2 => simp at hm'
  | reopen h1 =>
    cases hm'
    obtain ⟨s, p, _, hp, rfl, rfl⟩ := createDbs_ok h1
    intro x hx
    simp at hx
  | reopenFail h1 => simp at hm'

theorem reached (conf : Conf) (ops : List BackendOp) (hl : LookupLaws ops) :
    ∃ w, Reached conf ops w := by
  induction ops using List.reverseRecOn with
  | nil => exact ⟨_, .nil, worldRel_new conf, by simp [Backend.run, Backend.new]⟩
  | append_singleton ops op ih =>
    obtain ⟨w, h1, h2, h3⟩ := ih (fun c hc => hl c (by simp [hc]))
    have hlc : ((Backend.new conf).run ops).mem ≠ none → LookupLaw ((Backend.new conf).run ops).conf :=
      fun hm => hl _ (by have := run_conf conf ops hm; simp [this])
    obtain ⟨w', h4, h5⟩ := step_rel h2 hlc op
    refine ⟨w', .snoc h1 h4 (by rw [run_snoc]; exact h5.isOpen), by rw [run_snoc]; exact h5, ?_⟩
    rw [run_snoc]
    exact step_added h2 hlc h4 h5 h3

theorem reached_refs (conf : Conf) (ops : List BackendOp) (hl : LookupLaws ops) (hk : KeepsAccepted ops) :
    ∃ w, Reached conf ops w ∧ WorldRefs ((Backend.new conf).run ops) w := by
  obtain ⟨w, h1, h2, h3⟩ := run_refs conf ops hl hk
  refine ⟨w, ⟨h1, h2, ?_⟩, h3⟩
  intro m hm x hx y hy
  have hr := h3.opened m hm
  have hg : Dict.get m.ref.changes x.1 = some x.2 := Dict.get_of_mem hr.ok.nod hx
  have hy' : Dict.get x.2.added y.1 = some y.2 := Dict.get_of_mem (hr.ok.nodup hg) hy
  have hsrv := hr.ok.added _ _ hg _ _ hy'
  refine (hr.new y.1 y.2.1 y.2.2 ?_).1
  unfold addedOf
  rw [hsrv, hg]; exact hy'

/-! ### Returned events are stored -/

theorem mem_process {f : Filter} {l : List Event} : ∀ e ∈ (f.process l).1, e ∈ l := by
  induction l generalizing f with
  | nil => simp [Filter.process]
  | cons x l ih =>
    intro e he
    unfold Filter.process at he
    split at he
    · simp at he
    · split at he
      · split at he
        · exact List.mem_cons_of_mem _ (ih e he)
        · exact List.mem_cons_of_mem _ (ih e he)
      · split at he
        · rcases List.mem_cons.1 he with he | he
          · rw [he]; simp
          · exact List.mem_cons_of_mem _ (ih e he)
        · exact List.mem_cons_of_mem _ (ih e he)

theorem mem_cutSeries {l : List Event} {n : Int} {r : QueryResult} (h : cutSeries l n = .ok r) :
    ∀ e ∈ r.events, e ∈ l := by
  unfold cutSeries at h
  rcases ite_cases h with ⟨_, h⟩ | ⟨_, h⟩
  · simp at h
  · cases h
    exact fun e he => List.mem_of_mem_take he

theorem mem_entriesBefore {t : Table TimeseriesKey Event} {k : TimeseriesKey} :
    ∀ x ∈ entriesBefore t k, x ∈ t := by
  intro x hx
  unfold entriesBefore at hx
  split at hx
  · unfold Table.beforeKey at hx
    rw [List.mem_reverse] at hx
    exact (List.takeWhile_prefix _).subset hx
  · exact List.mem_reverse.1 hx

theorem mem_partitionEvents {conf : Conf} {d : Disk} {q : Int} {params : QueryTimeseriesParams}
    {f : Filter} {r : List Event × Filter} (h : partitionEvents conf d q params f = .ok r) :
    ∀ e ∈ r.1, ∃ k, (k, e) ∈ d.tsData := by
  unfold partitionEvents at h
  obtain ⟨l, h1, h⟩ := bind_ok h
  cases h
  intro e he
  have he := (List.mem_filter.1 (mem_process e he)).1
  unfold partitionRange at h1
  obtain ⟨_, _, h1⟩ := bind_ok h1
  obtain ⟨_, _, h1⟩ := bind_ok h1
  have key : ∀ {l' : Table TimeseriesKey Event} {p : TimeseriesKey × Event → Bool}, (∀ x ∈ l', x ∈ d.tsData) →
      (pure ((l'.takeWhile p).map Prod.snd) : Except PyErr (List Event)) = .ok l →
      ∃ k, (k, e) ∈ d.tsData := by
    intro l' p hl' hp
    cases hp
    obtain ⟨x, hx, rfl⟩ := List.mem_map.1 he
    exact ⟨x.1, hl' x ((List.takeWhile_prefix _).subset hx)⟩
  split at h1
  · exact key mem_entriesBefore h1
  · refine key ?_ h1
    intro x hx
    unfold Table.fromKey at hx
    exact (List.dropWhile_suffix _).subset hx

theorem mem_partitionChanges {changes : List (Timestamp × Event)} {params : QueryTimeseriesParams}
    {f : Filter} {r : List Event × Filter} (h : partitionChanges changes params f = .ok r) :
    ∀ e ∈ r.1, ∃ x ∈ changes, x.2 = e := by
  unfold partitionChanges at h
  simp only at h
  rcases ite_cases h with ⟨_, h⟩ | ⟨_, h⟩
  · simp at h
  · cases h
    intro e he
    have he := mem_process e he
    have : e ∈ changes.map Prod.snd := by
      unfold pendingRange at he
      split at he
      · have := (List.dropWhile_suffix _).subset ((List.takeWhile_prefix _).subset he)
        exact List.mem_reverse.1 this
      · exact (List.dropWhile_suffix _).subset ((List.takeWhile_prefix _).subset he)
    obtain ⟨x, hx, rfl⟩ := List.mem_map.1 this
    exact ⟨x, hx, rfl⟩

theorem mem_queryPartition {conf : Conf} {d : Disk} {db : TimeseriesDb} {q : Int}
    {params : QueryTimeseriesParams} {sub : Option Sub} {n : Int} {r : QueryResult}
    (h : queryPartition conf d db q params sub n = .ok r) :
    ∀ e ∈ r.events, (∃ k, (k, e) ∈ d.tsData) ∨ ∃ x ∈ (Dict.get db.changes q).getD [], x.2 = e := by
  unfold queryPartition at h
  simp only at h
  intro e he
  split at h
  · obtain ⟨r1, h1, h⟩ := bind_ok h
    rcases ite_cases h with ⟨_, h⟩ | ⟨_, h⟩
    · exact .inr (mem_partitionChanges h1 e (mem_cutSeries h e he))
    · obtain ⟨r2, h2, h⟩ := bind_ok h
      rcases List.mem_append.1 (mem_cutSeries h e he) with h | h
      · exact .inr (mem_partitionChanges h1 e h)
      · exact .inl (mem_partitionEvents h2 e h)
  · obtain ⟨r1, h1, h⟩ := bind_ok h
    rcases ite_cases h with ⟨_, h⟩ | ⟨_, h⟩
    · exact .inl (mem_partitionEvents h1 e (mem_cutSeries h e he))
    · obtain ⟨r2, h2, h⟩ := bind_ok h
      rcases List.mem_append.1 (mem_cutSeries h e he) with h | h
      · exact .inl (mem_partitionEvents h1 e h)
      · exact .inr (mem_partitionChanges h2 e h)

theorem queryPartitions_cases {conf : Conf} {d : Disk} {db : TimeseriesDb}
    {params : QueryTimeseriesParams} {sub : Option Sub} {n : Int} {r : QueryResult}
    {parts : List (Int × Partition)} (h : queryPartitions conf d db params sub n parts = .ok r) :
    r.events = [] ∨ ∃ q, queryPartition conf d db q params sub n = .ok r := by
  induction parts with
  | nil => cases h; exact .inl rfl
  | cons p parts ih =>
    obtain ⟨i, part⟩ := p
    unfold queryPartitions at h
    rcases ite_cases h with ⟨_, h⟩ | ⟨_, h⟩
    · exact ih h
    · obtain ⟨dis, _, h⟩ := bind_ok h
      rcases ite_cases h with ⟨_, h⟩ | ⟨_, h⟩
      · exact ih h
      · exact .inr ⟨i, h⟩

theorem mem_latestQuery {conf : Conf} {db : LatestDb} {types : Option (List EventType)} {r : QueryResult}
    (h : db.query conf types = .ok r) : ∀ e ∈ r.events, ∃ t, (t, e) ∈ db.events := by
  have map : ∀ {e}, e ∈ db.events.map Prod.snd → ∃ t, (t, e) ∈ db.events := by
    intro e h
    obtain ⟨x, hx, rfl⟩ := List.mem_map.1 h
    exact ⟨x.1, hx⟩
  cases types with
  | none => cases h; exact fun e he => map he
  | some types =>
    change (latestSelect conf db (toSet types)).map _ = _ at h
    cases hl : latestSelect conf db (toSet types) with
    | error err => rw [hl] at h; simp [Except.map] at h
    | ok l =>
      rw [hl] at h
      cases h
      intro e he
      unfold latestSelect at hl
      rcases ite_cases hl with ⟨_, hl⟩ | ⟨_, hl⟩
      · cases hl; exact map he
      rcases ite_cases hl with ⟨_, hl⟩ | ⟨_, hl⟩
      · cases hc : createSubscription conf.useC (toSet types) with
        | error err => rw [hc] at hl; simp [Except.map] at hl
        | ok s =>
          rw [hc] at hl
          cases hl
          exact map (List.mem_filter.1 he).1
      rcases ite_cases hl with ⟨_, hl⟩ | ⟨_, hl⟩
      · cases hl
        obtain ⟨t, _, ht⟩ := List.mem_filterMap.1 he
        exact ⟨t, Dict.mem_of_get ht⟩
      · cases hl
        exact map (List.mem_filter.1 he).1

theorem mem_queryRefs {conf : Conf} {d : Disk} {stop : EventId} {n : Int}
    {t : Table EventId (List EventRef)} {l : List Event} (h : queryRefs conf d stop n t = .ok l) :
    ∀ e ∈ l, ∃ r, getEvent d r = some e := by
  induction t generalizing n l with
  | nil => unfold queryRefs at h; cases h; simp
  | cons p t ih =>
    obtain ⟨k, refs⟩ := p
    unfold queryRefs at h
    split at h
    · cases h; simp
    · split at h
      · cases h; simp
      · split at h
        · simp at h
        · next ref _ =>
          split at h
          · next event hev =>
            obtain ⟨l2, h2, h⟩ := bind_ok h
            cases h
            intro e he
            rcases List.mem_cons.1 he with rfl | he
            · exact ⟨ref, hev⟩
            · exact ih h2 e he
          · exact ih h

theorem mem_refQuery {conf : Conf} {d : Disk} {db : RefDb} {params : QueryServerParams} {r : QueryResult}
    (h : db.query conf d params = .ok r) :
    ∀ e ∈ r.events, (∃ x, getEvent d x = some e) ∨ ∃ x ∈ db.changes, ∃ y ∈ x.2.added, y.2.1 = e := by
  unfold RefDb.query at h
  rcases ite_cases h with ⟨_, h⟩ | ⟨_, h⟩
  · simp at h
  obtain ⟨l, h1, h⟩ := bind_ok h
  have hl : ∀ e ∈ l, ∃ x, getEvent d x = some e := by
    unfold extQueryEvents at h1
    obtain ⟨_, _, h1⟩ := bind_ok h1
    obtain ⟨_, _, h1⟩ := bind_ok h1
    exact mem_queryRefs h1
  intro e he
  have he : e ∈ withPending db.changes params (limitResults params.maxResults refMaxResults) l := by
    unfold cutResults at h
    rcases ite_cases h with ⟨_, h⟩ | ⟨_, h⟩
    · rcases ite_cases h with ⟨_, h⟩ | ⟨_, h⟩
      · simp at h
      · cases h; exact List.mem_of_mem_take he
    · cases h; exact he
  unfold withPending at he
  split at he
  · rcases List.mem_append.1 he with he | he
    · exact .inl (hl e he)
    · right
      unfold queryChanges at he
      split at he
      · simp at he
      · next sc hg =>
        have he := List.mem_of_mem_take he
        have : e ∈ sc.added.map fun (p : EventId × Event × List EventRef) => p.2.1 := by
          split at he
          · exact (List.dropWhile_suffix _).subset he
          · exact he
        obtain ⟨y, hy, rfl⟩ := List.mem_map.1 this
        exact ⟨_, Dict.mem_of_get hg, y, hy, rfl⟩
  · exact .inl (hl e he)

theorem getEvent_log {d : Disk} {st : Store} (h : DiskRel d st) (hs : StoreOk st) {r : EventRef} {e : Event}
    (hr : getEvent d r = some e) : e ∈ st.log := by
  unfold getEvent at hr
  split at hr
  · next k =>
    have := (h.slot e.type e).2 ⟨k, h.data k e hr, hr⟩
    exact (hs.slotType _ _ this).2
  · next k => exact (hs.entryId k e (by rw [h.entry]; exact hr)).2.1

/-- Whatever a query returns is stored. -/
theorem returned_log {conf : Conf} {ops : List BackendOp} {w : World} (h : Reached conf ops w)
    {p : QueryParams} {r : QueryResult} (hq : ((Backend.new conf).run ops).query p = .ok r) :
    ∀ e ∈ r.events, e ∈ w.cur.log := by
  have hrel := h.rel
  have hadd := h.added
  generalize (Backend.new conf).run ops = b at hrel hadd hq
  unfold Backend.query at hq
  cases hm : b.mem with
  | none => rw [hm] at hq; simp at hq
  | some m =>
    rw [hm] at hq
    simp only at hq
    obtain ⟨_, hmr⟩ := hrel.opened m hm
    obtain ⟨pend, hlog, hpend⟩ := hmr.pend
    have hfl : ∀ e ∈ w.flushed.log, e ∈ w.cur.log := by
      intro e he; rw [hlog]; exact List.mem_append_left _ he
    intro e he
    cases p with
    | latest types =>
      obtain ⟨t, ht⟩ := mem_latestQuery hq e he
      have := ((hmr.latest.events t e).1 (Dict.get_of_mem hmr.latest.nodEvents ht)).1
      exact (hrel.okC.slotType _ _ this).2
    | timeseries params =>
      change m.timeseries.query b.conf b.disk params = .ok r at hq
      unfold TimeseriesDb.query at hq
      obtain ⟨sub, _, hq⟩ := bind_ok hq
      rcases queryPartitions_cases hq with h | ⟨q, h⟩
      · rw [h] at he; simp at he
      · rcases mem_queryPartition h e he with ⟨k, hk⟩ | ⟨x, hx, rfl⟩
        · have := Dict.get_of_mem hrel.disk.sortTs.nodup hk
          rw [← hrel.disk.entry] at this
          exact hfl e (hrel.okF.entryId _ _ this).2.1
        · rw [hpend] at hx
          obtain ⟨a, ha, hax⟩ := List.mem_filterMap.1 hx
          rw [(pendingEntry_iff.1 hax).1, hlog]
          exact List.mem_append_right _ ha
    | server params =>
      rcases mem_refQuery hq e he with ⟨x, hx⟩ | ⟨x, hx, y, hy, rfl⟩
      · exact hfl e (getEvent_log hrel.disk hrel.okF hx)
      · exact hadd m hm x hx y hy

/-! ### Newest events -/

/-- Two elements of an ordered list. -/
theorem pairwise_cases {α : Type} {R : α → α → Prop} {l : List α} (h : l.Pairwise R) {a b : α}
    (ha : a ∈ l) (hb : b ∈ l) : a = b ∨ R a b ∨ R b a := by
  induction l with
  | nil => simp at ha
  | cons x l ih =>
    obtain ⟨h1, h2⟩ := List.pairwise_cons.1 h
    rcases List.mem_cons.1 ha with rfl | ha'
    · rcases List.mem_cons.1 hb with rfl | hb
      · exact .inl rfl
      · exact .inr (.inl (h1 b hb))
    · rcases List.mem_cons.1 hb with rfl | hb'
      · exact .inr (.inr (h1 a (by assumption)))
      · exact ih h2 (by assumption) hb'

/-- For every type with visible events the slot has a visible event such that
no visible event of the type is newer. -/
def Best (conf : Conf) (st : Store) : Prop :=
  ∀ e ∈ st.log, Visible conf e → ∃ s, st.slot e.type = some s ∧ Visible conf s ∧ ¬ Newer e s

theorem best_offer {conf : Conf} {parts : Dict Int Partition} {st : Store} (hs : StoreOk st)
    (h : Best conf st) (e : Event) : Best conf (st.offer conf parts e) := by
  unfold Store.offer
  split
  swap
  · exact h
  next hc =>
  obtain ⟨ha, _⟩ := hc
  have hnew : ∀ {x}, x ∈ st.log → x.id.server = e.id.server → IdLt x.id e.id ∧ TimeLe x.timestamp e.timestamp :=
    fun hx hxe => admissible_new hs ha hx hxe
  intro x hx hv
  simp only [List.mem_append, List.mem_singleton] at hx
  simp only
  by_cases hl : ToLatest conf st e
  · by_cases ht : x.type = e.type
    · rw [if_pos ⟨ht, hl⟩]
      refine ⟨e, rfl, ⟨ha.2.2, hl.1⟩, ?_⟩
      rcases hx with hx | rfl
      · obtain ⟨s, s1, s2, s3⟩ := h x hx hv
        rw [ht] at s1
        have hse := hl.2 s s1 s2
        obtain ⟨_, hsl⟩ := hs.slotType _ _ s1
        unfold Newer at *
        by_cases hxe : x.id.server = e.id.server
        · rw [if_pos hxe]; exact (hnew hx hxe).1.asymm
        · rw [if_neg hxe, not_timeLt]
          have hse' : TimeLe s.timestamp e.timestamp := by
            by_cases hse2 : s.id.server = e.id.server
            · exact (hnew hsl hse2).2
            · rw [if_neg hse2, not_timeLt] at hse; exact hse
          refine TimeLe.trans ?_ hse'
          by_cases hxs : x.id.server = s.id.server
          · rw [if_pos hxs] at s3
            rcases pairwise_cases hs.mono hx hsl with h | h | h
            · rw [h]; exact .inr rfl
            · exact (h hxs).2
            · exact absurd (h hxs.symm).1 s3
          · rw [if_neg hxs, not_timeLt] at s3; exact s3
      · unfold Newer; rw [if_pos rfl]; exact IdLt.irrefl
    · rw [if_neg (fun hh => ht hh.1)]
      rcases hx with hx | rfl
      · exact h x hx hv
      · exact absurd rfl ht
  · rw [if_neg (fun hh => hl hh.2)]
    rcases hx with hx | rfl
    · exact h x hx hv
    · have : ∃ p, st.slot x.type = some p ∧ Visible conf p ∧ Newer p x := by
        by_contra hno
        apply hl
        refine ⟨hv.2, fun p hp hvp hnp => hno ⟨p, hp, hvp, hnp⟩⟩
      obtain ⟨p, p1, p2, p3⟩ := this
      refine ⟨p, p1, p2, ?_⟩
      have h1 := C10_asymmetric p x ((C10_gt_is_newer _ _).2 p3)
      rw [← C10_gt_is_newer, h1]; simp

theorem best_offers {conf : Conf} {parts : Dict Int Partition} (es : List Event) {st : Store}
    (hs : StoreOk st) (h : Best conf st) : Best conf (es.foldl (Store.offer conf parts) st) := by
  induction es generalizing st with
  | nil => exact h
  | cons e es ih => exact ih (storeOk_offer hs e) (best_offer hs h e)

theorem best_congr {conf conf' : Conf} {st : Store} (h : ∀ e, Visible conf e ↔ Visible conf' e)
    (hb : Best conf st) : Best conf' st := by
  intro e he hv
  obtain ⟨s, h1, h2, h3⟩ := hb e he ((h e).2 hv)
  exact ⟨s, h1, (h s).1 h2, h3⟩

theorem run_best {conf : Conf} {ops : List BackendOp} {w : World} (h : Run conf ops w)
    (hs : SameShown ops) :
    (∀ c, .reopen c ∈ ops → Best c w.cur ∧ Best c w.flushed) ∧
      ((∀ c, .reopen c ∉ ops) → w.cur.log = [] ∧ w.flushed.log = []) := by
  induction h with
  | nil => exact ⟨by simp, fun _ => ⟨rfl, rfl⟩⟩
  | @snoc ops w op w' h1 h2 _ ih =>
    have hs' : SameShown ops := fun c c' hc hc' =>
      hs c c' (List.mem_append_left _ hc) (List.mem_append_left _ hc')
    obtain ⟨ih1, ih2⟩ := ih hs'
    have ok := run_ok h1
    have hnot : ∀ {c}, (∀ c, op ≠ .reopen c) → .reopen c ∈ ops ++ [op] → .reopen c ∈ ops := by
      intro c hne hc
      rcases List.mem_append.1 hc with hc | hc
      · exact hc
      · exact absurd (List.mem_singleton.1 hc).symm (hne c)
    have keep : ∀ {w' : World}, (∀ c, op ≠ .reopen c) → (∀ c, Best c w.cur ∧ Best c w.flushed →
          Best c w'.cur ∧ Best c w'.flushed) →
        (w.cur.log = [] ∧ w.flushed.log = [] → w.isOpen = false → w'.cur.log = [] ∧ w'.flushed.log = []) →
        (∀ c, .reopen c ∈ ops ++ [op] → Best c w'.cur ∧ Best c w'.flushed) ∧
          ((∀ c, .reopen c ∉ ops ++ [op]) → w'.cur.log = [] ∧ w'.flushed.log = []) := by
      intro w' hne hb hlog
      refine ⟨fun c hc => hb c (ih1 c (hnot hne hc)), fun hno => ?_⟩
      have hno' : ∀ c, .reopen c ∉ ops := fun c hc => hno c (List.mem_append_left _ hc)
      refine hlog (ih2 hno') ?_
      by_contra ho
      rw [Bool.not_eq_false] at ho
      exact hno' _ (run_spec_conf h1 ho)
    have hre : ∀ {c : Conf} {w' : World}, op = .reopen c → w'.cur = w.flushed → w'.flushed = w.flushed →
        (∀ c, .reopen c ∈ ops ++ [op] → Best c w'.cur ∧ Best c w'.flushed) ∧
          ((∀ c, .reopen c ∉ ops ++ [op]) → w'.cur.log = [] ∧ w'.flushed.log = []) := by
      intro c w' hop e1 e2
      rw [e1, e2]
      refine ⟨fun c' hc' => ?_, fun hno => absurd (by rw [hop]; simp) (hno c)⟩
      suffices Best c' w.flushed from ⟨this, this⟩
      by_cases hex : ∃ c0, .reopen c0 ∈ ops
      · obtain ⟨c0, hc0⟩ := hex
        exact best_congr (hs c0 c' (List.mem_append_left _ hc0) hc') (ih1 c0 hc0).2
      · have := (ih2 (fun c0 hc0 => hex ⟨c0, hc0⟩)).2
        intro e he; rw [this] at he; simp at he
    cases h2 with
    | closed a b => exact keep b (fun c h => h) (fun h _ => h)
    | @register es a =>
      refine ⟨fun c hc => ?_, fun hno => ?_⟩
      · have hc := hnot (by simp) hc
        have hw := run_spec_conf h1 a
        refine ⟨?_, (ih1 c hc).2⟩
        refine best_congr (hs w.conf c (List.mem_append_left _ hw) (List.mem_append_left _ hc)) ?_
        exact best_offers es ok.okC (ih1 w.conf hw).1
      · exact absurd (List.mem_append_left _ (run_spec_conf h1 a)) (hno w.conf)
    | touch a => exact keep (by simp) (fun c h => h) (fun h _ => h)
    | flush a => exact keep (by simp) (fun c h => ⟨h.1, h.1⟩) (fun h _ => ⟨h.1, h.1⟩)
    | flushFail a => exact keep (by simp) (fun c h => ⟨h.2, h.2⟩) (fun h _ => ⟨h.2, h.2⟩)
    | cleanup r a b => exact keep (by simp) (fun c h => h) (fun h _ => h)
    | cleanupFail a => exact keep (by simp) (fun c h => ⟨h.2, h.2⟩) (fun h _ => ⟨h.2, h.2⟩)
    | reopen a => exact hre rfl rfl rfl
    | reopenFail => exact hre rfl rfl rfl

end HatEvent
