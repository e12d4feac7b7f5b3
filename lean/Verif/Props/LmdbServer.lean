import Verif.Props.LmdbLatest
import Verif.Props.Conditions

/-!
# C27 - C32: references, counters, cleanup and server queries
-/

namespace HatEvent
open Spec

/-! ## C27 -/

/-- The place a reference names contains the event. -/
def Spec.StoredAt (d : Disk) : EventRef → Event → Prop
  | .latest k, e => (k, e) ∈ d.latestData
  | .timeseries k, e => (k, e) ∈ d.tsData

/-- The reference table references exactly the stored events. -/
structure Spec.RefsConsistent (d : Disk) : Prop where
  keys : (d.ref.map Prod.fst).Nodup
  nonempty : ∀ id refs, (id, refs) ∈ d.ref → refs ≠ []
  points : ∀ id refs r, (id, refs) ∈ d.ref → r ∈ refs → ∃ e, StoredAt d r e ∧ e.id = id
  complete : ∀ r e, StoredAt d r e → ∃ refs, (e.id, refs) ∈ d.ref ∧ r ∈ refs

theorem storedAt_iff {d : Disk} {st : Store} (h : DiskRel d st) {r : EventRef} {e : Event} :
    StoredAt d r e ↔ getEvent d r = some e := by
  cases r with
  | latest k =>
    exact ⟨fun hh => Dict.get_of_mem h.sortData.nodup hh, fun hh => Dict.mem_of_get hh⟩
  | timeseries k =>
    exact ⟨fun hh => Dict.get_of_mem h.sortTs.nodup hh, fun hh => Dict.mem_of_get hh⟩

theorem refsConsistent {d : Disk} {st : Store} (h : DiskRel d st) (hr : DiskRefs d st) (hs : StoreOk st) :
    RefsConsistent d := by
  refine ⟨hr.table.sorted.nodup, ?_, ?_, ?_⟩
  · intro id refs hm
    exact hr.table.nonempty id refs (Dict.get_of_mem hr.table.sorted.nodup hm)
  · intro id refs r hm hrm
    obtain ⟨e, h1, h2, _⟩ := getEvent_ref h hr hs ⟨refs, Dict.get_of_mem hr.table.sorted.nodup hm, hrm⟩
    exact ⟨e, (storedAt_iff h).2 h1, h2⟩
  · intro r e hst
    have hg := (storedAt_iff h).1 hst
    have : HasRef d.ref e.id r := by
      rw [hr.real]
      cases r with
      | latest k => exact ⟨e, hg, rfl⟩
      | timeseries k =>
        have hg' : st.entry k = some e := by rw [h.entry]; exact hg
        exact ⟨(hs.entryId k e hg').1, e, hg'⟩
    obtain ⟨refs, h1, h2⟩ := this
    exact ⟨refs, Dict.mem_of_get h1, h2⟩

/-- After any history (so at any point at which the process can end, as each
action changes the file in one transaction) the references are consistent,
provided that conditions of later configurations keep accepting the latest
events. -/
theorem C27_references (conf : Conf) (ops : List BackendOp) (hl : LookupLaws ops) (hk : KeepsAccepted ops) :
    RefsConsistent ((Backend.new conf).run ops).disk := by
  obtain ⟨w, h, hr⟩ := reached_refs conf ops hl hk
  exact refsConsistent h.rel.disk hr.disk h.rel.okF

theorem exHistory_accepted : KeepsAccepted exHistory := by
  unfold KeepsAccepted exHistory
  simp [exConf]

/-- The hypotheses hold for the example history, and the table is not empty. -/
example : RefsConsistent exBackend.disk ∧ exBackend.disk.ref ≠ [] :=
  ⟨C27_references _ _ exHistory_laws exHistory_accepted, by
    have : exBackend.disk.ref.isEmpty = false := by rfl
    intro h; rw [h] at this; simp at this⟩

/-! ## C29 -/

/-- The counters of all partitions are exact after any history. -/
theorem C29_counters (conf : Conf) (ops : List BackendOp) (hl : LookupLaws ops) (q : Int) :
    (Dict.get ((Backend.new conf).run ops).disk.tsCount q).getD 0 =
      ((((Backend.new conf).run ops).disk.tsData.filter fun x => x.1.partition = q).length : Int) := by
  obtain ⟨w, h⟩ := reached conf ops hl
  exact h.rel.disk.counts q

example : (Dict.get exBackend.disk.tsCount 1) = some 2 := by rfl

/-! ## C30 -/

theorem removed_length {data : Table TimeseriesKey Event} (hs : Table.Sorted data)
    {rem : List TimeseriesKey} (hnd : rem.Nodup) (hsub : ∀ k ∈ rem, k ∈ data.map Prod.fst) :
    data.length = (data.filter fun x => x.1 ∉ rem).length + rem.length := by
  have h1 := List.length_eq_length_filter_add (l := data) (fun x => decide (x.1 ∈ rem))
  have h2 : (data.filter fun x => decide (x.1 ∈ rem)).length = rem.length := by
    have hp : ((data.filter fun x => decide (x.1 ∈ rem)).map Prod.fst).Perm rem := by
      rw [List.perm_ext_iff_of_nodup _ hnd]
      · intro k
        simp only [List.mem_map, List.mem_filter, decide_eq_true_eq]
        constructor
        · rintro ⟨x, ⟨_, hx⟩, rfl⟩; exact hx
        · intro hk
          obtain ⟨x, hx, rfl⟩ := List.mem_map.1 (hsub k hk)
          exact ⟨x, ⟨hx, hk⟩, rfl⟩
      · exact (Table.Sorted.nodup hs).sublist (List.filter_sublist.map _)
    have := hp.length_eq
    rwa [List.length_map] at this
  have h3 : (data.filter fun x => !decide (x.1 ∈ rem)) = data.filter fun x => decide (x.1 ∉ rem) := by
    congr 1; funext x; simp
  rw [h2, h3] at h1
  omega

/-- A cleanup after any history: every partition without limit and every
partition that is not configured keeps its entries, of the other partitions the
oldest entries are removed as far as permitted, and unless the result limit is
reached nothing is left to remove.  Nothing else is changed but the counters and
references. -/
theorem C30_cleanup (conf : Conf) (ops : List BackendOp) (hl : LookupLaws ops)
    (fl : Rat → Rat) (se : Rat → Option Int) (now : Timestamp)
    (hopen : ((Backend.new conf).run (ops ++ [.cleanup fl se now])).mem ≠ none) :
    let b := (Backend.new conf).run ops
    let b' := (Backend.new conf).run (ops ++ [.cleanup fl se now])
    ∃ w, Run conf ops w ∧ w.isOpen = true ∧
      (∀ q, (∀ part, Dict.get w.partitions q = some part → part.limit = none) →
        entriesOf b'.disk.tsData q = entriesOf b.disk.tsData q) ∧
      (∀ q part limit, Dict.get w.partitions q = some part → part.limit = some limit →
        ∃ old, Cleaned fl se now limit (entriesOf b.disk.tsData q) old (entriesOf b'.disk.tsData q) ∧
          (b.disk.tsData.length < b'.disk.tsData.length + 1024 →
            Finished fl se now limit (entriesOf b'.disk.tsData q))) ∧
      b.disk.tsData.length ≤ b'.disk.tsData.length + 1024 ∧
      b'.disk.latestData = b.disk.latestData ∧ b'.disk.latestType = b.disk.latestType ∧
      b'.disk.lastEventId = b.disk.lastEventId ∧ b'.disk.lastTimestamp = b.disk.lastTimestamp ∧
      b'.disk.tsPartition = b.disk.tsPartition ∧ b'.disk.settings = b.disk.settings := by
  obtain ⟨w, h⟩ := reached conf ops hl
  intro b b'
  refine ⟨w, h.run, ?_⟩
  have hb' : b' = b.step (.cleanup fl se now) := run_snoc ..
  have hst := stepTo b (.cleanup fl se now)
  rw [← hb'] at hst
  have hopen' : b'.mem ≠ none := hopen
  have hrel : WorldRel b w := h.rel
  clear_value b'
  cases hst with
  | closed h1 _ => exact absurd h1 hopen'
  | cleanupFail h1 h2 => exact absurd rfl hopen'
  | cleanup h1 h2 =>
    obtain ⟨ho, hm⟩ := hrel.opened _ h1
    obtain ⟨rem, ⟨c1, c0⟩, c2, c3, c4, c5, c6, c7, c8⟩ := cleanup_rel hrel.disk hm h2
    have hlen := removed_length hrel.disk.sortTs c1 (by
      intro k hk
      obtain ⟨⟨e, he⟩, _⟩ := c2 k hk
      rw [hrel.disk.entry] at he
      exact List.mem_map_of_mem (Dict.mem_of_get he))
    rw [← c3] at hlen
    simp only
    refine ⟨ho, ?_, ?_, by omega, ?_⟩
    · intro q hq
      cases hg : Dict.get w.partitions q with
      | none => exact c6 q (fun hk => by rw [Dict.get_eq_none_iff] at hg; exact hg hk)
      | some part =>
        have := c7 q part hg
        rw [PartCleaned, hq part hg] at this
        exact this
    · intro q part limit hg hlim
      have := c7 q part hg
      rw [PartCleaned, hlim] at this
      obtain ⟨old, h3, h4⟩ := this
      exact ⟨old, h3, fun hh => h4 (by omega)⟩
    · rcases c8 with ⟨_, rfl⟩ | ⟨_, _, _, rfl⟩ <;> exact ⟨rfl, rfl, rfl, rfl, rfl, rfl⟩

/-- Two partitions: one keeps at most one entry (but at least one), the other
all. -/
def exLimited : List Partition :=
  [⟨.timestamp, exA, some { minEntries := some 1, maxEntries := some 1 }⟩, ⟨.timestamp, exAB, none⟩]

/-- A cleanup that removes the older entry of the first partition only. -/
def exCleaned : List BackendOp :=
  [.reopen (exConf none exLimited),
   .register [exE 1 1 1 ["a"] 1 none, exE 1 1 2 ["a"] 5 none, exE 1 1 3 ["b"] 6 none], .flush]

example : LookupLaws exCleaned := by
  intro c hc
  simp only [exCleaned, List.mem_cons, reduceCtorEq, BackendOp.reopen.injEq, List.not_mem_nil, or_false] at hc
  subst hc
  exact exConf_lookup _ _

example : ((Backend.new (exConf none [])).run
    (exCleaned ++ [.cleanup id (fun _ => none) ⟨7, 0⟩])).mem.isSome = true := by rfl

example : ((Backend.new (exConf none [])).run exCleaned).disk.tsData.map Prod.fst =
      [⟨1, ⟨1, 0⟩, ⟨1, 1, 1⟩⟩, ⟨1, ⟨5, 0⟩, ⟨1, 1, 2⟩⟩,
        ⟨2, ⟨1, 0⟩, ⟨1, 1, 1⟩⟩, ⟨2, ⟨5, 0⟩, ⟨1, 1, 2⟩⟩, ⟨2, ⟨6, 0⟩, ⟨1, 1, 3⟩⟩] ∧
    ((Backend.new (exConf none [])).run
      (exCleaned ++ [.cleanup id (fun _ => none) ⟨7, 0⟩])).disk.tsData.map Prod.fst =
      [⟨1, ⟨5, 0⟩, ⟨1, 1, 2⟩⟩,
        ⟨2, ⟨1, 0⟩, ⟨1, 1, 1⟩⟩, ⟨2, ⟨5, 0⟩, ⟨1, 1, 2⟩⟩, ⟨2, ⟨6, 0⟩, ⟨1, 1, 3⟩⟩] := ⟨by rfl, by rfl⟩

/-! ## C31 -/

/-- The parameters of a server query are acceptable: the last event identifier
is one of the requested server, numbers have a representation and the number of
results is not negative. -/
structure Spec.ServerParamsOk (p : QueryServerParams) : Prop where
  last : ∀ l, p.lastEventId = some l → l.server = p.serverId ∧ IdRange l
  server : 0 ≤ p.serverId ∧ p.serverId + 1 < 2 ^ 64
  max : ∀ n, p.maxResults = some n → 0 ≤ n

/-- The largest number of results of a server query. -/
def Spec.serverPage (max : Option Int) : Nat := (min (max.getD 4096) 4096).toNat

/-- The events a server query is about: permanently stored ones and, unless only
these are requested, all the backend holds. -/
def Spec.ServerHeld (w : World) (persisted : Bool) (e : Event) : Prop :=
  w.flushed.Held e ∨ (persisted = false ∧ w.cur.Held e)

theorem serverPage_eq {mr : Option Int} (h : ∀ n, mr = some n → 0 ≤ n) :
    0 ≤ limitResults mr refMaxResults ∧ (limitResults mr refMaxResults).toNat = serverPage mr := by
  unfold limitResults refMaxResults serverPage
  cases mr with
  | none => simp
  | some n =>
    have := h n rfl
    simp only [Option.getD_some]
    split <;> constructor <;> omega

theorem startOf_range {p : QueryServerParams} (h : ServerParamsOk p) :
    IdRange (startOf p.serverId p.lastEventId) ∧ U64 (p.serverId + 1) := by
  have h1 := h.server
  constructor
  · unfold startOf
    cases hl : p.lastEventId with
    | none => refine ⟨⟨h1.1, by simp only [Option.getD_none]; omega⟩, ?_, ?_⟩ <;> (unfold U64; norm_num)
    | some l => exact (h.last l hl).2
  · unfold U64; omega

/-- Server queries in a state that is reached by a history. -/
theorem server_reached {conf : Conf} {ops : List BackendOp} {w : World} (h : Reached conf ops w)
    (hr : WorldRefs ((Backend.new conf).run ops) w) (hopen : ((Backend.new conf).run ops).mem ≠ none)
    (p : QueryServerParams) (hp : ServerParamsOk p) :
    ∃ full, ServerList (ServerHeld w p.persisted) p.serverId p.lastEventId full ∧
      ((Backend.new conf).run ops).query (.server p) = .ok (page full (serverPage p.maxResults)) := by
  obtain ⟨m, hm⟩ := Option.ne_none_iff_exists'.1 hopen
  obtain ⟨ho, hmem⟩ := h.rel.opened m hm
  obtain ⟨r1, r2⟩ := startOf_range hp
  obtain ⟨full, f1, f2⟩ := server_spec h.rel.disk hr.disk h.rel.okF hmem (hr.opened m hm) h.rel.okC
    p.serverId p.persisted p.lastEventId r1 r2 (fun l hl => (hp.last l hl).1)
  refine ⟨full, f1, ?_⟩
  obtain ⟨n1, n2⟩ := serverPage_eq hp.max
  have := f2 p.maxResults n1
  rw [n2] at this
  unfold Backend.query
  rw [hm]
  simp only [Mem.query]
  rw [h.rel.conf]
  exact this

/-- A server query returns the events of the server after the identifier, sorted
by identifier and cut off, and says if something was cut off. -/
theorem C31_server (conf : Conf) (ops : List BackendOp) (hl : LookupLaws ops) (hk : KeepsAccepted ops)
    (hopen : ((Backend.new conf).run ops).mem ≠ none) :
    ∃ w, Run conf ops w ∧ ∀ p : QueryServerParams, ServerParamsOk p →
      ∃ full, ServerList (ServerHeld w p.persisted) p.serverId p.lastEventId full ∧
        ((Backend.new conf).run ops).query (.server p) = .ok (page full (serverPage p.maxResults)) := by
  obtain ⟨w, h, hr⟩ := reached_refs conf ops hl hk
  exact ⟨w, h.run, server_reached h hr hopen⟩

/-- All other server queries are rejected, whatever the state of the backend
is; an identifier of another server with `ValueError`. -/
theorem C31_rejected (b : Backend) (p : QueryServerParams) :
    (¬ ServerParamsOk p → ∃ err, b.query (.server p) = .error err) ∧
    (b.mem ≠ none → (∃ l, p.lastEventId = some l ∧ l.server ≠ p.serverId) →
      ∃ s, b.query (.server p) = .error (.valueError s)) := by
  constructor
  · intro hp
    unfold Backend.query
    cases hb : b.mem with
    | none => exact ⟨_, rfl⟩
    | some m =>
      simp only [Mem.query]
      cases hres : m.ref.query b.conf b.disk p with
      | error e => exact ⟨e, rfl⟩
      | ok r =>
        exfalso
        apply hp
        unfold RefDb.query at hres
        rcases ite_cases hres with ⟨_, hres⟩ | ⟨hw, hres⟩
        · simp at hres
        obtain ⟨events, h1, h2⟩ := bind_ok hres
        unfold extQueryEvents at h1
        obtain ⟨b1, e1, h1⟩ := bind_ok h1
        obtain ⟨b2, e2, h1⟩ := bind_ok h1
        have r1 := (C12_event_id_accepts _).1 ⟨_, e1⟩
        have r2 := (C12_event_id_accepts _).1 ⟨_, e2⟩
        have hwl : ∀ l, p.lastEventId = some l → l.server = p.serverId := by
          intro l hl
          unfold wrongServer at hw
          rw [hl] at hw
          simpa using hw
        have hs2 := r2.1
        unfold U64 at hs2
        simp only at hs2
        refine ⟨fun l hl => ⟨hwl l hl, by rw [hl] at r1; exact r1⟩, ⟨?_, hs2.2⟩, ?_⟩
        · cases hl : p.lastEventId with
          | none =>
            rw [hl] at r1
            have := r1.1.1
            simpa using this
          | some l =>
            rw [hl] at r1
            have := r1.1.1
            rw [← hwl l hl]
            simpa using this
        · intro n hn
          by_contra hneg
          have hlim : limitResults p.maxResults refMaxResults = n := by
            unfold limitResults refMaxResults
            rw [hn]
            simp only
            rw [if_pos (by omega)]
          rw [hlim] at h1 h2
          unfold cutResults at h2
          have hlen : (0 : Int) ≤ ((withPending m.ref.changes p n events).length : Int) := by omega
          rw [if_pos (by omega), if_pos (by omega)] at h2
          simp at h2
  · rintro hb ⟨l, h1, h2⟩
    obtain ⟨m, hm⟩ := Option.ne_none_iff_exists'.1 hb
    unfold Backend.query
    rw [hm]
    simp only [Mem.query, RefDb.query, wrongServer, h1, decide_eq_true h2, if_true]
    exact ⟨_, rfl⟩

/-- Server queries after the example history: the first event of server 1 was
replaced as the latest event but is in a timeseries partition; two results are
requested and more follow. -/
example : ServerParamsOk { serverId := 1, maxResults := some 2 } ∧
    exBackend.query (.server { serverId := 1, maxResults := some 2 }) =
      .ok ⟨[exE 1 1 1 ["a"] 1 none, exE 1 2 1 ["b"] 2 (some 7)], false⟩ ∧
    exBackend.query (.server { serverId := 2, maxResults := some 2 }) =
      .ok ⟨[exE 2 1 1 ["a"] 5 none, exE 2 2 1 ["a"] 6 (some 3)], true⟩ ∧
    exBackend.query (.server { serverId := 2, persisted := true }) =
      .ok ⟨[exE 2 1 1 ["a"] 5 none], false⟩ :=
  ⟨⟨by simp, by norm_num, by simp⟩, by rfl, by rfl, by rfl⟩

/-- A rejected query. -/
example : ¬ ServerParamsOk { serverId := 1, lastEventId := some ⟨2, 1, 1⟩ } := by
  intro h
  have := (h.last _ rfl).1
  simp at this

/-! ## C32 -/

/-- Pages in a state that is reached by a history. -/
theorem server_paging {conf : Conf} {ops : List BackendOp} {w : World} (h : Reached conf ops w)
    (hr : WorldRefs ((Backend.new conf).run ops) w) (hopen : ((Backend.new conf).run ops).mem ≠ none)
    (hid : ∀ es, .register es ∈ ops → ∀ e ∈ es, IdRange e.id)
    (p : QueryServerParams) (hp : ServerParamsOk p) (hmr : p.maxResults ≠ some 0) :
    ∃ full, ServerList (ServerHeld w p.persisted) p.serverId p.lastEventId full ∧
      let query := fun i => ((Backend.new conf).run ops).query (.server { p with lastEventId := i })
      Pages query p.lastEventId full ∧ ∀ r, Pages query p.lastEventId r → r = full := by
  have hrok := run_ok h.run
  have hheld : ∀ e, ServerHeld w p.persisted e → e ∈ w.cur.log := by
    have hst : ∀ st : Store, StoreOk st → ∀ e, st.Held e → e ∈ st.log := by
      rintro st hs e (h1 | ⟨k, h1⟩)
      · exact (hs.slotType _ _ h1).2
      · exact (hs.entryId k e h1).2.1
    rintro e (h1 | ⟨_, h1⟩)
    · exact hrok.pre.subset (hst _ hrok.okF e h1)
    · exact hst _ hrok.okC e h1
  obtain ⟨full, hfull, _⟩ := server_reached h hr hopen p hp
  refine ⟨full, hfull, ?_⟩
  have hpos : 0 < serverPage p.maxResults := by
    unfold serverPage
    cases hm : p.maxResults with
    | none => simp
    | some n =>
      have := hp.max n hm
      rw [hm] at hmr
      simp only [Option.getD_some]
      have : n ≠ 0 := fun hn => hmr (by rw [hn])
      omega
  refine pages_exact (n := serverPage p.maxResults) hpos
    (fun i => ∀ l, i = some l → l.server = p.serverId ∧ IdRange l) ?_ ?_ p.lastEventId hp.last full hfull
  · rintro e he hse l hl
    cases hl
    obtain ⟨es, h1, h2⟩ := hrok.logC e (hheld e he)
    exact ⟨hse, hid es h1 e h2⟩
  · intro i hi
    exact server_reached h hr hopen { p with lastEventId := i } ⟨hi, hp.server, hp.max⟩

/-- Paging through a server query yields every event once, in order, if the
identifiers of registered events have a representation. -/
theorem C32_paging (conf : Conf) (ops : List BackendOp) (hl : LookupLaws ops) (hk : KeepsAccepted ops)
    (hopen : ((Backend.new conf).run ops).mem ≠ none)
    (hid : ∀ es, .register es ∈ ops → ∀ e ∈ es, IdRange e.id) :
    ∃ w, Run conf ops w ∧ ∀ p : QueryServerParams, ServerParamsOk p → p.maxResults ≠ some 0 →
      ∃ full, ServerList (ServerHeld w p.persisted) p.serverId p.lastEventId full ∧
        let query := fun i => ((Backend.new conf).run ops).query (.server { p with lastEventId := i })
        Pages query p.lastEventId full ∧ ∀ r, Pages query p.lastEventId r → r = full := by
  obtain ⟨w, h, hr⟩ := reached_refs conf ops hl hk
  exact ⟨w, h.run, server_paging h hr hopen hid⟩

/-- The hypotheses hold for the example history; pages of one event. -/
example : (∀ es, .register es ∈ exHistory → ∀ e ∈ es, IdRange e.id) ∧
    Pages (fun i => exBackend.query (.server { serverId := 2, maxResults := some 1, lastEventId := i })) none
      [exE 2 1 1 ["a"] 5 none, exE 2 2 1 ["a"] 6 (some 3), exE 2 2 2 ["b"] 7 (some 2)] := by
  constructor
  · intro es h
    simp only [exHistory, List.mem_cons, reduceCtorEq, BackendOp.register.injEq, List.not_mem_nil,
      or_false, false_or] at h
    rcases h with rfl | rfl <;> simp [exE, IdRange, U64]
  · exact .more (x := exE 2 1 1 ["a"] 5 none) (events := [exE 2 1 1 ["a"] 5 none]) (by rfl) rfl
      (.more (x := exE 2 2 1 ["a"] 6 (some 3)) (events := [exE 2 2 1 ["a"] 6 (some 3)]) (by rfl) rfl
        (.last (by rfl)))

/-! ## C28 -/

/-- C28 for all changes of partitions and of the latest subscription, and of
conditions as long as latest events stay accepted.  Missing: other changes of
conditions, see `C28_refuted`. -/
theorem C28_partial (conf : Conf) (ops : List BackendOp) (hl : LookupLaws ops) (hk : KeepsAccepted ops)
    (p : QueryServerParams) (r : QueryResult) (h : ((Backend.new conf).run ops).query (.server p) = .ok r) :
    ∃ w, Run conf ops w ∧ (r.events.Pairwise fun a b => IdLt a.id b.id) ∧
      ∀ e ∈ r.events, ServerHeld w p.persisted e ∧ e.id.server = p.serverId := by
  have hopen : ((Backend.new conf).run ops).mem ≠ none := by
    intro hn
    unfold Backend.query at h
    rw [hn] at h
    simp at h
  obtain ⟨w, hrun, hq⟩ := C31_server conf ops hl hk hopen
  refine ⟨w, hrun, ?_⟩
  by_cases hp : ServerParamsOk p
  · obtain ⟨full, f1, f2⟩ := hq p hp
    rw [f2] at h
    cases h
    refine ⟨f1.sorted.sublist (List.take_sublist _ _), ?_⟩
    intro e he
    obtain ⟨h1, h2, _⟩ := (f1.mem e).1 (List.mem_of_mem_take he)
    exact ⟨h1, h2⟩
  · obtain ⟨err, herr⟩ := (C31_rejected ((Backend.new conf).run ops) p).1 hp
    rw [herr] at h
    simp at h

/-- The conditions of a configuration. -/
def conditionsOf (conf : List (Sub × Condition)) : Event → Bool :=
  match conditionsPy conf with
  | .ok c => fun e => conditionsMatch conf (c.get e.type) e
  | .error _ => fun _ => false

/-- The configuration with the conditions of `C47`. -/
def exStricter : Conf := { exConf none [] with conditions := conditionsOf exConditions }

/-- An event that satisfies the conditions. -/
def exGood (inst : Int) : Event :=
  ⟨⟨1, 1, inst⟩, ["a"], ⟨inst, 0⟩, none, some (.json (.obj [("x", .int 3)]))⟩

/-- One event without payload is stored; the conditions of the next
configuration reject it; one more event of the same type is stored. -/
def exReconfigured : List BackendOp :=
  [.reopen (exConf none []), .register [exE 1 1 1 ["a"] 1 none], .flush,
   .reopen exStricter, .register [exGood 2], .flush]

theorem exReconfigured_laws : LookupLaws exReconfigured := by
  intro c hc
  simp only [exReconfigured, List.mem_cons, reduceCtorEq, BackendOp.reopen.injEq, List.not_mem_nil,
    or_false, false_or] at hc
  rcases hc with rfl | rfl
  · exact exConf_lookup _ _
  · exact exConf_lookup none []

theorem exReconfigured_twice : ((Backend.new (exConf none [])).run exReconfigured).query
    (.server { serverId := 1 }) = .ok ⟨[exGood 2, exGood 2], false⟩ := by rfl

/-- C28 does not hold: after a change of conditions a server query returns an
event twice. -/
theorem C28_refuted : ¬ ∀ (conf : Conf) (ops : List BackendOp), LookupLaws ops →
    ∀ (p : QueryServerParams) (r : QueryResult),
      ((Backend.new conf).run ops).query (.server p) = .ok r → r.events.Pairwise fun a b => a.id ≠ b.id := by
  intro h
  have := h _ _ exReconfigured_laws _ _ exReconfigured_twice
  simp at this

/-- The consistency of references is lost as well. -/
theorem C28_references_refuted : ¬ ∀ (conf : Conf) (ops : List BackendOp), LookupLaws ops →
    RefsConsistent ((Backend.new conf).run ops).disk := by
  intro h
  have hc := h (exConf none []) _ exReconfigured_laws
  have hd : ((Backend.new (exConf none [])).run exReconfigured).disk.ref =
      [(⟨1, 1, 1⟩, [.latest 1]), (⟨1, 1, 2⟩, [.latest 1])] := by rfl
  have hd2 : ((Backend.new (exConf none [])).run exReconfigured).disk.latestData = [(1, exGood 2)] := by rfl
  obtain ⟨e, h1, h2⟩ := hc.points ⟨1, 1, 1⟩ [.latest 1] (.latest 1) (by rw [hd]; simp) (by simp)
  unfold StoredAt at h1
  rw [hd2] at h1
  simp only [List.mem_singleton, Prod.mk.injEq, true_and] at h1
  subst h1
  simp [exGood] at h2

/-- Hypotheses of `C28_partial`: conditions that are dropped, a latest
subscription that is changed. -/
example : KeepsAccepted [.reopen exStricter, .register [exGood 2], .flush,
    .reopen { exConf none exPartitions with latestSub := exAB }, .register [exE 1 1 3 ["a"] 3 none],
    .reopen (exConf none [])] := by
  unfold KeepsAccepted
  simp [exConf]

end HatEvent
