import Verif.Props.LmdbServer
import Verif.Props.LmdbTimeseries
import Verif.Proof.ServerDuring

/-!
# C113: what latest and timeseries queries return, server queries return
-/

namespace HatEvent
open Spec

/-- What latest and timeseries queries return is held. -/
theorem returned_held {conf : Conf} {ops : List BackendOp} {w : World} (h : Reached conf ops w)
    {p : QueryParams} (hp : ∀ s, p ≠ .server s) {r : QueryResult} (hq : ((Backend.new conf).run ops).query p = .ok r) :
    ∀ e ∈ r.events, w.cur.Held e := by
  have hrel := h.rel
  generalize (Backend.new conf).run ops = b at hrel hq
  unfold Backend.query at hq
  cases hm : b.mem with
  | none => rw [hm] at hq; simp at hq
  | some m =>
    rw [hm] at hq
    simp only at hq
    obtain ⟨_, hmr⟩ := hrel.opened m hm
    intro e he
    cases p with
    | latest types =>
      obtain ⟨t, ht⟩ := mem_latestQuery hq e he
      have := ((hmr.latest.events t e).1 (Dict.get_of_mem hmr.latest.nodEvents ht)).1
      have ht' := (hrel.okC.slotType _ _ this).1
      exact .inl (by rw [ht']; exact this)
    | timeseries params =>
      change m.timeseries.query b.conf b.disk params = .ok r at hq
      unfold TimeseriesDb.query at hq
      obtain ⟨sub, _, hq⟩ := bind_ok hq
      rcases queryPartitions_cases hq with h | ⟨q, h⟩
      · rw [h] at he; simp at he
      · rcases mem_queryPartition h e he with ⟨k, hk⟩ | ⟨x, hx, rfl⟩
        · refine .inr ⟨k, ?_⟩
          have hg := Dict.get_of_mem hrel.disk.sortTs.nodup hk
          have hn : Dict.get (timeseriesEntries m.timeseries.changes) k = none := by
            rw [Dict.get_eq_none_iff]
            intro hin
            have := hmr.ts.fresh k hin
            rw [hg] at this
            cases this
          rw [hmr.ts.entry, over, hn]
          exact hg
        · refine .inr ⟨⟨q, x.1, x.2.id⟩, ?_⟩
          have hin : ((⟨q, x.1, x.2.id⟩ : TimeseriesKey), x.2) ∈ timeseriesEntries m.timeseries.changes := by
            cases hg : Dict.get m.timeseries.changes q with
            | none => rw [hg] at hx; simp at hx
            | some l =>
              rw [hg] at hx
              exact List.mem_flatMap.2 ⟨(q, l), Dict.mem_of_get hg, List.mem_map.2 ⟨x, hx, rfl⟩⟩
          rw [hmr.ts.entry, over, Dict.get_of_mem hmr.ts.pnod hin]
    | server s => exact absurd rfl (hp s)

/-- Every event that a latest or timeseries query returns, with whatever
parameters, is received by paging through the events of its server. -/
theorem C113_found (conf : Conf) (ops : List BackendOp) (hl : LookupLaws ops) (hk : KeepsAccepted ops)
    (hid : ∀ es, .register es ∈ ops → ∀ e ∈ es, IdRange e.id)
    (p : QueryParams) (hp : ∀ s, p ≠ .server s) (r : QueryResult) (hq : ((Backend.new conf).run ops).query p = .ok r)
    (server : Int) (max : Option Int) (hmax : max ≠ some 0) (all : List Event)
    (hall : Pages (fun i => ((Backend.new conf).run ops).query (.server { serverId := server, maxResults := max, lastEventId := i }))
      none all) :
    ∀ e ∈ r.events, e.id.server = server → e ∈ all := by
  have hopen := query_open hq
  obtain ⟨w, h, hr⟩ := reached_refs conf ops hl hk
  have hok : ServerParamsOk { serverId := server, maxResults := max } := by
    by_contra hno
    obtain ⟨err, herr⟩ := (C31_rejected ((Backend.new conf).run ops) _).1 hno
    cases hall with
    | last h1 => rw [herr] at h1; cases h1
    | more h1 => rw [herr] at h1; cases h1
  obtain ⟨full, f1, -, f3⟩ := server_paging h hr hopen hid { serverId := server, maxResults := max } hok hmax
  obtain rfl := f3 all hall
  intro e he hs
  exact (f1.mem e).2 ⟨.inr ⟨rfl, returned_held h hp hq e he⟩, hs, by simp⟩

/-- Events with the same identifier that are returned by queries, whatever they
ask for, are the same. -/
theorem C113_same (conf : Conf) (ops : List BackendOp) (hl : LookupLaws ops) (p q : QueryParams) (r s : QueryResult)
    (hp : ((Backend.new conf).run ops).query p = .ok r) (hq : ((Backend.new conf).run ops).query q = .ok s) :
    ∀ e ∈ r.events, ∀ x ∈ s.events, e.id = x.id → e = x := by
  obtain ⟨w, h⟩ := reached conf ops hl
  intro e he x hx hid
  exact storeOk_unique h.rel.okC (returned_log h hp e he) (returned_log h hq x hx) hid

/-- An identifier that was seen with persisted events stays with its event,
whatever happens and whatever is asked later, also over restarts. -/
theorem C113_stable (conf : Conf) (ops more : List BackendOp) (hl : LookupLaws (ops ++ more)) (hk : KeepsAccepted (ops ++ more))
    (p : QueryServerParams) (hpers : p.persisted = true) (q : QueryParams) (r s : QueryResult)
    (hp : ((Backend.new conf).run ops).query (.server p) = .ok r)
    (hq : ((Backend.new conf).run (ops ++ more)).query q = .ok s) :
    ∀ e ∈ r.events, ∀ x ∈ s.events, e.id = x.id → e = x := by
  obtain ⟨w, h, hr⟩ := reached_refs conf ops (fun c hc => hl c (by simp [hc])) (keepsAccepted_left hk)
  have hok : ServerParamsOk p := by
    by_contra hno
    obtain ⟨err, herr⟩ := (C31_rejected ((Backend.new conf).run ops) _).1 hno
    rw [herr] at hp
    cases hp
  obtain ⟨full, f1, f2⟩ := server_reached h hr (query_open hp) p hok
  rw [f2] at hp
  cases hp
  obtain ⟨w', h', -, hon⟩ := onwards_restarts h hr more hl hk
  intro e he x hx hid
  have h1 := (serverHeld_log h.run ((f1.mem e).1 (List.mem_of_mem_take he)).1).1
  rw [hpers] at h1
  have h2 : e ∈ w'.flushed.log := by simpa [storedLog] using hon.log e h1
  exact storeOk_unique h'.rel.okC ((run_ok h'.run).pre.subset h2) (returned_log h' hq x hx) hid

/-! ### Examples -/

/-- The assumptions of `C113_found`, `C113_same` and `C113_stable`: all kinds of
queries return the first event of server 2, of which server 2 has three. -/
example : LookupLaws exHistory ∧ KeepsAccepted exHistory ∧ (∀ es, .register es ∈ exHistory → ∀ e ∈ es, IdRange e.id) ∧
    ((Backend.new (exConf none [])).run exHistory).query (.timeseries { maxResults := some 2 }) =
      .ok ⟨[exE 2 2 1 ["a"] 6 (some 3), exE 2 1 1 ["a"] 5 none], true⟩ ∧
    ((Backend.new (exConf none [])).run exHistory).query (.latest none) = .ok ⟨[exE 2 2 1 ["a"] 6 (some 3)], false⟩ ∧
    ((Backend.new (exConf none [])).run (exHistory.take 3)).query (.server { serverId := 2, persisted := true }) =
      .ok ⟨[exE 2 1 1 ["a"] 5 none], false⟩ ∧
    Pages (fun i => ((Backend.new (exConf none [])).run exHistory).query
        (.server { serverId := 2, maxResults := some 1, lastEventId := i })) none
      [exE 2 1 1 ["a"] 5 none, exE 2 2 1 ["a"] 6 (some 3), exE 2 2 2 ["b"] 7 (some 2)] := by
  refine ⟨exHistory_laws, exHistory_accepted, ?_, by rfl, by rfl, by rfl, ?_⟩
  · intro es h
    simp only [exHistory, List.mem_cons, reduceCtorEq, BackendOp.register.injEq, List.not_mem_nil,
      or_false, false_or] at h
    rcases h with rfl | rfl <;> simp [exE, IdRange, U64]
  · exact .more (x := exE 2 1 1 ["a"] 5 none) (events := [exE 2 1 1 ["a"] 5 none]) (by rfl) rfl
      (.more (x := exE 2 2 1 ["a"] 6 (some 3)) (events := [exE 2 2 1 ["a"] 6 (some 3)]) (by rfl) rfl
        (.last (by rfl)))

/-! ### What does not hold -/

/-- An event that is not persisted may be lost with the process, and its
identifier may be given to another event afterwards. -/
theorem C113_reused_refuted : ¬ ∀ (conf : Conf) (ops more : List BackendOp), LookupLaws (ops ++ more) → KeepsAccepted (ops ++ more) →
    ∀ (p : QueryServerParams) (q : QueryParams) (r s : QueryResult), ((Backend.new conf).run ops).query (.server p) = .ok r →
      ((Backend.new conf).run (ops ++ more)).query q = .ok s → ∀ e ∈ r.events, ∀ x ∈ s.events, e.id = x.id → e = x := by
  intro h
  have := h (exConf none []) [.reopen (exConf none exPartitions), .register [exE 1 1 1 ["a"] 1 none]]
    [.reopen (exConf none exPartitions), .register [exE 1 1 1 ["a"] 2 none]]
    (fun c hc => by
      have : c = exConf none exPartitions := by simpa using hc
      rw [this]
      exact exConf_lookup _ _)
    (by simp [KeepsAccepted, exConf])
    { serverId := 1 } (.server { serverId := 1 }) ⟨[exE 1 1 1 ["a"] 1 none], false⟩ ⟨[exE 1 1 1 ["a"] 2 none], false⟩
    (by rfl) (by rfl) (exE 1 1 1 ["a"] 1 none) (by simp) (exE 1 1 1 ["a"] 2 none) (by simp) rfl
  simp [exE] at this

end HatEvent
