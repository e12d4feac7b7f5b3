import Verif.Props.ReadWrites
import Verif.Proof.ReadSeries

/-!
# C83: events whose registration was answered are seen by timeseries queries
-/

namespace HatEvent
open Spec

/-- A query is answered from a partition that takes the event and has no limit: some partition of the requested
order takes the event, and each one that may be chosen for the query does and has no limit. -/
structure Spec.KeepsFor (conf : Conf) (p : QueryTimeseriesParams) (e : Event) : Prop where
  taken : ∃ part ∈ conf.partitions, part.orderBy = p.orderBy ∧ part.subscription.matches e.type = true
  dated : ∃ t, orderTimestamp p.orderBy e = some t
  all : ∀ part ∈ conf.partitions, part.orderBy = p.orderBy → (conf.useC = false → Related p part) →
    part.subscription.matches e.type = true ∧ part.limit = none

theorem series_run (conf : Conf) (pre : List BackendOp) (hl : LookupLaws pre) (server : Int) (w0 : World)
    (h0 : Reached conf pre w0) (run : List BackendOp) (hno : ∀ c, .reopen c ∉ run)
    (ho : Onward server w0.cur.log (offeredBy server run))
    (hopen : ((Backend.new conf).run (pre ++ run)).mem ≠ none) :
    ∃ w, Reached conf (pre ++ run) w ∧
      Series w.conf w.partitions server w0.cur.log w.cur (offeredBy server run) := by
  induction run using List.reverseRecOn with
  | nil => exact ⟨w0, by simpa using h0, h0.rel.okC, fun x hx _ => .inl hx, by simp [offeredBy]⟩
  | append_singleton run op ih =>
    rw [offeredBy_snoc] at ho ⊢
    have hnr : ∀ c, op ≠ .reopen c := fun c hc => hno c (by simp [hc])
    have hno' : ∀ c, .reopen c ∉ run := fun c hc => hno c (by simp [hc])
    rw [← List.append_assoc] at hopen ⊢
    have hopen' : ((Backend.new conf).run (pre ++ run)).mem ≠ none := by
      intro hnone
      apply hopen
      rw [run_snoc]
      generalize (Backend.new conf).run (pre ++ run) = b at hnone
      cases op <;> simp_all [Backend.step]
    obtain ⟨w, h1, h3⟩ := ih hno' ho.prefix hopen'
    have hll : LookupLaws (pre ++ run) := by
      intro c hc
      rcases List.mem_append.1 hc with hc | hc
      · exact hl c hc
      · exact absurd hc (hno' c)
    obtain ⟨w', h4, h5⟩ := reached_step h1 op hll
    have hw : w'.isOpen = true := by
      rw [h5.rel.isOpen]
      cases hm : ((Backend.new conf).run (pre ++ run ++ [op])).mem with
      | none => exact absurd hm hopen
      | some m => rfl
    refine ⟨w', h5, ?_⟩
    cases h4 with
    | closed a b => rw [hw] at a; cases a
    | @register es a =>
      have hes : offeredBy server [.register es] = es.filter fun e => e.id.server = server := by simp [offeredBy]
      rw [hes] at ho ⊢
      exact h3.offers es ho
    | touch a => simpa [offeredBy] using h3
    | flush a => simpa [offeredBy] using h3
    | flushFail a => cases hw
    | cleanup r a b => simpa [offeredBy] using h3.drop r fun k hk => (b k hk).2
    | cleanupFail a => cases hw
    | reopen a => exact absurd rfl (hnr _)
    | reopenFail => exact absurd rfl (hnr _)

/-- **C83** for the backend: since some moment, with the backend open, events of a server are registered, with
increasing ids after the last one at that moment and with timestamps that do not decrease; everything is flushed, or
there are only events of one server and the query is ordered by timestamp.  Then each of those events that
matches a timeseries query and is kept for it is among the results of the query, read page by page. -/
theorem C83_backend (conf : Conf) (pre run : List BackendOp) (hl : LookupLaws pre) (hc : TsConfs pre)
    (hno : ∀ c, .reopen c ∉ run) (hord : OrdinaryEvents (pre ++ run)) (server : Int) (last : EventId)
    (hlast : ((Backend.new conf).run pre).getLastEventId server = .ok last)
    (hid : ∀ e ∈ offeredBy server run, IdLt last e.id)
    (hids : (offeredBy server run).Pairwise fun a b => IdLt a.id b.id)
    (htimes : (offeredBy server (pre ++ run)).Pairwise fun a b =>
      b ∈ offeredBy server run → TimeLe a.timestamp b.timestamp)
    (hmin : ∀ e ∈ offeredBy server run, TimeLe minTimestamp e.timestamp)
    (hopen : ((Backend.new conf).run (pre ++ run)).mem ≠ none) :
    let b := (Backend.new conf).run (pre ++ run)
    ∀ p : QueryTimeseriesParams, TsParamsOk b.conf p → 0 < tsPage b.conf p.maxResults →
      InOrderHistory (pre ++ run) p.orderBy →
      let query := fun i => b.query (.timeseries { p with lastEventId := i })
      ∃ full, Pages query none full ∧ (∀ r, Pages query none r → r = full) ∧
        ∀ e ∈ offeredBy server run, b.conf.conditions e = true → TsMatches p e → KeepsFor b.conf p e →
          e ∈ full := by
  intro b p hp hpos hin query
  obtain ⟨w0, h0⟩ := reached conf pre hl
  have ho := onward_run conf pre run server last w0 h0 hlast hid hids htimes hmin
  obtain ⟨w, h1, h2⟩ := series_run conf pre hl server w0 h0 run hno ho hopen
  have hre : ∀ c, .reopen c ∈ pre ++ run → .reopen c ∈ pre := by
    intro c hc'
    rcases List.mem_append.1 hc' with h | h
    · exact h
    · exact absurd h (hno c)
  have hl' : LookupLaws (pre ++ run) := fun c h => hl c (hre c h)
  have hc' : TsConfs (pre ++ run) := fun c h => hc c (hre c h)
  have hwo : w.isOpen = true := by rw [run_isOpen h1.run, Option.isSome_iff_ne_none]; exact hopen
  have hconf := run_configured h1.run hwo
  have hwc : b.conf = w.conf := h1.rel.conf
  have hcb := (hc' b.conf (run_conf conf _ hopen)).2
  obtain ⟨sel, full, s1, s2, s3, s4⟩ := pages_reached hl' hc' hord hopen h1 p hp hpos
    (C33_in_order conf _ w h1.run hopen _ hin)
  refine ⟨full, s3, s4, fun e he hv hm hk => ?_⟩
  cases s1 with
  | none hnone =>
    exfalso
    obtain ⟨part, t1, t2, t3⟩ := hk.taken
    rw [hwc] at t1 hcb
    obtain ⟨i, q, q1, q2, q3⟩ := hconf.2.2 part t1
    refine hnone _ (Dict.mem_of_get q1) ⟨q2.trans t2, fun types ht => ⟨e.type, hm.types types ht, ?_⟩⟩
    have hva : ∀ x ∈ w.conf.partitions, x.subscription.Valid := by
      intro x hx
      obtain ⟨i, qs, a1, a2⟩ := hcb x hx
      exact (Obtainable.create a1 a2).valid
    rw [Sub.matches_iff_queryTypes (hva part t1)] at t3
    rw [Sub.matches_iff_queryTypes (hva q (hconf.2.1 i q q1))]
    obtain ⟨y, y1, y2⟩ := t3
    exact ⟨y, q3.mem_iff.2 y1, y2⟩
  | @some pr q part post a1 a2 a3 a4 =>
    have hg : Dict.get w.partitions q = some part := Dict.get_of_mem hconf.1 (by rw [a1]; simp)
    have hin' := hk.all part (by rw [hwc]; exact hconf.2.1 q part hg) a3 a4
    obtain ⟨t, ht⟩ := hk.dated
    have hs : KeptSeries w.partitions e ⟨q, t, e.id⟩ := by
      refine ⟨⟨rfl, part, hg, hin'.1, ?_⟩, fun x hx => ?_⟩
      · rw [← a3] at ht
        cases hob : part.orderBy with
        | timestamp => rw [hob] at ht; exact .inl ⟨rfl, (Option.some.inj ht).symm⟩
        | sourceTimestamp => rw [hob] at ht; exact .inr ⟨rfl, ht⟩
      · obtain rfl := Option.some.inj (hg.symm.trans hx)
        exact hin'.2
    exact (s2.mem e).2 ⟨⟨_, rfl, h2.kept e he (by rw [← hwc]; exact hv) _ hs⟩, hv, hm⟩

/-- **C83** for the events of requests: an engine is created on an open backend; the events of its server that are
registered since then are those it passed to the backend.  After a request was answered with events, each of them
that matches a timeseries query and is kept for it is among the results of the query.  Missing: a clock that is set
back, and events that are not flushed, of several servers or queried by source timestamp, see `C83_refuted`. -/
theorem C83_engine_partial (conf : Conf) (pre run : List BackendOp) (hl : LookupLaws pre) (hc : TsConfs pre)
    (hno : ∀ c, .reopen c ∉ run) (hord : OrdinaryEvents (pre ++ run)) (econf : EngineConf) (last : EventId)
    (hlast : ((Backend.new conf).run pre).getLastEventId econf.serverId = .ok last) (acts : List EngineAct)
    (hcalls : offeredBy econf.serverId run = ((Engine.create econf last).run acts).sent.flatten)
    (htimes : (offeredBy econf.serverId (pre ++ run)).Pairwise fun a b =>
      b ∈ offeredBy econf.serverId run → TimeLe a.timestamp b.timestamp)
    (hmin : ∀ e ∈ offeredBy econf.serverId run, TimeLe minTimestamp e.timestamp)
    (hopen : ((Backend.new conf).run (pre ++ run)).mem ≠ none) :
    let b := (Backend.new conf).run (pre ++ run)
    ∀ p : QueryTimeseriesParams, TsParamsOk b.conf p → 0 < tsPage b.conf p.maxResults →
      InOrderHistory (pre ++ run) p.orderBy →
      let query := fun i => b.query (.timeseries { p with lastEventId := i })
      ∃ full, Pages query none full ∧ (∀ r, Pages query none r → r = full) ∧
        ∀ i l, (i, .result (some l)) ∈ ((Engine.create econf last).run acts).outcomes → ∀ e ∈ l,
          b.conf.conditions e = true → TsMatches p e → KeepsFor b.conf p e → e ∈ full := by
  intro b p hp hpos hin query
  have hsub : ((Engine.create econf last).run acts).sent.flatten.Sublist
      ((Engine.create econf last).run acts).created :=
    (List.sublist_append_left _ _).trans (listed_run econf last acts)
  have hinc := C18_increasing econf last acts
  obtain ⟨full, h1, h2, h3⟩ := C83_backend conf pre run hl hc hno hord econf.serverId last hlast
    (by rw [hcalls]; exact fun e he => hinc.2 e (hsub.subset he))
    (by rw [hcalls]; exact hinc.1.sublist hsub) htimes hmin hopen p hp hpos hin
  refine ⟨full, h1, h2, fun i l hi e he hv => h3 e ?_ hv⟩
  rw [hcalls]
  rcases C19_registered econf last acts i l hi with rfl | ⟨es, hes, hp⟩
  · simp at he
  · exact List.mem_flatten.2 ⟨es, hes, hp.subset he⟩

/-- A configuration with partitions without limits for all events. -/
def exSeries : Conf := exConf none [⟨.timestamp, .py (.mk false [("*", .mk true [])]), none⟩,
  ⟨.sourceTimestamp, .py (.mk false [("*", .mk true [])]), none⟩]

/-- An engine that served a request for two events with a source timestamp. -/
def exDated : Engine := (Engine.create exEngineConf ⟨7, 0, 0⟩).run (exFirst ++
  [.register ⟨.eventer, 3⟩ [⟨["a"], some (exAt 5), none⟩, ⟨["b"], some (exAt 1), none⟩], .take (exAt 2), .told, .told,
    .next, .processed [], .processed [], .processed [], .next, .processed [], .next, .told, .told, .next,
    .registered .same (exAt 2)])

/-- Its events. -/
def exDatedEvents : List Event :=
  [⟨⟨7, 2, 1⟩, ["a"], exAt 2, some (exAt 5), none⟩, ⟨⟨7, 2, 2⟩, ["b"], exAt 2, some (exAt 1), none⟩]

theorem exSeries_laws : LookupLaws [.reopen exSeries] ∧ TsConfs [.reopen exSeries] := by
  constructor
  · intro c hc
    simp only [List.mem_cons, BackendOp.reopen.injEq, List.not_mem_nil, or_false] at hc
    subst hc
    exact exConf_lookup _ _
  · intro c hc
    simp only [List.mem_cons, BackendOp.reopen.injEq, List.not_mem_nil, or_false] at hc
    subst hc
    refine ⟨by decide, ?_⟩
    intro p hp
    simp only [exSeries, exConf, List.mem_cons, List.not_mem_nil, or_false] at hp
    rcases hp with rfl | rfl
    · exact ⟨.py, [["*"]], by unfold NulFree; decide, rfl⟩
    · exact ⟨.py, [["*"]], by unfold NulFree; decide, rfl⟩

theorem exSeries_all (t : EventType) : (Sub.py (.mk false [("*", .mk true [])])).matches t = true := by
  show nodeMatches t _ = true
  cases t <;> rfl

theorem exSeries_keeps (p : QueryTimeseriesParams) (e : Event) (h : ∃ t, orderTimestamp p.orderBy e = some t) :
    KeepsFor exSeries p e := by
  refine ⟨?_, h, ?_⟩
  · cases ho : p.orderBy with
    | timestamp => exact ⟨_, List.mem_cons_self, rfl, exSeries_all _⟩
    | sourceTimestamp => exact ⟨_, List.mem_cons_of_mem _ List.mem_cons_self, rfl, exSeries_all _⟩
  · intro part hp _ _
    simp only [exSeries, exConf, List.mem_cons, List.not_mem_nil, or_false] at hp
    rcases hp with rfl | rfl <;> exact ⟨exSeries_all _, rfl⟩

/-- A query for events since some time. -/
def exSince : QueryTimeseriesParams := { tFrom := some (exAt 2), order := .ascending, orderBy := .timestamp }

/-- The events of an answered request are returned, although nothing is flushed. -/
example : offeredBy 7 (calls exDated) = exDated.sent.flatten ∧
    (0, .result (some exDatedEvents)) ∈ exDated.outcomes ∧
    ((Backend.new exSeries).run ([.reopen exSeries] ++ calls exDated)).query (.timeseries exSince) =
      .ok ⟨exDatedEvents, false⟩ :=
  ⟨rfl, List.mem_of_getElem? (i := 0) rfl, rfl⟩

/-- The assumptions of `C83_engine_partial` hold for it. -/
example : ∃ full, Pages (fun i => ((Backend.new exSeries).run ([.reopen exSeries] ++ calls exDated)).query
    (.timeseries { exSince with lastEventId := i })) none full ∧ ∀ e ∈ exDatedEvents, e ∈ full := by
  have hcalls : calls exDated = [.register [⟨⟨7, 1, 1⟩, ["event", "7", "engine"], exAt 1, none,
      some (.json (.str "STARTED"))⟩], .register exDatedEvents] := rfl
  have hall : offeredBy 7 (calls exDated) = ⟨⟨7, 1, 1⟩, ["event", "7", "engine"], exAt 1, none,
      some (.json (.str "STARTED"))⟩ :: exDatedEvents := rfl
  obtain ⟨full, h1, _, h3⟩ := C83_engine_partial exSeries [.reopen exSeries] (calls exDated) exSeries_laws.1
    exSeries_laws.2 (by rw [hcalls]; simp)
    (by
      intro es hes e he
      rw [hcalls] at hes
      simp only [List.cons_append, List.nil_append, List.mem_cons, reduceCtorEq, BackendOp.register.injEq,
        List.not_mem_nil, or_false, false_or] at hes
      rcases hes with rfl | rfl
      · obtain rfl := List.mem_singleton.1 he
        simp [Ordinary, exAt, TimeLe, TimeLt, maxTimestamp, maxId]
      · simp only [exDatedEvents, List.mem_cons, List.not_mem_nil, or_false] at he
        rcases he with rfl | rfl <;> simp [Ordinary, exAt, TimeLe, TimeLt, maxTimestamp, maxId])
    exEngineConf ⟨7, 0, 0⟩ rfl _ (show offeredBy 7 (calls exDated) = exDated.sent.flatten from rfl)
    (by
      have : offeredBy exEngineConf.serverId ([BackendOp.reopen exSeries] ++ calls exDated) =
        offeredBy 7 (calls exDated) := rfl
      rw [this, hall]
      have hpw : (⟨⟨7, 1, 1⟩, ["event", "7", "engine"], exAt 1, none, some (.json (.str "STARTED"))⟩ ::
        exDatedEvents : List Event).Pairwise fun a b => TimeLe a.timestamp b.timestamp := by
        simp [exDatedEvents, exAt, TimeLe, TimeLt]
      exact List.Pairwise.imp (fun {a b} h (_ : b ∈ offeredBy exEngineConf.serverId (calls exDated)) => h) hpw)
    (by
      intro e he
      have : offeredBy exEngineConf.serverId (calls exDated) = offeredBy 7 (calls exDated) := rfl
      rw [this, hall] at he
      simp only [exDatedEvents, List.mem_cons, List.not_mem_nil, or_false] at he
      rcases he with rfl | rfl | rfl <;> simp [exAt, TimeLe, TimeLt, minTimestamp])
    (by rw [Ne, ← Option.isNone_iff_eq_none]; exact Bool.false_ne_true)
    exSince
    (by
      refine ⟨by simp [exSince], by simp [exSince], ?_, by simp [exSince]⟩
      intro t ht x hx
      subst hx
      simp only [exSince, List.mem_cons, List.not_mem_nil, or_false, Option.some.injEq, reduceCtorEq] at ht
      subst ht
      unfold TimeRange exAt; norm_num)
    (by decide)
    (.inr ⟨rfl, 7, by
      intro es hes e he
      rw [hcalls] at hes
      simp only [List.cons_append, List.nil_append, List.mem_cons, reduceCtorEq, BackendOp.register.injEq,
        List.not_mem_nil, or_false, false_or] at hes
      rcases hes with rfl | rfl
      · obtain rfl := List.mem_singleton.1 he; rfl
      · simp only [exDatedEvents, List.mem_cons, List.not_mem_nil, or_false] at he
        rcases he with rfl | rfl <;> rfl⟩)
  refine ⟨full, h1, fun e he => h3 0 exDatedEvents (List.mem_of_getElem? (i := 0) rfl) e he rfl ?_
    (exSeries_keeps _ _ ⟨e.timestamp, rfl⟩)⟩
  simp only [exDatedEvents, List.mem_cons, List.not_mem_nil, or_false] at he
  rcases he with rfl | rfl <;>
    exact ⟨by simp [exSince, exAt, TimeLe, TimeLt], by simp [exSince], by simp [exSince], by simp [exSince],
      by simp [exSince]⟩

/-- A query for events with early source timestamps. -/
def exEarly : QueryTimeseriesParams :=
  { sourceTTo := some (exAt 4), order := .ascending, orderBy := .sourceTimestamp }

/-- **C83 does not hold** for events that are not flushed: a request is answered with two events, both taken by
a partition without a limit, but a query that one of them matches returns nothing until the next flush. -/
theorem C83_refuted : ∃ (conf : Conf) (econf : EngineConf) (acts : List EngineAct) (first : EventId)
    (p : QueryTimeseriesParams),
    let start := (Backend.new conf).run [.reopen conf]
    let s := (Engine.create econf first).run acts
    LookupLaws [.reopen conf] ∧ TsConfs [.reopen conf] ∧ (∀ e, conf.conditions e = true) ∧
      start.getLastEventId econf.serverId = .ok first ∧
      s.sent.flatten.Pairwise (fun a b => TimeLe a.timestamp b.timestamp) ∧
      ∃ l, (0, .result (some l)) ∈ s.outcomes ∧ (∃ e ∈ l, TsMatches p e ∧ KeepsFor conf p e ∧
        (start.run (calls s)).query (.timeseries p) = .ok ⟨[], false⟩ ∧
        (start.run (calls s ++ [.flush])).query (.timeseries p) = .ok ⟨[e], false⟩) := by
  refine ⟨exSeries, exEngineConf, _, ⟨7, 0, 0⟩, exEarly, exSeries_laws.1, exSeries_laws.2, fun _ => rfl, rfl, ?_,
    exDatedEvents, List.mem_of_getElem? (i := 0) (l := exDated.outcomes) rfl, _,
    List.mem_cons_of_mem _ List.mem_cons_self, ?_, exSeries_keeps _ _ ⟨exAt 1, rfl⟩, rfl, rfl⟩
  · show exDated.sent.flatten.Pairwise _
    have : exDated.sent.flatten =
      ⟨⟨7, 1, 1⟩, ["event", "7", "engine"], exAt 1, none, some (.json (.str "STARTED"))⟩ :: exDatedEvents := rfl
    rw [this]
    simp [exDatedEvents, exAt, TimeLe, TimeLt]
  · refine ⟨by simp [exEarly], by simp [exEarly], by simp [exEarly], ?_, by simp [exEarly]⟩
    intro t ht
    obtain rfl := Option.some.inj ht
    exact ⟨exAt 1, rfl, by simp [exAt, TimeLe, TimeLt]⟩

end HatEvent
