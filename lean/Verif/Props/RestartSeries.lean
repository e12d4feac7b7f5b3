import Verif.Props.StationSeries
import Verif.Props.StationRestart
import Verif.Props.LmdbOpen

/-!
# C104: what a client has registered, timeseries queries find after restarts of the server
-/

namespace HatEvent
open Spec

/-- The partitions a query may be answered from existed, with the same ordering and query types, when the event was registered, and take it. -/
structure Spec.KeptAcross (conf conf' : Conf) (p : QueryTimeseriesParams) (x : Event) : Prop where
  taken : ∃ part ∈ conf'.partitions, part.orderBy = p.orderBy ∧ part.subscription.matches x.type = true
  dated : ∃ t, orderTimestamp p.orderBy x = some t
  all : ∀ part' ∈ conf'.partitions, part'.orderBy = p.orderBy → (conf'.useC = false → Related p part') →
    ∃ part ∈ conf.partitions, part.orderBy = part'.orderBy ∧
      part.subscription.getQueryTypes.Perm part'.subscription.getQueryTypes ∧ part.subscription.matches x.type = true

/-- No configuration limits a partition of the order that takes the event. -/
def Spec.Unlimited (ops : List BackendOp) (o : OrderBy) (x : Event) : Prop :=
  ∀ c, .reopen c ∈ ops → ∀ part ∈ c.partitions, part.orderBy = o → part.subscription.matches x.type = true → part.limit = none

/-- Partitions of a file with the same identity have the same ordering and query types. -/
theorem partition_identity {conf : Conf} {ops more : List BackendOp} {w w' : World} (h : Reached conf ops w) (ho : w.isOpen = true)
    (h' : Reached conf (ops ++ more) w') (ho' : w'.isOpen = true) {i j : Int} {p q : Partition} (hp : Dict.get w.partitions i = some p)
    (hq : Dict.get w'.partitions j = some q) :
    i = j ↔ (p.orderBy = q.orderBy ∧ p.subscription.getQueryTypes.Perm q.subscription.getQueryTypes) := by
  rw [h.rel.isOpen, Option.isSome_iff_exists] at ho
  rw [h'.rel.isOpen, Option.isSome_iff_exists] at ho'
  obtain ⟨m, hm⟩ := ho
  obtain ⟨m', hm'⟩ := ho'
  refine C48_identity conf ops more m m' hm ?_ i j p q ?_ ?_
  · rw [← hm']; unfold Backend.run; rw [List.foldl_append]
  · rw [(h.rel.opened m hm).2.partsEq]; exact hp
  · rw [(h'.rel.opened m' hm').2.partsEq]; exact hq

theorem partition_takes {conf conf' : Conf} {ops : List BackendOp} (hc : TsConfs ops) (h : .reopen conf ∈ ops) (h' : .reopen conf' ∈ ops)
    {p q : Partition} (hp : p ∈ conf.partitions) (hq : q ∈ conf'.partitions)
    (hpq : p.subscription.getQueryTypes.Perm q.subscription.getQueryTypes) {t : EventType} (hm : p.subscription.matches t = true) :
    q.subscription.matches t = true := by
  have hva : ∀ (c : Conf), .reopen c ∈ ops → ∀ y ∈ c.partitions, y.subscription.Valid := by
    intro c hcm y hy
    obtain ⟨i, qs, a1, a2⟩ := (hc c hcm).2 y hy
    exact (Obtainable.create a1 a2).valid
  rw [Sub.matches_iff_queryTypes (hva conf h p hp)] at hm
  rw [Sub.matches_iff_queryTypes (hva conf' h' q hq)]
  obtain ⟨y, y1, y2⟩ := hm
  exact ⟨y, hpq.mem_iff.1 y1, y2⟩

theorem Reached.conf_mem {conf : Conf} {ops : List BackendOp} {w : World} (h : Reached conf ops w) (ho : w.isOpen = true) : .reopen w.conf ∈ ops := by
  rw [← h.rel.conf]
  refine run_conf conf ops ?_
  rw [h.rel.isOpen, Option.isSome_iff_ne_none] at ho
  exact ho

/-- What is permanent in partitions without limit remains so, whatever happens. -/
theorem entries_more {conf : Conf} {ops : List BackendOp} {w : World} (h : Reached conf ops w) (ho : w.isOpen = true) (x : Event) (o : OrderBy)
    (hfl : w.flushed = w.cur) (rest : List BackendOp) (hl : LookupLaws (ops ++ rest)) (hc : TsConfs (ops ++ rest))
    (hu : Unlimited (ops ++ rest) o x) :
    ∃ w', Reached conf (ops ++ rest) w' ∧ ∀ k p, Dict.get w.partitions k.partition = some p → p.orderBy = o →
      p.subscription.matches x.type = true → w.cur.entry k = some x → w'.cur.entry k = some x ∧ w'.flushed.entry k = some x := by
  induction rest using List.reverseRecOn with
  | nil => exact ⟨w, by simpa using h, fun k p _ _ _ hk => ⟨hk, by rw [hfl]; exact hk⟩⟩
  | append_singleton rest op ih =>
    rw [← List.append_assoc] at hl hc hu ⊢
    have hin : ∀ c, .reopen c ∈ ops ++ rest → .reopen c ∈ ops ++ rest ++ [op] := fun c hcm => List.mem_append_left _ hcm
    obtain ⟨w1, h1, hall⟩ := ih (fun c hcm => hl c (hin c hcm)) (fun c hcm => hc c (hin c hcm)) (fun c hcm => hu c (hin c hcm))
    obtain ⟨w2, h4, h5⟩ := reached_step h1 op (fun c hcm => hl c (hin c hcm))
    refine ⟨w2, h5, fun k p hp hob hm hcur => ?_⟩
    obtain ⟨h2, h3⟩ := hall k p hp hob hm hcur
    cases h4 with
    | closed a b => exact ⟨h2, h3⟩
    | @register es a => exact ⟨entry_offers es h1.rel.okC h2, h3⟩
    | touch a => exact ⟨h2, h3⟩
    | flush a => exact ⟨h2, h2⟩
    | flushFail a => exact ⟨h3, h3⟩
    | cleanup r a b =>
      have hr : ¬ r k := by
        intro hrk
        obtain ⟨-, part, limit, g1, g2⟩ := b k hrk
        obtain ⟨i1, i2⟩ := (partition_identity h ho h1 a hp g1).1 rfl
        have hpart := (run_configured h1.run a).2.1 _ _ g1
        have hconf : .reopen w1.conf ∈ ops ++ rest := h1.conf_mem a
        have := hu w1.conf (hin _ hconf) part hpart (i1.symm.trans hob)
          (partition_takes hc (hin _ (List.mem_append_left _ (h.conf_mem ho))) (hin _ hconf)
            ((run_configured h.run ho).2.1 _ _ hp) hpart i2 hm)
        rw [this] at g2
        cases g2
      unfold Store.drop
      dsimp only
      rw [if_neg hr, if_neg hr]
      exact ⟨h2, h3⟩
    | cleanupFail a => exact ⟨h3, h3⟩
    | reopen a => exact ⟨h3, h3⟩
    | reopenFail => exact ⟨h3, h3⟩

/-- After a flush nothing is pending. -/
theorem flushed_eq {conf : Conf} {ops : List BackendOp} {w : World} (h : Reached conf (ops ++ [.flush]) w) (hw : w.isOpen = true) :
    w.flushed = w.cur := by
  obtain ⟨w0, _, hst⟩ := run_spec_snoc h.run
  cases hst with
  | closed a b => rw [hw] at a; cases a
  | flush => rfl
  | flushFail => cases hw

/-- An event the backend kept when it was flushed, and a timeseries query of a client of a later process. -/
theorem Station.series_later {cf' : StationConf} {db : Conf} (hdb : cf'.db = db) {b : Nat} (hb : cf'.foreign b = false) {ops rest : List BackendOp} {w2 : World}
    (h3 : Reached db (ops ++ [.flush]) w2) (hopen2 : ((Backend.new db).run (ops ++ [.flush])).mem ≠ none) {x : Event} (hkeep : KeepsAt w2 x)
    {then_ : List StationAct} {p : QueryTimeseriesParams} {after : List StationAct} {cb cb' : ReqClient} {r : QueryResult} :
    let t0 := (Station.init cf' (ops ++ [.flush] ++ rest)).run cf' then_
    let t1 := (t0.step cf' (.client b (.query (.timeseries p)))).run cf' after
    LookupLaws (ops ++ [.flush] ++ rest) → TsConfs (ops ++ [.flush] ++ rest) →
    t0.clients b = some cb → t1.clients b = some cb' → cb'.calls cb.nextCall = .finished (.answered (.result r)) →
    OrdinaryEvents t1.past → TsParamsOk (t0.backend cf').conf p → p.lastEventId = none →
    (∀ first, first <+: .client b (.query (.timeseries p)) :: after → InOrderHistory (t0.run cf' first).past p.orderBy) →
    w2.conf.conditions x = true → (t0.backend cf').conf.conditions x = true → TsMatches p x →
      KeptAcross w2.conf (t0.backend cf').conf p x → Unlimited (ops ++ [.flush] ++ rest) p.orderBy x →
      x ∈ r.events ∨ (r.moreFollows = true ∧ ∀ y ∈ r.events, OrderOk p y x) := by
  intro t0 t1 hl hc hcb hcb' hxb hord hp hn hin hv hv' hmx hk hu
  have hw2o : w2.isOpen = true := by rw [h3.rel.isOpen, Option.isSome_iff_ne_none]; exact hopen2
  have hconf2 := run_configured h3.run hw2o
  -- and in the later process
  have hlkb : Station.Linked (fun _ _ _ => True) b t0 := Station.linked_any hb _
  refine Station.answered_query hb hlkb (fun r => x ∈ r.events ∨ (r.moreFollows = true ∧ ∀ y ∈ r.events, OrderOk p y x)) ?_ hcb hcb' hxb
  intro first r hfirst hq
  have hio := hin first hfirst
  have hsub : (t0.run cf' first).past <+: t1.past := by
    obtain ⟨more, hmore⟩ := hfirst
    have : t1 = (t0.run cf' first).run cf' more := by rw [← Station.run_append, hmore]; rfl
    rw [this]; exact Station.past_run cf' _ more
  obtain ⟨more', hm', hno'⟩ := Station.past_more cf' (Station.init cf' (ops ++ [.flush] ++ rest)) (then_ ++ first)
  have hcf' : ((t0.run cf' first).backend cf').conf = (t0.backend cf').conf := Station.backend_conf cf' t0 first
  have hpast : (t0.run cf' first).past = ops ++ [.flush] ++ (rest ++ more') := by
    have : t0.run cf' first = (Station.init cf' (ops ++ [.flush] ++ rest)).run cf' (then_ ++ first) := by rw [Station.run_append]
    rw [this, hm']
    simp [Station.init]
  unfold Station.backend at hq
  rw [hpast, hdb] at hq
  rw [hpast] at hio hsub
  have hconf : ((Backend.new db).run (ops ++ [.flush] ++ (rest ++ more'))).conf = (t0.backend cf').conf := by
    rw [← hcf', Station.backend, hpast, hdb]
  have hre : ∀ c, .reopen c ∈ ops ++ [.flush] ++ (rest ++ more') → .reopen c ∈ ops ++ [.flush] ++ rest := by
    intro c hcm
    rw [← List.append_assoc] at hcm
    rcases List.mem_append.1 hcm with hcm | hcm
    · exact hcm
    · exact absurd hcm (hno' c)
  have hl' : LookupLaws (ops ++ [.flush] ++ (rest ++ more')) := fun c hcm => hl c (hre c hcm)
  have hc' : TsConfs (ops ++ [.flush] ++ (rest ++ more')) := fun c hcm => hc c (hre c hcm)
  have hu' : Unlimited (ops ++ [.flush] ++ (rest ++ more')) p.orderBy x := fun c hcm => hu c (hre c hcm)
  have hord' : OrdinaryEvents (ops ++ [.flush] ++ (rest ++ more')) := fun l hlm => hord l (hsub.subset hlm)
  have hopen' : ((Backend.new db).run (ops ++ [.flush] ++ (rest ++ more'))).mem ≠ none := by
    intro hn
    unfold Backend.query at hq
    rw [hn] at hq
    simp at hq
  obtain ⟨w', h6, h7⟩ := entries_more h3 hw2o x p.orderBy (flushed_eq h3 hw2o) (rest ++ more') hl' hc' hu'
  have hw'o : w'.isOpen = true := by rw [h6.rel.isOpen, Option.isSome_iff_ne_none]; exact hopen'
  obtain ⟨full, f1, f2, f3, _⟩ := series_found hl' hc' hord' hopen' h6 p (by rw [hconf]; exact hp) (C33_in_order db _ w' h6.run hopen' _ hio)
  rw [hconf] at f2 f3
  rw [show ({ p with lastEventId := none } : QueryTimeseriesParams) = p by rw [← hn]] at f3
  rw [f3] at hq
  rw [← Except.ok.inj hq]
  refine page_or f1 (f2 x hv' hmx hk.taken fun q part hg hob hrel => ?_) _
  have hw'c : w'.conf = (t0.backend cf').conf := by rw [← h6.rel.conf, hconf]
  have hpart := (run_configured h6.run hw'o).2.1 q part hg
  rw [hw'c] at hpart
  obtain ⟨part0, e1, e2, e3, e4⟩ := hk.all part hpart hob hrel
  obtain ⟨i, q0, g1, g2, g3⟩ := hconf2.2.2 part0 e1
  have hiq : i = q := (partition_identity h3 hw2o h6 hw'o g1 hg).2 ⟨g2.trans e2, g3.trans e3⟩
  subst hiq
  have hw2m : .reopen w2.conf ∈ ops ++ [.flush] ++ (rest ++ more') := List.mem_append_left _ (h3.conf_mem hw2o)
  have hq0 := hconf2.2.1 i q0 g1
  have hq0m : q0.subscription.matches x.type = true := partition_takes hc' hw2m hw2m e1 hq0 g3.symm e4
  have hq0o : q0.orderBy = p.orderBy := (g2.trans e2).trans hob
  obtain ⟨t, ht⟩ := hk.dated
  have hent : w2.cur.entry ⟨i, t, x.id⟩ = some x :=
    hkeep.series hv _ (keptSeries_of g1 hq0o ht hq0m (hu' _ hw2m q0 hq0 hq0o hq0m))
  exact ⟨t, (h7 _ _ g1 hq0o hq0m hent).1⟩

/-- **C104** for clocks that are not set back before the registration is answered (missing: what was not flushed, and pending events out of order
while the query is answered, see `C104_crash_refuted` and `C103_refuted`): a registration of a client was answered with events, and some
time after that the backend had flushed.  Whatever happens then, be it the end or a crash of the process, be it other processes that use the
file with other configurations and that end or crash: if a client of a later process asks for a timeseries and gets a result, each of
the events that matches the query and was and is kept for it is in the result, or more follows and the event comes after all of the result. -/
theorem C104_partial (cf cf' : StationConf) (hdb : cf'.db = cf.db) (pre : List BackendOp) (a b : Nat) (ha : cf.foreign a = false)
    (hb : cf'.foreign b = false) (before : List StationAct) (evs : List RegisterEvent) (between later : List StationAct)
    (ops rest : List BackendOp) (then_ : List StationAct) (p : QueryTimeseriesParams) (after : List StationAct)
    (ca ca' cb cb' : ReqClient) (es : List Event) (r : QueryResult) :
    let s0 := (Station.init cf pre).run cf before
    let s1 := (s0.step cf (.client a (.register evs true))).run cf between
    let s2 := s1.run cf later
    let t0 := (Station.init cf' (s2.past ++ rest)).run cf' then_
    let t1 := (t0.step cf' (.client b (.query (.timeseries p)))).run cf' after
    LookupLaws (s2.past ++ rest) → TsConfs (s2.past ++ rest) →
    s0.clients a = some ca → s1.clients a = some ca' → ca'.calls ca.nextCall = .finished (.answered (.events (some es))) →
    ClockForward cf.serverId pre s1.past → s2.past = ops ++ [.flush] → (s2.backend cf).mem ≠ none →
    t0.clients b = some cb → t1.clients b = some cb' → cb'.calls cb.nextCall = .finished (.answered (.result r)) →
    OrdinaryEvents t1.past → TsParamsOk (t0.backend cf').conf p → p.lastEventId = none →
    (∀ first, first <+: .client b (.query (.timeseries p)) :: after → InOrderHistory (t0.run cf' first).past p.orderBy) →
    ∀ x ∈ es, (s0.backend cf).conf.conditions x = true → (t0.backend cf').conf.conditions x = true → TsMatches p x →
      KeptAcross (s0.backend cf).conf (t0.backend cf').conf p x → Unlimited (s2.past ++ rest) p.orderBy x →
      x ∈ r.events ∨ (r.moreFollows = true ∧ ∀ y ∈ r.events, OrderOk p y x) := by
  intro s0 s1 s2 t0 t1 hl hc hca hca' hxa hf hflush hopen hcb hcb' hxb hord hp hn hin x hx hv hv' hmx hk hu
  have hpre : pre <+: s2.past := by
    have : s2 = (Station.init cf pre).run cf (before ++ .client a (.register evs true) :: between ++ later) := by
      rw [Station.run_append, Station.run_append]; rfl
    rw [this]; exact Station.past_run cf (Station.init cf pre) _
  have hlpre : LookupLaws pre := fun c hc => hl c (List.mem_append_left _ (hpre.subset hc))
  obtain ⟨hd, hreg⟩ := Station.answered_registered hlpre ha hca hca' hxa hf
  -- it is kept when everything was flushed
  obtain ⟨more, hm, hno⟩ := Station.past_more cf s1 later
  have hopen2 : ((Backend.new cf.db).run (s1.past ++ more)).mem ≠ none := by
    unfold Station.backend at hopen
    rw [← hm]; exact hopen
  obtain ⟨w, h1, h2, _⟩ := hd.shown (open_earlier hno hopen2)
  have hcf1 : ((Backend.new cf.db).run s1.past).conf = (s0.backend cf).conf :=
    Station.backend_conf cf s0 (.client a (.register evs true) :: between)
  obtain ⟨w2, h3, h4, _, h5⟩ := kept_more hd.laws h1 more hno hopen2
  have hkeep := h5 x (h2 x (hreg x hx))
  have hw2 : w2.conf = (s0.backend cf).conf := by rw [h4, ← h1.rel.conf, hcf1]
  rw [← hm, hflush] at h3 hopen2
  have e : s2.past ++ rest = ops ++ [.flush] ++ rest := by rw [hflush]
  have ht0 : t0 = (Station.init cf' (ops ++ [.flush] ++ rest)).run cf' then_ := by rw [← e]
  rw [e] at hl hc hu
  have ht1 : t1 = (((Station.init cf' (ops ++ [.flush] ++ rest)).run cf' then_).step cf' (.client b (.query (.timeseries p)))).run cf' after := by
    rw [← ht0]
  rw [ht0] at hcb hin hp hv' hk
  rw [ht1] at hcb' hord
  rw [← hw2] at hv hk
  exact Station.series_later hdb hb h3 hopen2 hkeep hl hc hcb hcb' hxb hord hp hn hin hv hv' hmx hk hu

/-- The next configuration lists the partitions in another order, with another one between. -/
def exSwapped : Conf := exConf none [⟨.sourceTimestamp, .py (.mk false [("*", .mk true [])]), none⟩, ⟨.timestamp, .py (.mk false [("a", .mk true [])]), none⟩,
  ⟨.timestamp, .py (.mk false [("*", .mk true [])]), none⟩]

/-- The process crashed while other events were registered, the file is used again. -/
def exSwapOps : List BackendOp := [.register [⟨⟨7, 3, 1⟩, ["b"], exAt 20, some (exAt 2), none⟩], .reopen exSwapped]

/-- The next process up to the call of the second client. -/
def exSwap0 : Station :=
  (Station.init exSeriesStation (exSeriesFlushed.past ++ exSwapOps)).run exSeriesStation (exStationUp ++ exStationSession 1 ++ [.keep .flush])

/-- The whole history of the next process. -/
def exSwap1 : Station := (exSwap0.step exSeriesStation (.client 1 (.query (.timeseries exEarly)))).run exSeriesStation exStationQuery

theorem exSwap_past : exSwap0.past = [.reopen exSeries, .register [⟨⟨7, 1, 1⟩, ["event", "7", "engine"], exAt 1, none,
    some (.json (.str "STARTED"))⟩], .register exDatedEvents, .flush, .register [⟨⟨7, 3, 1⟩, ["b"], exAt 20, some (exAt 2), none⟩], .reopen exSwapped,
    .register [⟨⟨7, 3, 1⟩, ["event", "7", "engine"], exAt 1, none, some (.json (.str "STARTED"))⟩], .flush] := rfl

theorem exSwap_quiet (first : List StationAct) (hf : first <+: .client 1 (.query (.timeseries exEarly)) :: exStationQuery) :
    (exSwap0.run exSeriesStation first).past = exSwap0.past := by
  refine exUnmoved _ _ _ fun a ha => ?_
  have := hf.subset ha
  simp only [exStationQuery, List.mem_cons, List.not_mem_nil, or_false] at this
  rcases this with rfl | rfl | rfl | rfl | rfl | rfl
  · exact .inl ⟨_, _, rfl⟩
  · exact .inl ⟨_, _, rfl⟩
  · exact .inr (.inl ⟨_, rfl⟩)
  · exact .inr (.inr (.inl ⟨_, rfl⟩))
  · exact .inr (.inr (.inr ⟨_, rfl⟩))
  · exact .inl ⟨_, _, rfl⟩

theorem exSwap_ordinary : OrdinaryEvents exSwap0.past := by
  intro es hes e he
  rw [exSwap_past] at hes
  simp only [List.mem_cons, reduceCtorEq, BackendOp.register.injEq, List.not_mem_nil, or_false, false_or] at hes
  rcases hes with rfl | rfl | rfl | rfl
  · obtain rfl := List.mem_singleton.1 he
    simp [Ordinary, exAt, TimeLe, TimeLt, maxTimestamp, maxId]
  · simp only [exDatedEvents, List.mem_cons, List.not_mem_nil, or_false] at he
    rcases he with rfl | rfl <;> simp [Ordinary, exAt, TimeLe, TimeLt, maxTimestamp, maxId]
  · obtain rfl := List.mem_singleton.1 he
    simp [Ordinary, exAt, TimeLe, TimeLt, maxTimestamp, maxId]
  · obtain rfl := List.mem_singleton.1 he
    simp [Ordinary, exAt, TimeLe, TimeLt, maxTimestamp, maxId]

theorem exSwap_conf (c : Conf) (h : .reopen c ∈ exSeriesFlushed.past ++ exSwapOps) : c = exSeries ∨ c = exSwapped := by
  rw [← mem_openedWith] at h
  have : openedWith (exSeriesFlushed.past ++ exSwapOps) = [exSeries, exSwapped] := rfl
  rw [this] at h
  simpa using h

/-- Configurations with partitions for all events or for some. -/
theorem exParts_laws {past : List BackendOp} (h : ∀ c, .reopen c ∈ past → ∃ i parts, c = exConf i parts ∧
    ∀ p ∈ parts, p.subscription = .py (.mk false [("*", .mk true [])]) ∨ p.subscription = .py (.mk false [("a", .mk true [])]) ∨
      p.subscription = .py (.mk false [("b", .mk true [])])) : LookupLaws past ∧ TsConfs past := by
  constructor
  · intro c hc
    obtain ⟨i, parts, rfl, _⟩ := h c hc
    exact exConf_lookup _ _
  · intro c hc
    obtain ⟨i, parts, rfl, hp⟩ := h c hc
    refine ⟨by show (0 : Int) ≤ 4096; decide, fun p hpm => ?_⟩
    rcases hp p hpm with e | e | e <;> rw [e]
    · exact ⟨.py, [["*"]], by unfold NulFree; decide, rfl⟩
    · exact ⟨.py, [["a"]], by unfold NulFree; decide, rfl⟩
    · exact ⟨.py, [["b"]], by unfold NulFree; decide, rfl⟩

theorem exEarly_ok (c : Conf) : TsParamsOk c exEarly := by
  refine ⟨by simp [exEarly], by simp [exEarly], ?_, by simp [exEarly]⟩
  intro t ht x hx
  subst hx
  simp only [exEarly, List.mem_cons, List.not_mem_nil, or_false, Option.some.injEq, reduceCtorEq, false_or] at ht
  subst ht
  unfold TimeRange exAt; norm_num

theorem exEarly_b : TsMatches exEarly ⟨⟨7, 2, 2⟩, ["b"], exAt 2, some (exAt 1), none⟩ := by
  refine ⟨by simp [exEarly], by simp [exEarly], by simp [exEarly], ?_, by simp [exEarly]⟩
  intro t ht
  obtain rfl := Option.some.inj ht
  exact ⟨exAt 1, rfl, by simp [exAt, TimeLe, TimeLt]⟩

/-- The assumptions of `C104_partial` hold for it. -/
example : ∃ ops d d', LookupLaws (exSeriesFlushed.past ++ exSwapOps) ∧ TsConfs (exSeriesFlushed.past ++ exSwapOps) ∧
    exSeriesFlushed.past = ops ++ [.flush] ∧ (exSeriesFlushed.backend exSeriesStation).mem.isSome = true ∧
    ClockForward 7 [.reopen exSeries] exSeries1.past ∧
    exSwap0.clients 1 = some d ∧ exSwap1.clients 1 = some d' ∧
    d'.calls d.nextCall = .finished (.answered (.result ⟨[⟨⟨7, 2, 2⟩, ["b"], exAt 2, some (exAt 1), none⟩], false⟩)) ∧
    OrdinaryEvents exSwap1.past ∧ TsParamsOk (exSwap0.backend exSeriesStation).conf exEarly ∧ exEarly.lastEventId = none ∧
    (∀ first, first <+: .client 1 (.query (.timeseries exEarly)) :: exStationQuery →
      InOrderHistory (exSwap0.run exSeriesStation first).past exEarly.orderBy) ∧
    ∃ x ∈ exDatedEvents, TsMatches exEarly x ∧ KeptAcross (exSeries0.backend exSeriesStation).conf (exSwap0.backend exSeriesStation).conf exEarly x ∧
      Unlimited (exSeriesFlushed.past ++ exSwapOps) exEarly.orderBy x := by
  have hlaws : LookupLaws (exSeriesFlushed.past ++ exSwapOps) ∧ TsConfs (exSeriesFlushed.past ++ exSwapOps) := by
    refine exParts_laws fun c hc => ?_
    rcases exSwap_conf c hc with rfl | rfl
    · exact ⟨_, _, rfl, by simp⟩
    · exact ⟨_, _, rfl, by simp⟩
  refine ⟨exSeriesFlushed.past.dropLast, _, _, hlaws.1, hlaws.2, rfl, rfl, exSeries_clock, rfl, rfl, rfl, ?_, exEarly_ok _, rfl,
    fun first hf => by rw [exSwap_quiet first hf]; exact .inl ⟨exSwap0.past.dropLast, rfl⟩, _,
    List.mem_cons_of_mem _ List.mem_cons_self, exEarly_b, ⟨⟨_, List.mem_cons_self, rfl, exSeries_all _⟩, ⟨exAt 1, rfl⟩, ?_⟩, ?_⟩
  · have := exSwap_quiet _ List.prefix_rfl
    rw [exRun_cons] at this
    unfold exSwap1
    rw [this]
    exact exSwap_ordinary
  · intro part' hp ho _
    have hc : (exSwap0.backend exSeriesStation).conf = exSwapped := rfl
    rw [hc] at hp
    simp only [exSwapped, exConf, List.mem_cons, List.not_mem_nil, or_false] at hp
    rcases hp with rfl | rfl | rfl
    · exact ⟨_, List.mem_cons_of_mem _ List.mem_cons_self, rfl, .refl _, exSeries_all _⟩
    · cases ho
    · cases ho
  · intro c hc part hp _ _
    rcases exSwap_conf c hc with rfl | rfl
    · simp only [exSeries, exConf, List.mem_cons, List.not_mem_nil, or_false] at hp
      rcases hp with rfl | rfl <;> rfl
    · simp only [exSwapped, exConf, List.mem_cons, List.not_mem_nil, or_false] at hp
      rcases hp with rfl | rfl | rfl <;> rfl

/-- The next process starts, and flushes. -/
def exAgainUp : List StationAct := exStationUp ++ exStationSession 1 ++ [.keep .flush]

theorem exCrashed_laws : LookupLaws (exSeries1.past ++ [.reopen exSeries]) ∧ TsConfs (exSeries1.past ++ [.reopen exSeries]) := by
  have hre : ∀ c, .reopen c ∈ exSeries1.past ++ [.reopen exSeries] → c = exSeries := by
    intro c hc
    rw [← mem_openedWith] at hc
    have : openedWith (exSeries1.past ++ [.reopen exSeries]) = [exSeries, exSeries] := rfl
    rw [this] at hc
    simpa using hc
  refine exParts_laws fun c hc => ?_
  obtain rfl := hre c hc <;> exact ⟨_, _, rfl, by simp⟩

/-- The next process up to the query. -/
def exCrashed : Station := (Station.init exSeriesStation (exSeries1.past ++ [.reopen exSeries])).run exSeriesStation exAgainUp

theorem exCrashed_order : InOrderHistory exCrashed.past .sourceTimestamp := .inl ⟨exCrashed.past.dropLast, rfl⟩

theorem exCrashed_conf : (exCrashed.backend exSeriesStation).conf = exSeries := rfl

/-- **C104 does not hold** without the flush: a registration of a client is answered with events, the process crashes, and a client of the next
process, with the same configuration, gets an empty result although one of the events matches the query and is kept. -/
theorem C104_crash_refuted : ∃ (cf : StationConf) (pre : List BackendOp) (before between then_ after : List StationAct) (evs : List RegisterEvent)
    (rest : List BackendOp) (p : QueryTimeseriesParams) (ca ca' cb cb' : ReqClient) (es : List Event),
    let s0 := (Station.init cf pre).run cf before
    let s1 := (s0.step cf (.client 0 (.register evs true))).run cf between
    let t0 := (Station.init cf (s1.past ++ rest)).run cf then_
    let t1 := (t0.step cf (.client 1 (.query (.timeseries p)))).run cf after
    LookupLaws (s1.past ++ rest) ∧ TsConfs (s1.past ++ rest) ∧ cf.foreign 0 = false ∧ cf.foreign 1 = false ∧
    s0.clients 0 = some ca ∧ s1.clients 0 = some ca' ∧ ca'.calls ca.nextCall = .finished (.answered (.events (some es))) ∧
    ClockForward cf.serverId pre s1.past ∧ (s1.backend cf).mem.isSome = true ∧
    t0.clients 1 = some cb ∧ t1.clients 1 = some cb' ∧ cb'.calls cb.nextCall = .finished (.answered (.result ⟨[], false⟩)) ∧
    InOrderHistory t0.past p.orderBy ∧ (∀ e, (s0.backend cf).conf.conditions e = true) ∧ (∀ e, (t0.backend cf).conf.conditions e = true) ∧
    ∃ x ∈ es, TsMatches p x ∧ KeepsFor (s0.backend cf).conf p x ∧ KeepsFor (t0.backend cf).conf p x := by
  have hlaws := exCrashed_laws
  refine ⟨exSeriesStation, [.reopen exSeries], exStationUp ++ exStationSession 1, exSeriesAnswer, exAgainUp,
    exStationQuery, exSeriesEvents, [.reopen exSeries], exEarly, _, _, _, _, exDatedEvents, hlaws.1, hlaws.2, rfl, rfl, rfl, rfl, rfl, exSeries_clock, rfl,
    rfl, rfl, rfl, exCrashed_order, fun _ => rfl, fun _ => rfl, _,
    List.mem_cons_of_mem _ List.mem_cons_self, exEarly_b, exSeries_keeps _ _ ⟨exAt 1, rfl⟩, ?_⟩
  show KeepsFor (exCrashed.backend exSeriesStation).conf _ _
  rw [exCrashed_conf]
  exact exSeries_keeps _ _ ⟨exAt 1, rfl⟩

/-- A configuration with a partition for other events than before. -/
def exOnlyB : Conf := exConf none [⟨.sourceTimestamp, .py (.mk false [("b", .mk true [])]), none⟩]

theorem exOnly_laws : LookupLaws (exSeriesFlushed.past ++ [.reopen exOnlyB]) ∧ TsConfs (exSeriesFlushed.past ++ [.reopen exOnlyB]) := by
  have hre : ∀ c, .reopen c ∈ exSeriesFlushed.past ++ [.reopen exOnlyB] → c = exSeries ∨ c = exOnlyB := by
    intro c hc
    rw [← mem_openedWith] at hc
    have : openedWith (exSeriesFlushed.past ++ [.reopen exOnlyB]) = [exSeries, exOnlyB] := rfl
    rw [this] at hc
    simpa using hc
  refine exParts_laws fun c hc => ?_
  rcases hre c hc with rfl | rfl <;> exact ⟨_, _, rfl, by simp⟩

/-- The next process up to the query. -/
def exOnly : Station := (Station.init exSeriesStation (exSeriesFlushed.past ++ [.reopen exOnlyB])).run exSeriesStation exAgainUp

theorem exOnly_order : InOrderHistory exOnly.past .sourceTimestamp := .inl ⟨exOnly.past.dropLast, rfl⟩

theorem exOnly_conf : (exOnly.backend exSeriesStation).conf = exOnlyB := rfl

/-- **C104 does not hold** for partitions with other query types: each configuration has a partition for the event, without a limit, everything is
flushed, but a client of the next process gets an empty result. -/
theorem C104_partition_refuted : ∃ (cf : StationConf) (pre : List BackendOp) (before between later then_ after : List StationAct) (evs : List RegisterEvent)
    (rest ops : List BackendOp) (p : QueryTimeseriesParams) (ca ca' cb cb' : ReqClient) (es : List Event),
    let s0 := (Station.init cf pre).run cf before
    let s1 := (s0.step cf (.client 0 (.register evs true))).run cf between
    let s2 := s1.run cf later
    let t0 := (Station.init cf (s2.past ++ rest)).run cf then_
    let t1 := (t0.step cf (.client 1 (.query (.timeseries p)))).run cf after
    LookupLaws (s2.past ++ rest) ∧ TsConfs (s2.past ++ rest) ∧ cf.foreign 0 = false ∧ cf.foreign 1 = false ∧
    s0.clients 0 = some ca ∧ s1.clients 0 = some ca' ∧ ca'.calls ca.nextCall = .finished (.answered (.events (some es))) ∧
    ClockForward cf.serverId pre s1.past ∧ s2.past = ops ++ [.flush] ∧ (s2.backend cf).mem.isSome = true ∧
    t0.clients 1 = some cb ∧ t1.clients 1 = some cb' ∧ cb'.calls cb.nextCall = .finished (.answered (.result ⟨[], false⟩)) ∧
    InOrderHistory t0.past p.orderBy ∧ (∀ e, (s0.backend cf).conf.conditions e = true) ∧ (∀ e, (t0.backend cf).conf.conditions e = true) ∧
    ∃ x ∈ es, TsMatches p x ∧ KeepsFor (s0.backend cf).conf p x ∧ KeepsFor (t0.backend cf).conf p x := by
  have hlaws := exOnly_laws
  refine ⟨exSeriesStation, [.reopen exSeries], exStationUp ++ exStationSession 1, exSeriesAnswer, [.keep .flush], exAgainUp,
    exStationQuery, exSeriesEvents, [.reopen exOnlyB], exSeriesFlushed.past.dropLast, exEarly, _, _, _, _, exDatedEvents, hlaws.1, hlaws.2, rfl, rfl, rfl, rfl, rfl, exSeries_clock, rfl, rfl,
    rfl, rfl, rfl, exOnly_order, fun _ => rfl, fun _ => rfl, _,
    List.mem_cons_of_mem _ List.mem_cons_self, exEarly_b, exSeries_keeps _ _ ⟨exAt 1, rfl⟩, ?_⟩
  show KeepsFor (exOnly.backend exSeriesStation).conf _ _
  rw [exOnly_conf]
  refine ⟨⟨_, List.mem_cons_self, rfl, rfl⟩, ⟨exAt 1, rfl⟩, fun part hp _ _ => ?_⟩
  obtain rfl := List.mem_singleton.1 hp
  exact ⟨rfl, rfl⟩

/-- A configuration that keeps no entries. -/
def exLimitNone : Conf := exConf none [⟨.sourceTimestamp, .py (.mk false [("*", .mk true [])]), some { maxEntries := some 0 }⟩]

/-- It is used for a while, then the first one again. -/
def exLimitOps : List BackendOp := [.reopen exLimitNone, .cleanup id (fun _ => none) (exAt 30), .flush, .reopen exSeries]

theorem exEmptied_laws : LookupLaws (exSeriesFlushed.past ++ exLimitOps) ∧ TsConfs (exSeriesFlushed.past ++ exLimitOps) := by
  have hre : ∀ c, .reopen c ∈ exSeriesFlushed.past ++ exLimitOps → c = exSeries ∨ c = exLimitNone := by
    intro c hc
    rw [← mem_openedWith] at hc
    have : openedWith (exSeriesFlushed.past ++ exLimitOps) = [exSeries, exLimitNone, exSeries] := rfl
    rw [this] at hc
    simpa [or_comm, or_left_comm] using hc
  refine exParts_laws fun c hc => ?_
  rcases hre c hc with rfl | rfl <;> exact ⟨_, _, rfl, by simp⟩

/-- The next process up to the query. -/
def exEmptied : Station := (Station.init exSeriesStation (exSeriesFlushed.past ++ exLimitOps)).run exSeriesStation exAgainUp

theorem exEmptied_order : InOrderHistory exEmptied.past .sourceTimestamp := .inl ⟨exEmptied.past.dropLast, rfl⟩

theorem exEmptied_conf : (exEmptied.backend exSeriesStation).conf = exSeries := rfl

/-- **C104 does not hold** if a configuration that was used meanwhile has a limit: the partitions of the first and of the last process are the same and
without limits, everything is flushed, but a client of the last one gets an empty result. -/
theorem C104_limit_refuted : ∃ (cf : StationConf) (pre : List BackendOp) (before between later then_ after : List StationAct) (evs : List RegisterEvent)
    (rest ops : List BackendOp) (p : QueryTimeseriesParams) (ca ca' cb cb' : ReqClient) (es : List Event),
    let s0 := (Station.init cf pre).run cf before
    let s1 := (s0.step cf (.client 0 (.register evs true))).run cf between
    let s2 := s1.run cf later
    let t0 := (Station.init cf (s2.past ++ rest)).run cf then_
    let t1 := (t0.step cf (.client 1 (.query (.timeseries p)))).run cf after
    LookupLaws (s2.past ++ rest) ∧ TsConfs (s2.past ++ rest) ∧ cf.foreign 0 = false ∧ cf.foreign 1 = false ∧
    s0.clients 0 = some ca ∧ s1.clients 0 = some ca' ∧ ca'.calls ca.nextCall = .finished (.answered (.events (some es))) ∧
    ClockForward cf.serverId pre s1.past ∧ s2.past = ops ++ [.flush] ∧ (s2.backend cf).mem.isSome = true ∧
    t0.clients 1 = some cb ∧ t1.clients 1 = some cb' ∧ cb'.calls cb.nextCall = .finished (.answered (.result ⟨[], false⟩)) ∧
    InOrderHistory t0.past p.orderBy ∧ (∀ e, (s0.backend cf).conf.conditions e = true) ∧ (∀ e, (t0.backend cf).conf.conditions e = true) ∧
    ∃ x ∈ es, TsMatches p x ∧ KeepsFor (s0.backend cf).conf p x ∧ (t0.backend cf).conf.partitions = (s0.backend cf).conf.partitions := by
  have hlaws := exEmptied_laws
  refine ⟨exSeriesStation, [.reopen exSeries], exStationUp ++ exStationSession 1, exSeriesAnswer, [.keep .flush], exAgainUp,
    exStationQuery, exSeriesEvents, exLimitOps, exSeriesFlushed.past.dropLast, exEarly, _, _, _, _, exDatedEvents, hlaws.1, hlaws.2, rfl, rfl, rfl, rfl, rfl, exSeries_clock, rfl, rfl,
    rfl, rfl, rfl, exEmptied_order, fun _ => rfl, fun _ => rfl, _,
    List.mem_cons_of_mem _ List.mem_cons_self, exEarly_b, exSeries_keeps _ _ ⟨exAt 1, rfl⟩, rfl⟩

end HatEvent
