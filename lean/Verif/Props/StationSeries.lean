import Verif.Props.Station
import Verif.Props.ReadSeries

/-!
# C103: what one client has registered, another client finds with timeseries queries
-/

namespace HatEvent
open Spec

/-- Timeseries queries of a backend and events in its partitions. -/
theorem series_found {conf : Conf} {ops : List BackendOp} (hl : LookupLaws ops) (hc : TsConfs ops) (hord : OrdinaryEvents ops)
    (hopen : ((Backend.new conf).run ops).mem ≠ none) {w : World} (h : Reached conf ops w) :
    let b := (Backend.new conf).run ops
    ∀ p : QueryTimeseriesParams, TsParamsOk b.conf p → PendingInOrder w.flushed w.cur p.orderBy →
      ∃ full, full.Pairwise (OrderOk p) ∧
        (∀ x, b.conf.conditions x = true → TsMatches p x →
          (∃ part ∈ b.conf.partitions, part.orderBy = p.orderBy ∧ part.subscription.matches x.type = true) →
          (∀ q part, Dict.get w.partitions q = some part → part.orderBy = p.orderBy → (b.conf.useC = false → Related p part) →
            ∃ t, w.cur.entry ⟨q, t, x.id⟩ = some x) → x ∈ full) ∧
        b.query (.timeseries { p with lastEventId := none }) = .ok (page full (tsPage b.conf p.maxResults)) ∧
        ∀ first x rest, full = first ++ x :: rest →
          b.query (.timeseries { p with lastEventId := some x.id }) = .ok (page rest (tsPage b.conf p.maxResults)) := by
  intro b p hp hin
  have hwo : w.isOpen = true := by rw [run_isOpen h.run, Option.isSome_iff_ne_none]; exact hopen
  have hconf := run_configured h.run hwo
  have hwc : b.conf = w.conf := h.rel.conf
  have hcb := (hc b.conf (run_conf conf _ hopen)).2
  obtain ⟨sel, s1, s2⟩ := series_reached hl hc hord hopen h p hp hin
  cases sel with
  | none =>
    refine ⟨[], .nil, fun x _ hm hk _ => ?_, ?_, by simp⟩
    · cases s1 with
      | none hnone =>
        exfalso
        obtain ⟨part, t1, t2, t3⟩ := hk
        rw [hwc] at t1 hcb
        obtain ⟨i, q, q1, q2, q3⟩ := hconf.2.2 part t1
        refine hnone _ (Dict.mem_of_get q1) ⟨q2.trans t2, fun types ht => ⟨x.type, hm.types types ht, ?_⟩⟩
        have hva : ∀ y ∈ w.conf.partitions, y.subscription.Valid := by
          intro y hy
          obtain ⟨i, qs, a1, a2⟩ := hcb y hy
          exact (Obtainable.create a1 a2).valid
        rw [Sub.matches_iff_queryTypes (hva part t1)] at t3
        rw [Sub.matches_iff_queryTypes (hva q (hconf.2.1 i q q1))]
        obtain ⟨y, y1, y2⟩ := t3
        exact ⟨y, q3.mem_iff.2 y1, y2⟩
    · have := s2 none p.maxResults
      simpa [page] using this
  | some q =>
    obtain ⟨full, a1, a2, a3, _⟩ := s2
    refine ⟨full, a1.sorted, fun x hv hm _ hk => ?_, a2 _ hp.max, fun first x rest hf => a3 _ hp.max first x rest hf⟩
    cases s1 with
    | @some pr _ part post b1 b2 b3 b4 =>
      have hg : Dict.get w.partitions q = some part := Dict.get_of_mem hconf.1 (by rw [b1]; simp)
      obtain ⟨t, ht⟩ := hk q part hg b3 b4
      exact (a1.mem x).2 ⟨⟨_, rfl, ht⟩, hv, hm⟩

/-- The entry of an event in a partition of its order that takes it and has no limit. -/
theorem keptSeries_of {parts : Dict Int Partition} {q : Int} {part : Partition} (hg : Dict.get parts q = some part) {x : Event} {o : OrderBy}
    (ho : part.orderBy = o) {t : Timestamp} (ht : orderTimestamp o x = some t) (hm : part.subscription.matches x.type = true)
    (hn : part.limit = none) : KeptSeries parts x ⟨q, t, x.id⟩ := by
  refine ⟨⟨rfl, part, hg, hm, ?_⟩, fun y hy => ?_⟩
  · rw [← ho] at ht
    cases hob : part.orderBy with
    | timestamp => rw [hob] at ht; exact .inl ⟨rfl, (Option.some.inj ht).symm⟩
    | sourceTimestamp => rw [hob] at ht; exact .inr ⟨rfl, ht⟩
  · obtain rfl := Option.some.inj (hg.symm.trans hy)
    exact hn

/-- Timeseries queries of a backend and events that are kept. -/
theorem series_shown {conf : Conf} {ops : List BackendOp} (hl : LookupLaws ops) (hc : TsConfs ops) (hord : OrdinaryEvents ops)
    (hopen : ((Backend.new conf).run ops).mem ≠ none) {w : World} (h : Reached conf ops w) :
    let b := (Backend.new conf).run ops
    ∀ p : QueryTimeseriesParams, TsParamsOk b.conf p → PendingInOrder w.flushed w.cur p.orderBy →
      ∃ full, full.Pairwise (OrderOk p) ∧
        (∀ x, KeepsAt w x → b.conf.conditions x = true → TsMatches p x → KeepsFor b.conf p x → x ∈ full) ∧
        b.query (.timeseries { p with lastEventId := none }) = .ok (page full (tsPage b.conf p.maxResults)) ∧
        ∀ first x rest, full = first ++ x :: rest →
          b.query (.timeseries { p with lastEventId := some x.id }) = .ok (page rest (tsPage b.conf p.maxResults)) := by
  intro b p hp hin
  have hwo : w.isOpen = true := by rw [run_isOpen h.run, Option.isSome_iff_ne_none]; exact hopen
  have hconf := run_configured h.run hwo
  have hwc : b.conf = w.conf := h.rel.conf
  obtain ⟨full, f1, f2, f3, f4⟩ := series_found hl hc hord hopen h p hp hin
  refine ⟨full, f1, fun x hx hv hm hk => f2 x hv hm hk.taken fun q part hg ho hr => ?_, f3, f4⟩
  obtain ⟨t, ht⟩ := hk.dated
  have hin' := hk.all part (by rw [hwc]; exact hconf.2.1 q part hg) ho hr
  exact ⟨t, hx.series (by rw [← hwc]; exact hv) _ (keptSeries_of hg ho ht hin'.1 hin'.2)⟩

/-- What is in a list and not on its first page comes after that page. -/
theorem page_or {full : List Event} {R : Event → Event → Prop} (hs : full.Pairwise R) {x : Event} (hx : x ∈ full) (n : Nat) :
    x ∈ (page full n).events ∨ ((page full n).moreFollows = true ∧ ∀ y ∈ (page full n).events, R y x) := by
  unfold page
  by_cases hn : n < full.length
  · have hsplit : full.take n ++ full.drop n = full := List.take_append_drop n full
    rw [← hsplit] at hx hs
    rcases List.mem_append.1 hx with hx | hx
    · exact .inl hx
    · exact .inr ⟨by simpa using hn, fun y hy => (List.pairwise_append.1 hs).2.2 y hy x hx⟩
  · left
    show x ∈ full.take n
    rw [List.take_of_length_le (by omega)]
    exact hx

/-- A timeseries query of a client was answered after a registration of a client was answered with events: there is a list with all of them that
match and are kept, and the result is its beginning, or what follows an event of the list. -/
theorem Station.answered_series {cf : StationConf} {pre : List BackendOp} (hl : LookupLaws pre) (hc : TsConfs pre) {a b : Nat} (ha : cf.foreign a = false)
    (hb : cf.foreign b = false) {before : List StationAct} {evs : List RegisterEvent} {between : List StationAct}
    {p : QueryTimeseriesParams} {after : List StationAct} {ca ca' cb cb' : ReqClient} {es : List Event} {r : QueryResult} :
    let s0 := (Station.init cf pre).run cf before
    let s1 := (s0.step cf (.client a (.register evs true))).run cf between
    let s2 := (s1.step cf (.client b (.query (.timeseries p)))).run cf after
    s0.clients a = some ca → s1.clients a = some ca' → ca'.calls ca.nextCall = .finished (.answered (.events (some es))) →
    s1.clients b = some cb → s2.clients b = some cb' → cb'.calls cb.nextCall = .finished (.answered (.result r)) →
    ClockForward cf.serverId pre s1.past → OrdinaryEvents s2.past → TsParamsOk (s0.backend cf).conf p →
    (∀ first, first <+: .client b (.query (.timeseries p)) :: after → InOrderHistory (s1.run cf first).past p.orderBy) →
    ∃ full, full.Pairwise (OrderOk p) ∧
      (∀ x ∈ es, (s0.backend cf).conf.conditions x = true → TsMatches p x → KeepsFor (s0.backend cf).conf p x → x ∈ full) ∧
      (p.lastEventId = none → r = page full (tsPage (s0.backend cf).conf p.maxResults)) ∧
      ∀ first x rest, full = first ++ x :: rest → p.lastEventId = some x.id → r = page rest (tsPage (s0.backend cf).conf p.maxResults) := by
  intro s0 s1 s2 hca hca' hxa hcb hcb' hxb hf hord hp hin
  have hs1 : s1 = (Station.init cf pre).run cf (before ++ .client a (.register evs true) :: between) := by
    rw [Station.run_append]; rfl
  have hconf : ∀ acts, ((s1.run cf acts).backend cf).conf = (s0.backend cf).conf := by
    intro acts
    have : s1.run cf acts = s0.run cf ((.client a (.register evs true) :: between) ++ acts) := by rw [Station.run_append]; rfl
    rw [this, Station.backend_conf]
  obtain ⟨hd, hreg⟩ := Station.answered_registered hl ha hca hca' hxa hf
  have hlkb : Station.Linked (fun _ _ _ => True) b s1 := by rw [hs1]; exact Station.linked_any hb _
  refine Station.answered_query hb hlkb (fun r => ∃ full, full.Pairwise (OrderOk p) ∧
      (∀ x ∈ es, (s0.backend cf).conf.conditions x = true → TsMatches p x → KeepsFor (s0.backend cf).conf p x → x ∈ full) ∧
      (p.lastEventId = none → r = page full (tsPage (s0.backend cf).conf p.maxResults)) ∧
      ∀ first x rest, full = first ++ x :: rest → p.lastEventId = some x.id → r = page rest (tsPage (s0.backend cf).conf p.maxResults)) ?_ hcb hcb' hxb
  intro first r hfirst hq
  have hcf := hconf first
  have hio := hin first hfirst
  have hsub : (s1.run cf first).past <+: s2.past := by
    obtain ⟨more, hmore⟩ := hfirst
    have : s2 = (s1.run cf first).run cf more := by rw [← Station.run_append, hmore]; rfl
    rw [this]; exact Station.past_run cf _ more
  obtain ⟨more, hm, hno⟩ := Station.past_more cf s1 first
  unfold Station.backend at hq hcf
  rw [hm] at hq hcf hio hsub
  have hopen : ((Backend.new cf.db).run (s1.past ++ more)).mem ≠ none := by
    intro hn
    unfold Backend.query at hq
    rw [hn] at hq
    simp at hq
  obtain ⟨w, h1, h2, _⟩ := hd.shown (open_earlier hno hopen)
  obtain ⟨w', h3, _, _, h6⟩ := kept_more hd.laws h1 more hno hopen
  have hre : ∀ c, .reopen c ∈ s1.past ++ more → .reopen c ∈ pre := by
    intro c hc'
    rcases List.mem_append.1 hc' with hc' | hc'
    · have : s1.past = pre ++ (s1.past.drop pre.length) := by
        obtain ⟨t, ht⟩ := hd.begun
        rw [← ht]; simp
      obtain ⟨m0, e0, n0⟩ := Station.past_more cf (Station.init cf pre) (before ++ .client a (.register evs true) :: between)
      rw [← hs1] at e0
      rw [e0] at hc'
      rcases List.mem_append.1 hc' with hc' | hc'
      · exact hc'
      · exact absurd hc' (n0 c)
    · exact absurd hc' (hno c)
  have hl' : LookupLaws (s1.past ++ more) := fun c h => hl c (hre c h)
  have hc' : TsConfs (s1.past ++ more) := fun c h => hc c (hre c h)
  have hord' : OrdinaryEvents (s1.past ++ more) := fun l hlm => hord l (hsub.subset hlm)
  obtain ⟨full, f1, f2, f3, f4⟩ := series_shown hl' hc' hord' hopen h3 p (by rw [hcf]; exact hp) (C33_in_order cf.db _ w' h3.run hopen _ hio)
  rw [hcf] at f2 f3 f4
  refine ⟨full, f1, fun x hx hv hmx hk => f2 x (h6 x (h2 x (hreg x hx))) hv hmx hk, fun hn => ?_, fun fs x rest hfs hn => ?_⟩
  · rw [show ({ p with lastEventId := none } : QueryTimeseriesParams) = p by rw [← hn]] at f3
    rw [f3] at hq
    exact (Except.ok.inj hq).symm
  · have := f4 fs x rest hfs
    rw [show ({ p with lastEventId := some x.id } : QueryTimeseriesParams) = p by rw [← hn]] at this
    rw [this] at hq
    exact (Except.ok.inj hq).symm

/-- **C103** for clocks that are not set back before the registration is answered and events that are not pending out of order (missing: other
histories, see `C103_refuted`): a registration of a client was answered with events; later a client, the same or another one, asks for a timeseries
and gets a result.  Each of the events that matches the query and is kept for it is in the result, or more follows and the event
comes after all of the result. -/
theorem C103_partial (cf : StationConf) (pre : List BackendOp) (hl : LookupLaws pre) (hc : TsConfs pre) (a b : Nat) (ha : cf.foreign a = false)
    (hb : cf.foreign b = false) (before : List StationAct) (evs : List RegisterEvent) (between : List StationAct)
    (p : QueryTimeseriesParams) (after : List StationAct) (ca ca' cb cb' : ReqClient) (es : List Event) (r : QueryResult) :
    let s0 := (Station.init cf pre).run cf before
    let s1 := (s0.step cf (.client a (.register evs true))).run cf between
    let s2 := (s1.step cf (.client b (.query (.timeseries p)))).run cf after
    s0.clients a = some ca → s1.clients a = some ca' → ca'.calls ca.nextCall = .finished (.answered (.events (some es))) →
    s1.clients b = some cb → s2.clients b = some cb' → cb'.calls cb.nextCall = .finished (.answered (.result r)) →
    ClockForward cf.serverId pre s1.past → OrdinaryEvents s2.past → TsParamsOk (s0.backend cf).conf p → p.lastEventId = none →
    (∀ first, first <+: .client b (.query (.timeseries p)) :: after → InOrderHistory (s1.run cf first).past p.orderBy) →
    ∀ x ∈ es, (s0.backend cf).conf.conditions x = true → TsMatches p x → KeepsFor (s0.backend cf).conf p x →
      x ∈ r.events ∨ (r.moreFollows = true ∧ ∀ y ∈ r.events, OrderOk p y x) := by
  intro s0 s1 s2 hca hca' hxa hcb hcb' hxb hf hord hp hn hin x hx hv hm hk
  obtain ⟨full, f1, f2, f3, _⟩ := Station.answered_series hl hc ha hb hca hca' hxa hcb hcb' hxb hf hord hp hin
  rw [f3 hn]
  exact page_or f1 (f2 x hx hv hm hk) _

/-- **C103** for further pages: the query asks for what follows one of the events.  Each of the events that comes after it in the requested order,
matches the query and is kept for it is in the result, or more follows and the event comes after all of the result. -/
theorem C103_next_partial (cf : StationConf) (pre : List BackendOp) (hl : LookupLaws pre) (hc : TsConfs pre) (a b : Nat) (ha : cf.foreign a = false)
    (hb : cf.foreign b = false) (before : List StationAct) (evs : List RegisterEvent) (between : List StationAct)
    (p : QueryTimeseriesParams) (after : List StationAct) (ca ca' cb cb' : ReqClient) (es : List Event) (r : QueryResult) :
    let s0 := (Station.init cf pre).run cf before
    let s1 := (s0.step cf (.client a (.register evs true))).run cf between
    let s2 := (s1.step cf (.client b (.query (.timeseries p)))).run cf after
    s0.clients a = some ca → s1.clients a = some ca' → ca'.calls ca.nextCall = .finished (.answered (.events (some es))) →
    s1.clients b = some cb → s2.clients b = some cb' → cb'.calls cb.nextCall = .finished (.answered (.result r)) →
    ClockForward cf.serverId pre s1.past → OrdinaryEvents s2.past → TsParamsOk (s0.backend cf).conf p →
    (∀ first, first <+: .client b (.query (.timeseries p)) :: after → InOrderHistory (s1.run cf first).past p.orderBy) →
    ∀ y ∈ es, (s0.backend cf).conf.conditions y = true → TsMatches p y → KeepsFor (s0.backend cf).conf p y → p.lastEventId = some y.id →
    ∀ x ∈ es, (s0.backend cf).conf.conditions x = true → TsMatches p x → KeepsFor (s0.backend cf).conf p x → ¬ OrderOk p x y →
      x ∈ r.events ∨ (r.moreFollows = true ∧ ∀ z ∈ r.events, OrderOk p z x) := by
  intro s0 s1 s2 hca hca' hxa hcb hcb' hxb hf hord hp hin y hy hyv hym hyk hn x hx hv hm hk hafter
  obtain ⟨full, f1, f2, _, f4⟩ := Station.answered_series hl hc ha hb hca hca' hxa hcb hcb' hxb hf hord hp hin
  obtain ⟨first, rest, hfull⟩ := List.append_of_mem (f2 y hy hyv hym hyk)
  rw [f4 first y rest hfull hn]
  have hxf := f2 x hx hv hm hk
  have hs := f1
  rw [hfull] at hxf hs
  have hrest : x ∈ rest := by
    rcases List.mem_append.1 hxf with h | h
    · exact absurd ((List.pairwise_append.1 hs).2.2 x h y (by simp)) hafter
    · rcases List.mem_cons.1 h with rfl | h
      · obtain ⟨t, ht⟩ := hk.dated
        refine absurd ⟨t, t, ht, ht, ?_⟩ hafter
        cases p.order <;> exact TimeLe.refl
      · exact h
  exact page_or (List.pairwise_cons.1 (List.pairwise_append.1 hs).2.1).2 hrest _

/-- A server with the database of `exSeries`. -/
def exSeriesStation : StationConf := { db := exSeries, serverId := 7 }

/-- The register events of a client. -/
def exSeriesEvents : List RegisterEvent := [⟨["a"], some (exAt 5), none⟩, ⟨["b"], some (exAt 1), none⟩]

/-- The call of the first client is answered, nothing is flushed. -/
def exSeriesAnswer : List StationAct :=
  [.client 0 (.sendDone 0), .arrive 0] ++ exStationSession 2 ++ [.answered 0, .deliver 0, .client 0 (.resume 0)]

/-- The history up to the call of the first client. -/
def exSeries0 : Station := (Station.init exSeriesStation [.reopen exSeries]).run exSeriesStation (exStationUp ++ exStationSession 1)

/-- The history up to the call of the second client. -/
def exSeries1 : Station := (exSeries0.step exSeriesStation (.client 0 (.register exSeriesEvents true))).run exSeriesStation exSeriesAnswer

/-- The whole history. -/
def exSeries2 (p : QueryTimeseriesParams) : Station :=
  (exSeries1.step exSeriesStation (.client 1 (.query (.timeseries p)))).run exSeriesStation exStationQuery

/-- What the second client asks for. -/
def exSeriesPage : QueryTimeseriesParams := { exSince with maxResults := some 1 }

theorem exSeries_past : exSeries1.past = [.reopen exSeries, .register [⟨⟨7, 1, 1⟩, ["event", "7", "engine"], exAt 1, none,
    some (.json (.str "STARTED"))⟩], .register exDatedEvents] := rfl

theorem exSeries_clock : ClockForward 7 [.reopen exSeries] exSeries1.past := by
  have h : offeredBy 7 exSeries1.past = ⟨⟨7, 1, 1⟩, ["event", "7", "engine"], exAt 1, none, some (.json (.str "STARTED"))⟩ :: exDatedEvents := rfl
  have h' : offeredBy 7 (exSeries1.past.drop 1) =
    ⟨⟨7, 1, 1⟩, ["event", "7", "engine"], exAt 1, none, some (.json (.str "STARTED"))⟩ :: exDatedEvents := rfl
  constructor
  · rw [h]
    simp [exDatedEvents, exAt, TimeLe, TimeLt]
  · show ∀ e ∈ offeredBy 7 (exSeries1.past.drop 1), _
    rw [h']
    simp [exDatedEvents, exAt, TimeLe, TimeLt, minTimestamp]

theorem exSeries_ordinary : OrdinaryEvents exSeries1.past := by
  intro es hes e he
  rw [exSeries_past] at hes
  simp only [List.mem_cons, reduceCtorEq, BackendOp.register.injEq, List.not_mem_nil, or_false, false_or] at hes
  rcases hes with rfl | rfl
  · obtain rfl := List.mem_singleton.1 he
    simp [Ordinary, exAt, TimeLe, TimeLt, maxTimestamp, maxId]
  · simp only [exDatedEvents, List.mem_cons, List.not_mem_nil, or_false] at he
    rcases he with rfl | rfl <;> simp [Ordinary, exAt, TimeLe, TimeLt, maxTimestamp, maxId]

theorem exSeries_inOrder : InOrderHistory exSeries1.past .timestamp := by
  refine .inr ⟨rfl, 7, fun es hes e he => ?_⟩
  rw [exSeries_past] at hes
  simp only [List.mem_cons, reduceCtorEq, BackendOp.register.injEq, List.not_mem_nil, or_false, false_or] at hes
  rcases hes with rfl | rfl
  · obtain rfl := List.mem_singleton.1 he; rfl
  · simp only [exDatedEvents, List.mem_cons, List.not_mem_nil, or_false] at he
    rcases he with rfl | rfl <;> rfl

/-- Nothing happens to the database while messages are exchanged and queries answered. -/
theorem exUnmoved (cf : StationConf) (t : Station) (acts : List StationAct)
    (h : ∀ a ∈ acts, (∃ i act, a = .client i act) ∨ (∃ i, a = .arrive i) ∨ (∃ i, a = .queried i) ∨ ∃ i, a = .deliver i) :
    (t.run cf acts).past = t.past := by
  induction acts using List.reverseRecOn with
  | nil => rfl
  | append_singleton acts a ih =>
    rw [Station.run_snoc]
    refine Eq.trans ?_ (ih fun b hb => h b (List.mem_append_left _ hb))
    rcases h a (by simp) with ⟨i, act, rfl⟩ | ⟨i, rfl⟩ | ⟨i, rfl⟩ | ⟨i, rfl⟩
    · cases act <;> rfl
    · simp only [Station.step, Station.arrive]
      split
      · split
        · exact Station.past_hostStep _ _ _
        · rfl
      · rfl
    · simp only [Station.step, Station.queried]
      split
      · exact Station.past_hostStep _ _ _
      · rfl
    · simp only [Station.step, Station.deliver]
      split
      · split <;> rfl
      · rfl

theorem exRun_cons (cf : StationConf) (s : Station) (a : StationAct) (acts : List StationAct) : s.run cf (a :: acts) = (s.step cf a).run cf acts := rfl

theorem exSeries_quiet (p : QueryTimeseriesParams) (first : List StationAct) (hf : first <+: .client 1 (.query (.timeseries p)) :: exStationQuery) :
    (exSeries1.run exSeriesStation first).past = exSeries1.past := by
  refine exUnmoved _ _ _ fun a ha => ?_
  have := hf.subset ha
  simp only [exStationQuery, List.mem_cons, List.not_mem_nil, or_false] at this
  rcases this with rfl | rfl | rfl | rfl | rfl | rfl
  · exact .inl ⟨_, _, rfl⟩
  · exact .inl ⟨_, _, rfl⟩
  · exact .inr (.inl ⟨_, rfl⟩)
  · exact .inr (.inr (.inl ⟨_, rfl⟩))
  · exact .inr (.inr (.inr ⟨_, rfl⟩))
  · exact .inl ⟨_, _, rfl⟩

example : ∃ c c' d d', exSeries0.clients 0 = some c ∧ exSeries1.clients 0 = some c' ∧
    c'.calls c.nextCall = .finished (.answered (.events (some exDatedEvents))) ∧
    exSeries1.clients 1 = some d ∧ (exSeries2 exSeriesPage).clients 1 = some d' ∧
    d'.calls d.nextCall = .finished (.answered (.result ⟨[⟨⟨7, 2, 1⟩, ["a"], exAt 2, some (exAt 5), none⟩], true⟩)) ∧
    LookupLaws [.reopen exSeries] ∧ TsConfs [.reopen exSeries] ∧ ClockForward 7 [.reopen exSeries] exSeries1.past ∧
    OrdinaryEvents (exSeries2 exSeriesPage).past ∧ TsParamsOk (exSeries0.backend exSeriesStation).conf exSeriesPage ∧
    exSeriesPage.lastEventId = none ∧
    (∀ first, first <+: .client 1 (.query (.timeseries exSeriesPage)) :: exStationQuery →
      InOrderHistory (exSeries1.run exSeriesStation first).past exSeriesPage.orderBy) ∧
    ∀ x ∈ exDatedEvents, (exSeries0.backend exSeriesStation).conf.conditions x = true ∧ TsMatches exSeriesPage x ∧
      KeepsFor (exSeries0.backend exSeriesStation).conf exSeriesPage x := by
  refine ⟨_, _, _, _, rfl, rfl, rfl, rfl, rfl, rfl, exSeries_laws.1, exSeries_laws.2, exSeries_clock, ?_, ?_, rfl,
    fun first hf => by rw [exSeries_quiet _ first hf]; exact exSeries_inOrder, fun x hx => ⟨rfl, ?_, exSeries_keeps _ _ ⟨x.timestamp, rfl⟩⟩⟩
  · have := exSeries_quiet exSeriesPage _ List.prefix_rfl
    rw [exRun_cons] at this
    unfold exSeries2
    rw [this]
    exact exSeries_ordinary
  · refine ⟨by simp [exSeriesPage, exSince], by simp [exSeriesPage, exSince], ?_, by simp [exSeriesPage, exSince]⟩
    intro t ht x hx
    subst hx
    simp only [exSeriesPage, exSince, List.mem_cons, List.not_mem_nil, or_false, Option.some.injEq, reduceCtorEq] at ht
    subst ht
    unfold TimeRange exAt; norm_num
  · simp only [exDatedEvents, List.mem_cons, List.not_mem_nil, or_false] at hx
    rcases hx with rfl | rfl <;>
      exact ⟨by simp [exSeriesPage, exSince, exAt, TimeLe, TimeLt], by simp [exSeriesPage, exSince], by simp [exSeriesPage, exSince],
        by simp [exSeriesPage, exSince], by simp [exSeriesPage, exSince]⟩

/-- What follows the later of the two events in the order of source timestamps, latest first, when all is flushed. -/
def exSeriesDown : QueryTimeseriesParams := { order := .descending, orderBy := .sourceTimestamp, lastEventId := some ⟨7, 2, 1⟩ }

/-- The history with a flush. -/
def exSeriesFlushed : Station := exSeries1.run exSeriesStation [.keep .flush]

/-- The whole history. -/
def exSeries3 : Station :=
  (exSeriesFlushed.step exSeriesStation (.client 1 (.query (.timeseries exSeriesDown)))).run exSeriesStation exStationQuery

example : ∃ d d', exSeriesFlushed.clients 1 = some d ∧ exSeries3.clients 1 = some d' ∧
    d'.calls d.nextCall = .finished (.answered (.result ⟨[⟨⟨7, 2, 2⟩, ["b"], exAt 2, some (exAt 1), none⟩], false⟩)) ∧
    InOrderHistory exSeriesFlushed.past exSeriesDown.orderBy ∧
    ¬ OrderOk exSeriesDown ⟨⟨7, 2, 2⟩, ["b"], exAt 2, some (exAt 1), none⟩ ⟨⟨7, 2, 1⟩, ["a"], exAt 2, some (exAt 5), none⟩ := by
  refine ⟨_, _, rfl, rfl, rfl, .inl ⟨exSeries1.past, rfl⟩, ?_⟩
  rintro ⟨s, t, h1, h2, h3⟩
  cases h1
  cases h2
  simp [exSeriesDown, exAt, TimeLe, TimeLt] at h3

/-- **C103 does not hold** for events that are not flushed: a registration of a client is answered with two events, both kept, but a query of
another client that one of them matches returns nothing. -/
theorem C103_refuted : ∃ (cf : StationConf) (pre : List BackendOp) (before between after : List StationAct) (evs : List RegisterEvent)
    (p : QueryTimeseriesParams) (ca ca' cb cb' : ReqClient) (es : List Event),
    let s0 := (Station.init cf pre).run cf before
    let s1 := (s0.step cf (.client 0 (.register evs true))).run cf between
    let s2 := (s1.step cf (.client 1 (.query (.timeseries p)))).run cf after
    LookupLaws pre ∧ TsConfs pre ∧ cf.foreign 0 = false ∧ cf.foreign 1 = false ∧
    s0.clients 0 = some ca ∧ s1.clients 0 = some ca' ∧ ca'.calls ca.nextCall = .finished (.answered (.events (some es))) ∧
    s1.clients 1 = some cb ∧ s2.clients 1 = some cb' ∧ cb'.calls cb.nextCall = .finished (.answered (.result ⟨[], false⟩)) ∧
    ClockForward cf.serverId pre s1.past ∧ (∀ e, (s0.backend cf).conf.conditions e = true) ∧
    ∃ x ∈ es, TsMatches p x ∧ KeepsFor (s0.backend cf).conf p x := by
  refine ⟨exSeriesStation, [.reopen exSeries], exStationUp ++ exStationSession 1, exSeriesAnswer, exStationQuery, exSeriesEvents, exEarly, _, _, _, _,
    exDatedEvents, exSeries_laws.1, exSeries_laws.2, rfl, rfl, rfl, rfl, rfl, rfl, rfl, rfl, exSeries_clock, fun _ => rfl, _,
    List.mem_cons_of_mem _ List.mem_cons_self, ?_, exSeries_keeps _ _ ⟨exAt 1, rfl⟩⟩
  refine ⟨by simp [exEarly], by simp [exEarly], by simp [exEarly], ?_, by simp [exEarly]⟩
  intro t ht
  obtain rfl := Option.some.inj ht
  exact ⟨exAt 1, rfl, by simp [exAt, TimeLe, TimeLt]⟩

end HatEvent
