import Verif.Props.LmdbServer

/-!
# C33 and C34: timeseries queries
-/

namespace HatEvent
open Spec

/-- The parameters of a timeseries query are acceptable for a configuration. -/
structure Spec.TsParamsOk (conf : Conf) (p : QueryTimeseriesParams) : Prop where
  wellFormed : ∀ l, p.eventTypes = some l → ∀ q ∈ l, WellFormed q
  nulFree : conf.useC = true → ∀ l, p.eventTypes = some l → ∀ q ∈ l, NulFree q
  times : ∀ t, t ∈ [p.tFrom, p.tTo, p.sourceTFrom, p.sourceTTo] → ∀ x, t = some x → TimeRange x
  max : ∀ n, p.maxResults = some n → 0 ≤ n

/-- The largest number of results of a timeseries query. -/
def Spec.tsPage (conf : Conf) (max : Option Int) : Nat := (min (max.getD conf.maxResults) conf.maxResults).toNat

/-- Timeseries configurations: subscriptions are created from query types, the
number of results is not negative. -/
def Spec.TsConfs (ops : List BackendOp) : Prop :=
  ∀ c, .reopen c ∈ ops → 0 ≤ c.maxResults ∧ ∀ p ∈ c.partitions,
    ∃ (i : Impl) (qs : List EventType), (∀ q ∈ qs, NulFree q) ∧ i.create qs = .ok p.subscription

/-- All registered events are ordinary ones. -/
def Spec.OrdinaryEvents (ops : List BackendOp) : Prop :=
  ∀ es, .register es ∈ ops → ∀ e ∈ es, Ordinary e

/-- What a timeseries query is about: a partition with the requested order, the
first one that is related (with Python subscriptions; with C subscriptions it is
only known that no earlier one is related), or no partition. -/
inductive Spec.Selected (conf : Conf) (parts : Dict Int Partition) (p : QueryTimeseriesParams) :
    Option Int → Prop
  | some {pre q part post} : parts = pre ++ (q, part) :: post → (∀ x ∈ pre, ¬ Related p x.2) →
      part.orderBy = p.orderBy → (conf.useC = false → Related p part) → Selected conf parts p (some q)
  | none : (∀ x ∈ parts, ¬ Related p x.2) → Selected conf parts p none

/-- The answers to a query: everything, or what follows an event that is part of
the answer; nothing after an identifier that the partition does not contain. -/
structure Spec.Answers (conf : Conf) (st : Store) (q : Int) (p : QueryTimeseriesParams)
    (query : Option EventId → Option Int → Except PyErr QueryResult) (full : List Event) : Prop where
  list : SeriesList conf st q p full
  first : ∀ mr, (∀ n, mr = some n → 0 ≤ n) → query none mr = .ok (page full (tsPage conf mr))
  next : ∀ mr, (∀ n, mr = some n → 0 ≤ n) → ∀ pre x post, full = pre ++ x :: post →
    query (some x.id) mr = .ok (page post (tsPage conf mr))
  unknown : ∀ mr, (∀ n, mr = some n → 0 ≤ n) → ∀ i,
    (∀ k e, k.partition = q → st.entry k = some e → e.id ≠ i) → query (some i) mr = .ok ⟨[], false⟩

theorem tsPage_eq {conf : Conf} (hc : 0 ≤ conf.maxResults) {mr : Option Int} (h : ∀ n, mr = some n → 0 ≤ n) :
    0 ≤ limitResults mr conf.maxResults ∧ (limitResults mr conf.maxResults).toNat = tsPage conf mr := by
  unfold limitResults tsPage
  cases mr with
  | none => simp [hc]
  | some n =>
    have := h n rfl
    simp only [Option.getD_some]
    split <;> constructor <;> omega

/-- The partition a query is about, whatever the partition contains. -/
structure ChosenPartition (conf : Conf) (parts : Dict Int Partition) (p : QueryTimeseriesParams) (sub : Option Sub)
    (sel : Option Int) : Prop where
  query : ∀ d db i mr n, queryPartitions conf d db { p with lastEventId := i, maxResults := mr } sub n parts =
    match sel with
    | some q => queryPartition conf d db q { p with lastEventId := i, maxResults := mr } sub n
    | none => .ok ⟨[], false⟩
  found : Selected conf parts p sel

/-- There is such a partition, or none. -/
theorem chosen_reached {conf : Conf} {ops : List BackendOp} (hc : TsConfs ops)
    (hopen : ((Backend.new conf).run ops).mem ≠ none) {w : World} (h : Reached conf ops w)
    {p : QueryTimeseriesParams} (hp : TsParamsOk ((Backend.new conf).run ops).conf p) :
    ∃ sub sel, querySubscription ((Backend.new conf).run ops).conf p.eventTypes = .ok sub ∧ SubOk p.eventTypes sub ∧
      ChosenPartition ((Backend.new conf).run ops).conf w.partitions p sub sel := by
  obtain ⟨m, hm⟩ := Option.ne_none_iff_exists'.1 hopen
  obtain ⟨_, hmem⟩ := h.rel.opened m hm
  have hmem' : ((Backend.new conf).run ops).conf = w.conf := h.rel.conf
  obtain ⟨hc1, hc2⟩ := hc _ (run_conf conf ops hopen)
  obtain ⟨sub, hsub, hso⟩ := querySubscription_ok hp.wellFormed hp.nulFree
  have hparts : ∀ x ∈ w.partitions, ∃ (i : Impl) (qs : List EventType), (∀ q ∈ qs, NulFree q) ∧
      i.create qs = .ok x.2.subscription :=
    fun x hx => hc2 _ (by rw [hmem']; exact hmem.partsIn.2 x hx)
  rcases queryPartitions_select hsub hso hp.nulFree _ hparts with ⟨pre, q, part, post, s1, s2, s3, s4, s5⟩ | ⟨s1, s2⟩
  · exact ⟨sub, some q, hsub, hso, s5, .some s1 s2 s3 s4⟩
  · exact ⟨sub, none, hsub, hso, s2, .none s1⟩

/-- Timeseries queries in a state that is reached by a history, of the chosen partition. -/
theorem series_chosen {conf : Conf} {ops : List BackendOp} (hl : LookupLaws ops) (hc : TsConfs ops)
    (ho : OrdinaryEvents ops) (hopen : ((Backend.new conf).run ops).mem ≠ none) {w : World} (h : Reached conf ops w) :
    let b := (Backend.new conf).run ops
    ∀ p : QueryTimeseriesParams, TsParamsOk b.conf p → PendingInOrder w.flushed w.cur p.orderBy →
      ∀ sub sel, querySubscription b.conf p.eventTypes = .ok sub → SubOk p.eventTypes sub →
        ChosenPartition b.conf w.partitions p sub sel →
        let query := fun i mr => b.query (.timeseries { p with lastEventId := i, maxResults := mr })
        match sel with
        | some q => ∃ full, Answers b.conf w.cur q p query full ∧
            (PendingInKeyOrder w.flushed w.cur p.orderBy → full.Pairwise (KeyOrder p))
        | none => ∀ i mr, query i mr = .ok ⟨[], false⟩ := by
  intro b p hp hin sub sel hsub hso hch
  obtain ⟨m, hm⟩ := Option.ne_none_iff_exists'.1 hopen
  obtain ⟨_, hmem⟩ := h.rel.opened m hm
  have hrok := run_ok h.run
  have hmem' : b.conf = w.conf := h.rel.conf
  obtain ⟨hc1, hc2⟩ := hc b.conf (run_conf conf ops hopen)
  have hquery : ∀ i mr, b.query (.timeseries { p with lastEventId := i, maxResults := mr }) =
      queryPartitions b.conf b.disk m.timeseries { p with lastEventId := i, maxResults := mr } sub
        (limitResults mr b.conf.maxResults) w.partitions := by
    intro i mr
    unfold Backend.query
    have hm' : b.mem = some m := hm
    rw [hm']
    simp only [Mem.query, TimeseriesDb.query, hsub, ok_bind]
    rw [hmem.partsEq]
  obtain ⟨s5, hsel⟩ := hch
  cases hsel with
  | @some pre q part post s1 s2 s3 s4 =>
    have hpt := (run_partTable (Backend.new conf) ops (partsOk_new conf)).1.2 m hm
    rw [hmem.partsEq] at hpt
    have hgq : Dict.get w.partitions q = some part :=
      Dict.get_of_mem hmem.nodParts (by rw [s1]; simp)
    have hr1 : TimeRange (p.range.1.getD minTimestamp) ∧ TimeRange (p.range.2.getD maxTimestamp) := by
      have key : ∀ o : Option Timestamp, (o ∈ [p.tFrom, p.tTo, p.sourceTFrom, p.sourceTTo]) →
          ∀ d : Timestamp, TimeRange d → TimeRange (o.getD d) := by
        intro o ho d hd
        cases o with
        | none => exact hd
        | some x => exact hp.times _ ho x rfl
      have h1 : TimeRange minTimestamp := by unfold TimeRange minTimestamp; norm_num
      have h2 : TimeRange maxTimestamp := by unfold TimeRange maxTimestamp; norm_num
      unfold QueryTimeseriesParams.range
      cases p.orderBy
      · exact ⟨key _ (by simp) _ h1, key _ (by simp) _ h2⟩
      · exact ⟨key _ (by simp) _ h1, key _ (by simp) _ h2⟩
    obtain ⟨full, f1, fk, f2⟩ := series_spec (conf := w.conf) h.rel.disk hmem h.rel.okF h.rel.okC
      (run_series conf ops hl) hpt.2 hrok.cond
      (fun e he => by
        obtain ⟨es, h1, h2⟩ := hrok.logC e he
        exact ho es h1 e h2) hin hgq s3 hso hr1.1 hr1.2
    refine ⟨full, ⟨by rw [hmem']; exact f1, ?_, ?_, ?_⟩, fk⟩
    · intro mr hmr
      obtain ⟨n1, n2⟩ := tsPage_eq hc1 hmr
      rw [hquery, s5, ← n2, hmem']
      rw [hmem'] at n1
      exact (f2 _ n1 mr).1
    · intro mr hmr pre x post hx
      obtain ⟨n1, n2⟩ := tsPage_eq hc1 hmr
      rw [hquery, s5, ← n2, hmem']
      rw [hmem'] at n1
      exact (f2 _ n1 mr).2.1 pre x post hx
    · intro mr hmr i hi
      obtain ⟨n1, _⟩ := tsPage_eq hc1 hmr
      rw [hquery, s5, hmem']
      rw [hmem'] at n1
      exact (f2 _ n1 mr).2.2 i hi
  | none s1 =>
    intro query i mr
    show b.query (.timeseries { p with lastEventId := i, maxResults := mr }) = _
    rw [hquery, s5]

/-- Timeseries queries in a state that is reached by a history. -/
theorem series_reached {conf : Conf} {ops : List BackendOp} (hl : LookupLaws ops) (hc : TsConfs ops)
    (ho : OrdinaryEvents ops) (hopen : ((Backend.new conf).run ops).mem ≠ none) {w : World} (h : Reached conf ops w) :
    let b := (Backend.new conf).run ops
    ∀ p : QueryTimeseriesParams, TsParamsOk b.conf p → PendingInOrder w.flushed w.cur p.orderBy →
      ∃ sel, Selected b.conf w.partitions p sel ∧
        let query := fun i mr => b.query (.timeseries { p with lastEventId := i, maxResults := mr })
        match sel with
        | some q => ∃ full, Answers b.conf w.cur q p query full
        | none => ∀ i mr, query i mr = .ok ⟨[], false⟩ := by
  intro b p hp hin
  obtain ⟨sub, sel, h0, h1, h3⟩ := chosen_reached hc hopen h hp
  have h2 := series_chosen hl hc ho hopen h p hp hin sub sel h0 h1 h3
  refine ⟨sel, h3.found, ?_⟩
  cases sel with
  | some q => obtain ⟨full, h3, _⟩ := h2; exact ⟨full, h3⟩
  | none => exact h2

/-- Timeseries queries after a history; pending events must not be older than
events registered before them.  Missing: other histories, see
`C33_unflushed_refuted`, and the choice of the partition with C subscriptions,
see `C33_partition_refuted`. -/
theorem C33_partial (conf : Conf) (ops : List BackendOp) (hl : LookupLaws ops) (hc : TsConfs ops)
    (ho : OrdinaryEvents ops) (hopen : ((Backend.new conf).run ops).mem ≠ none) :
    let b := (Backend.new conf).run ops
    ∃ w, Run conf ops w ∧ ∀ p : QueryTimeseriesParams, TsParamsOk b.conf p →
      PendingInOrder w.flushed w.cur p.orderBy →
      ∃ sel, Selected b.conf w.partitions p sel ∧
        let query := fun i mr => b.query (.timeseries { p with lastEventId := i, maxResults := mr })
        match sel with
        | some q => ∃ full, Answers b.conf w.cur q p query full
        | none => ∀ i mr, query i mr = .ok ⟨[], false⟩ := by
  intro b
  obtain ⟨w, h⟩ := reached conf ops hl
  exact ⟨w, h.run, series_reached hl hc ho hopen h⟩

/-- Histories with nothing out of order that is not flushed: everything is
flushed, or all events are from one server and the order is by timestamp. -/
def Spec.InOrderHistory (ops : List BackendOp) (o : OrderBy) : Prop :=
  (∃ ops', ops = ops' ++ [.flush]) ∨
    (o = .timestamp ∧ ∃ s, ∀ es, .register es ∈ ops → ∀ e ∈ es, e.id.server = s)

theorem run_isOpen {conf : Conf} {ops : List BackendOp} {w : World} (h : Run conf ops w) :
    w.isOpen = ((Backend.new conf).run ops).mem.isSome := by
  cases h with
  | nil => rfl
  | snoc _ _ h => exact h

/-- The assumption of `C33_partial` and `C34_complete` holds for such histories. -/
theorem C33_in_order (conf : Conf) (ops : List BackendOp) (w : World) (hr : Run conf ops w)
    (hopen : ((Backend.new conf).run ops).mem ≠ none) (o : OrderBy) (h : InOrderHistory ops o) :
    PendingInOrder w.flushed w.cur o := by
  rcases h with ⟨ops', rfl⟩ | ⟨rfl, s, hs⟩
  · obtain ⟨w0, _, hst⟩ := run_spec_snoc hr
    have hop' : w.isOpen = true := by rw [run_isOpen hr, Option.isSome_iff_ne_none]; exact hopen
    have hlog : w.cur.log = w.flushed.log := by
      cases hst with
      | closed h1 _ => rw [h1] at hop'; simp at hop'
      | flush _ => rfl
      | flushFail _ => simp at hop'
    intro pre p post h1 h2
    rw [← hlog, h1] at h2
    simp at h2
  · have hok := run_ok hr
    intro pre p post h1 _ a ha x y hx hy
    cases hx
    cases hy
    have hm := hok.okC.mono
    rw [h1] at hm
    have hsrv : ∀ e ∈ w.cur.log, e.id.server = s := by
      intro e he
      obtain ⟨es, h3, h4⟩ := hok.logC e he
      exact hs es h3 e h4
    refine ((List.pairwise_append.1 hm).2.2 a ha p (by simp) ?_).2
    rw [hsrv a (by rw [h1]; simp [ha]), hsrv p (by rw [h1]; simp)]

/-- Paging through a timeseries query in a state that is reached by a history. -/
theorem pages_reached {conf : Conf} {ops : List BackendOp} (hl : LookupLaws ops) (hc : TsConfs ops)
    (ho : OrdinaryEvents ops) (hopen : ((Backend.new conf).run ops).mem ≠ none) {w : World} (h : Reached conf ops w) :
    let b := (Backend.new conf).run ops
    ∀ p : QueryTimeseriesParams, TsParamsOk b.conf p → 0 < tsPage b.conf p.maxResults →
      PendingInOrder w.flushed w.cur p.orderBy →
      let query := fun i => b.query (.timeseries { p with lastEventId := i })
      ∃ sel full, Selected b.conf w.partitions p sel ∧
        (match sel with
          | some q => SeriesList b.conf w.cur q p full
          | none => full = []) ∧
        Pages query none full ∧ ∀ r, Pages query none r → r = full := by
  intro b p hp hpos hin query
  obtain ⟨sel, h3, h4⟩ := series_reached hl hc ho hopen h p hp hin
  cases sel with
  | some q =>
    obtain ⟨full, a1, a2, a3, _⟩ := h4
    refine ⟨some q, full, h3, a1, ?_⟩
    exact pages_split hpos (a2 _ hp.max) (fun pre x post hx => a3 _ hp.max pre x post hx)
  | none =>
    have hq : ∀ i, query i = .ok ⟨[], false⟩ := fun i => h4 i p.maxResults
    refine ⟨none, [], h3, rfl, .last (hq none), ?_⟩
    intro r hr
    cases hr with
    | last h => rw [hq] at h; cases h; rfl
    | more h => rw [hq] at h; cases h

/-- Paging through a timeseries query yields every matching event of the
partition once, in order, in the histories of `C33_partial`.  What pages are in
other histories is said by `C34` in `Props/LmdbPages`. -/
theorem C34_complete (conf : Conf) (ops : List BackendOp) (hl : LookupLaws ops) (hc : TsConfs ops)
    (ho : OrdinaryEvents ops) (hopen : ((Backend.new conf).run ops).mem ≠ none) :
    let b := (Backend.new conf).run ops
    ∃ w, Run conf ops w ∧ ∀ p : QueryTimeseriesParams, TsParamsOk b.conf p → 0 < tsPage b.conf p.maxResults →
      PendingInOrder w.flushed w.cur p.orderBy →
      let query := fun i => b.query (.timeseries { p with lastEventId := i })
      ∃ sel full, Selected b.conf w.partitions p sel ∧
        (match sel with
          | some q => SeriesList b.conf w.cur q p full
          | none => full = []) ∧
        Pages query none full ∧ ∀ r, Pages query none r → r = full := by
  intro b
  obtain ⟨w, h⟩ := reached conf ops hl
  exact ⟨w, h.run, pages_reached hl hc ho hopen h⟩

/-- A negative number of results is not accepted: a query that selects a
partition fails, whatever the state of the backend is. -/
theorem C33_negative (b : Backend) (p : QueryTimeseriesParams) (n : Int) (hn : p.maxResults = some n)
    (hneg : n < 0) (hc : 0 ≤ b.conf.maxResults) (r : QueryResult) (h : b.query (.timeseries p) = .ok r) :
    r = ⟨[], false⟩ := by
  have hlim : limitResults p.maxResults b.conf.maxResults < 0 := by
    unfold limitResults; rw [hn]; simp only; split <;> omega
  unfold Backend.query at h
  cases hb : b.mem with
  | none => rw [hb] at h; simp at h
  | some m =>
    rw [hb] at h
    simp only [Mem.query, TimeseriesDb.query] at h
    obtain ⟨sub, _, h⟩ := bind_ok h
    generalize limitResults p.maxResults b.conf.maxResults = k at hlim h
    have hcut : ∀ l r, cutSeries l k ≠ .ok r := by
      intro l r hh; unfold cutSeries at hh; rw [if_pos hlim] at hh; simp at hh
    generalize m.timeseries.partitions = parts at h
    induction parts with
    | nil => simp only [queryPartitions] at h; cases h; rfl
    | cons x parts ih =>
      rw [queryPartitions] at h
      rcases ite_cases h with ⟨_, h⟩ | ⟨_, h⟩
      · exact ih h
      obtain ⟨d, _, h⟩ := bind_ok h
      rcases ite_cases h with ⟨_, h⟩ | ⟨_, h⟩
      · exact ih h
      exfalso
      unfold queryPartition at h
      split at h
      · obtain ⟨x, _, h⟩ := bind_ok h
        rcases ite_cases h with ⟨_, h⟩ | ⟨_, h⟩
        · exact hcut _ _ h
        obtain ⟨y, _, h⟩ := bind_ok h
        exact hcut _ _ h
      · obtain ⟨x, _, h⟩ := bind_ok h
        rcases ite_cases h with ⟨_, h⟩ | ⟨_, h⟩
        · exact hcut _ _ h
        obtain ⟨y, _, h⟩ := bind_ok h
        exact hcut _ _ h

/-! ### Examples -/

theorem exHistory_tsConfs : TsConfs exHistory := by
  intro c hc
  rw [exHistory_confs hc]
  refine ⟨by decide, ?_⟩
  intro p hp
  simp only [exConf, exPartitions, List.mem_cons, List.not_mem_nil, or_false] at hp
  rcases hp with rfl | rfl
  · exact ⟨.py, [["a"]], by unfold NulFree; decide, rfl⟩
  · exact ⟨.py, [["a"], ["b"]], by unfold NulFree; decide, rfl⟩

theorem exHistory_ordinary : OrdinaryEvents exHistory := by
  intro es h
  simp only [exHistory, List.mem_cons, reduceCtorEq, BackendOp.register.injEq, List.not_mem_nil,
    or_false, false_or] at h
  rcases h with rfl | rfl <;> simp [exE, Ordinary, TimeLe, TimeLt, maxTimestamp, maxId]

/-- Parameters of a query with type and time range. -/
def exParams : QueryTimeseriesParams :=
  { eventTypes := some [["b"], ["a"]], sourceTFrom := some ⟨2, 0⟩, order := .ascending,
    orderBy := .sourceTimestamp, maxResults := some 2 }

theorem exParams_ok : TsParamsOk (exConf none exPartitions) exParams := by
  refine ⟨?_, by simp [exConf], ?_, by simp [exParams]⟩
  · intro l hl q hq
    simp only [exParams, Option.some.injEq] at hl
    subst hl
    simp only [List.mem_cons, List.not_mem_nil, or_false] at hq
    rcases hq with rfl | rfl <;> simp [WellFormed]
  · intro t ht x hx
    subst hx
    simp only [exParams, List.mem_cons, List.not_mem_nil, or_false, Option.some.injEq, reduceCtorEq,
      false_or] at ht
    subst ht
    unfold TimeRange; norm_num

/-- The example history, flushed, satisfies the assumptions; the result. -/
example : InOrderHistory (exHistory ++ [.flush]) .sourceTimestamp := .inl ⟨_, rfl⟩

example : ((Backend.new (exConf none [])).run (exHistory ++ [.flush])).query (.timeseries exParams) =
      .ok ⟨[exE 2 2 2 ["b"] 7 (some 2), exE 2 2 1 ["a"] 6 (some 3)], true⟩ ∧
    ((Backend.new (exConf none [])).run (exHistory ++ [.flush])).query
      (.timeseries { exParams with lastEventId := some ⟨2, 2, 1⟩ }) =
      .ok ⟨[exE 1 2 1 ["b"] 2 (some 7)], false⟩ := ⟨by rfl, by rfl⟩

/-- A history of one server with events that are not flushed. -/
example : InOrderHistory [.reopen (exConf none exPartitions),
    .register [exE 1 1 1 ["a"] 1 none, exE 1 1 2 ["a"] 1 none], .flush,
    .register [exE 1 1 3 ["a"] 5 none]] .timestamp := by
  refine .inr ⟨rfl, 1, ?_⟩
  intro es h
  simp only [List.mem_cons, reduceCtorEq, BackendOp.register.injEq, List.not_mem_nil,
    or_false, false_or] at h
  rcases h with rfl | rfl <;> simp [exE]

/-! ### What does not hold -/

/-- Events of two servers, the second one older, not flushed. -/
def exUnordered : List BackendOp :=
  [.reopen (exConf none exPartitions), .register [exE 1 1 1 ["a"] 5 none, exE 2 1 1 ["a"] 1 none]]

/-- A query with an upper time limit. -/
def exUntil : QueryTimeseriesParams := { tTo := some ⟨4, 0⟩, order := .ascending }

/-- C33 does not hold for events that are not flushed: a query does not return a
matching event and returns it after a flush. -/
theorem C33_unflushed_refuted : ¬ ∀ (conf : Conf) (ops : List BackendOp), LookupLaws ops → TsConfs ops →
    OrdinaryEvents ops → ∀ (p : QueryTimeseriesParams) (r r' : QueryResult),
      TsParamsOk ((Backend.new conf).run ops).conf p →
      ((Backend.new conf).run ops).query (.timeseries p) = .ok r →
      ((Backend.new conf).run (ops ++ [.flush])).query (.timeseries p) = .ok r' →
      ∀ e ∈ r'.events, e ∈ r.events := by
  intro h
  have hl : ∀ c, BackendOp.reopen c ∈ exUnordered → c = exConf none exPartitions := by
    intro c hc
    simpa [exUnordered] using hc
  have := h (exConf none []) exUnordered
    (fun c hc => by rw [hl c hc]; exact exConf_lookup _ _)
    (fun c hc => by
      rw [hl c hc]
      exact exHistory_tsConfs _ (by simp [exHistory]))
    (by
      intro es hes
      simp only [exUnordered, List.mem_cons, reduceCtorEq, BackendOp.register.injEq, List.not_mem_nil,
        or_false, false_or] at hes
      subst hes
      simp [exE, Ordinary, TimeLe, TimeLt, maxTimestamp, maxId])
    exUntil ⟨[], false⟩ ⟨[exE 2 1 1 ["a"] 1 none], false⟩
    ⟨by simp [exUntil], by simp [exUntil], by
      intro t ht x hx
      subst hx
      simp only [exUntil, List.mem_cons, List.not_mem_nil, or_false, Option.some.injEq, reduceCtorEq,
        false_or] at ht
      subst ht
      unfold TimeRange; norm_num, by simp [exUntil]⟩
    (by rfl) (by rfl) _ (List.mem_singleton.2 rfl)
  simp at this

/-- Partitions with C subscriptions to `("a", "b")` and to `("a",)`. -/
def exCParts : List Partition :=
  [⟨.timestamp, .c (.mk false false [("a", .mk false false [("b", .mk true false [])])]), none⟩,
   ⟨.timestamp, .c (.mk false false [("a", .mk true false [])]), none⟩]

/-- A configuration with C subscriptions and these partitions. -/
def exCConf : Conf := { exConf none exCParts with useC := true }

/-- C33 does not hold with C subscriptions: a query does not use the only
partition that is related to it (see `C08_c_isdisjoint_refuted`). -/
theorem C33_partition_refuted : ¬ ∀ (conf : Conf) (ops : List BackendOp) (e : Event)
    (p : QueryTimeseriesParams) (r : QueryResult) (part : Partition),
      ops = [.reopen conf, .register [e], .flush] → LookupLaws ops → TsConfs ops → OrdinaryEvents ops →
      TsParamsOk conf p → part ∈ conf.partitions → Related p part →
      (∀ part' ∈ conf.partitions, Related p part' → part' = part) →
      conf.conditions e = true → part.subscription.matches e.type = true → TsMatches p e →
      ((Backend.new conf).run ops).query (.timeseries p) = .ok r → e ∈ r.events := by
  intro h
  have h1 : ∀ t : EventType, (Sub.c (.mk false false [("a", .mk false false [("b", .mk true false [])])])).matches t =
      true ↔ MatchesAny [["a", "b"]] t :=
    fun t => (C03_c_subscription [["a", "b"]] (by unfold NulFree; decide)).1 _ rfl t
  have h2 : ∀ t : EventType, (Sub.c (.mk false false [("a", .mk true false [])])).matches t =
      true ↔ MatchesAny [["a"]] t :=
    fun t => (C03_c_subscription [["a"]] (by unfold NulFree; decide)).1 _ rfl t
  have hc : ∀ c, BackendOp.reopen c ∈
      [BackendOp.reopen exCConf, .register [exE 1 1 1 ["a"] 1 none], .flush] → c = exCConf := by
    intro c hc
    simpa using hc
  have := h exCConf _ (exE 1 1 1 ["a"] 1 none) { eventTypes := some [["a"]] } ⟨[], false⟩
    ⟨.timestamp, .c (.mk false false [("a", .mk true false [])]), none⟩ rfl
    (fun c h => by
      rw [hc c h]
      exact exConf_lookup none exCParts)
    (fun c h => by
      rw [hc c h]
      refine ⟨by decide, ?_⟩
      intro p hp
      simp only [exCConf, exConf, exCParts, List.mem_cons, List.not_mem_nil, or_false] at hp
      rcases hp with rfl | rfl
      · exact ⟨.c, [["a", "b"]], by unfold NulFree; decide, rfl⟩
      · exact ⟨.c, [["a"]], by unfold NulFree; decide, rfl⟩)
    (by
      intro es hes
      simp only [List.mem_cons, reduceCtorEq, BackendOp.register.injEq, List.not_mem_nil,
        or_false, false_or] at hes
      subst hes
      simp [exE, Ordinary, TimeLe, TimeLt, maxTimestamp, maxId])
    ⟨by
      intro l hl q hq
      simp only [Option.some.injEq] at hl
      subst hl
      simp only [List.mem_singleton] at hq
      subst hq
      simp [WellFormed], by
      intro _ l hl
      simp only [Option.some.injEq] at hl
      subst hl
      unfold NulFree; decide, by simp, by simp⟩
    (by simp [exCConf, exConf, exCParts])
    ⟨rfl, by
      intro types ht
      simp only [Option.some.injEq] at ht
      subst ht
      exact ⟨["a"], ⟨["a"], by simp, (matches_plain (by simp) (by simp)).2 rfl⟩,
        (h2 _).2 ⟨["a"], by simp, (matches_plain (by simp) (by simp)).2 rfl⟩⟩⟩
    (by
      intro part' hp' hrel
      simp only [exCConf, exConf, exCParts, List.mem_cons, List.not_mem_nil, or_false] at hp'
      rcases hp' with rfl | rfl
      · obtain ⟨t, ⟨q, hq, hm⟩, hm'⟩ := hrel.2 _ rfl
        simp only [List.mem_singleton] at hq
        subst hq
        rw [matches_plain (by simp) (by simp)] at hm
        subst hm
        obtain ⟨q, hq, hm⟩ := (h1 _).1 hm'
        simp only [List.mem_singleton] at hq
        subst hq
        rw [matches_plain (by simp) (by simp)] at hm
        simp at hm
      · rfl)
    rfl rfl
    ⟨by simp, by simp, by simp, by simp, by
      intro types ht
      simp only [Option.some.injEq] at ht
      subst ht
      exact ⟨["a"], by simp, (matches_plain (by simp) (by simp)).2 rfl⟩⟩
    (by rfl)
  simp at this

end HatEvent
