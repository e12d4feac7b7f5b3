import Verif.Proof.LmdbFlushes
import Verif.Props.LmdbRange
import Verif.Props.LmdbRecovery
import Verif.Props.LmdbServer
import Verif.Props.LmdbTimeseries

/-!
# C35, C36, C58, C59, C60: the backend on the event loop

`s0` is a backend that has just been opened, `acts` is any schedule of the event
loop and the database thread, `s0.run acts` is the state it leads to.
-/

namespace HatEvent
open Spec

/-- A backend that has been opened with the configuration `c`, on a file with the
history `ops`. -/
def Spec.Opened (c0 : Conf) (ops : List BackendOp) (c : Conf) (s0 : Async) : Prop :=
  ∃ m, ((Backend.new c0).run (ops ++ [.reopen c])).mem = some m ∧
    s0 = .create ((Backend.new c0).run (ops ++ [.reopen c])).conf
      ((Backend.new c0).run (ops ++ [.reopen c])).disk m

theorem Spec.Opened.start {c0 : Conf} {ops : List BackendOp} {c : Conf} {s0 : Async} (h : Opened c0 ops c s0) :
    ∃ conf disk m, s0 = .create conf disk m ∧ OpenAt c0 (ops ++ [.reopen c]) [] disk conf m ∧ m.registered = [] := by
  obtain ⟨m, h1, rfl⟩ := h
  refine ⟨_, _, m, rfl, ⟨by simp, by simp, by simpa using h1, by simp, by simp⟩, ?_⟩
  rw [run_snoc] at h1
  have hst := stepTo ((Backend.new c0).run ops) (.reopen c)
  generalize ((Backend.new c0).run ops).step (.reopen c) = b at *
  cases hst with
  | closed _ hc => exact absurd rfl (hc c)
  | reopen hc =>
    cases h1
    obtain ⟨_, _, _, _, rfl, rfl⟩ := createDbs_ok hc
    rfl
  | reopenFail _ => simp at h1

/-- Without failed flush, the volatile state is lost but its disk is not. -/
theorem opened_sim {c0 : Conf} {ops : List BackendOp} {c : Conf} {s0 : Async} (h : Opened c0 ops c s0)
    (acts : List Act) (hl : (s0.run acts).lost = false) :
    Sim c0 (ops ++ [.reopen c]) (s0.run acts) ∧ Requests (s0.run acts) := by
  obtain ⟨conf, disk, m, rfl, h1, h2⟩ := h.start
  exact ⟨sim_run h1 h2 acts hl, requests_run h1 h2 acts hl⟩

/-! ## C58 -/

/-- C58 if ascending timeseries queries do not occur together with exceptions
caused by insertions during iteration: events that can be stored are stored,
no flush fails, whatever the schedule. -/
theorem C58_partial (c0 : Conf) (ops : List BackendOp) (c : Conf) (s0 : Async) (h : Opened c0 ops c s0)
    (acts : List Act) (hf : Fits (ops ++ [.reopen c]) (actCalls acts)) (hn : NoRace acts) :
    (s0.run acts).lost = false := by
  obtain ⟨conf, disk, m, rfl, h1, h2⟩ := h.start
  exact run_lost h1 h2 acts hf hn

/-! ## C35 -/

/-- C35, as long as no flush has failed: the calls of the flushed events callback
are the lists of the `register` calls in their order, each once, without those
that wait for the end of a flush or for the next flush. -/
theorem C35_order_partial (c0 : Conf) (ops : List BackendOp) (c : Conf) (s0 : Async) (h : Opened c0 ops c s0)
    (acts : List Act) (hl : (s0.run acts).lost = false) :
    (s0.run acts).cb ++ (s0.run acts).flusher.inflight ++ (s0.run acts).mem.registered = (s0.run acts).calls :=
  (opened_sim h acts hl).1.seq

/-- When the flush loop has ended, all lists have been notified. -/
theorem C35_complete_partial (c0 : Conf) (ops : List BackendOp) (c : Conf) (s0 : Async) (h : Opened c0 ops c s0)
    (acts : List Act) (hl : (s0.run acts).lost = false) (he : (s0.run acts).flusher = .ended) :
    (s0.run acts).cb = (s0.run acts).calls := by
  obtain ⟨h1, h2⟩ := opened_sim h acts hl
  have h3 := h1.seq
  rw [he, (h2.ended he).2] at h3
  simpa [Flusher.inflight] using h3

/-- The state of a process that ends: only the file is left. -/
def Spec.crashed (s : Async) : Backend := ⟨s.disk, s.conf, none, []⟩

theorem synced_clean {c0 : Conf} {ops : List BackendOp} {c : Conf} {opsD : List BackendOp}
    (hl : LookupLaws (ops ++ [.reopen c])) (hs : Synced opsD) (hno : ∀ c', .reopen c' ∉ opsD) :
    ∃ w, Clean ((Backend.new c0).run (ops ++ [.reopen c] ++ opsD)) w := by
  obtain ⟨a, cl, rfl, h1, h2⟩ := hs
  have happ : ∀ x y : List BackendOp, (Backend.new c0).run (x ++ y) = ((Backend.new c0).run x).run y := by
    intro x y; simp [Backend.run, List.foldl_append]
  rw [← List.append_assoc, happ]
  suffices h : ∃ w, Clean ((Backend.new c0).run (ops ++ [.reopen c] ++ a)) w by
    obtain ⟨w, hw⟩ := h
    exact clean_cleanups hw cl h1
  rcases h2 with rfl | ⟨a', rfl⟩
  · simp only [List.append_nil]
    obtain ⟨w, _, hw⟩ := run_rel c0 ops fun c' hc' => hl c' (by simp [hc'])
    rw [run_snoc]
    have hst := stepTo ((Backend.new c0).run ops) (.reopen c)
    generalize ((Backend.new c0).run ops).step (.reopen c) = b at *
    generalize (Backend.new c0).run ops = b0 at *
    cases hst with
    | closed _ hc => exact absurd rfl (hc c)
    | @reopen _ _ m hc =>
      obtain ⟨r1, r2, r3⟩ := reopen_rel hw.disk hw.okF hc
      refine ⟨⟨c, m.timeseries.partitions, w.flushed, w.flushed, true⟩, ⟨rfl, r1, hw.okF, hw.okF, ?_, by simp⟩, rfl, ?_⟩
      · rintro m2 ⟨⟩
        exact ⟨rfl, r3⟩
      · rintro m2 ⟨⟩
        obtain ⟨_, _, _, _, rfl, rfl⟩ := createDbs_ok hc
        exact ⟨rfl, rfl⟩
    | reopenFail hc =>
      exact ⟨{ w with conf := c, cur := w.flushed, isOpen := false }, ⟨rfl, hw.disk, hw.okF, hw.okF, by simp,
        fun _ => ⟨rfl, rfl⟩⟩, rfl, by simp⟩
  · rw [← List.append_assoc, run_snoc]
    have hl' : LookupLaws (ops ++ [.reopen c] ++ a') := by
      intro c' hc'
      rcases List.mem_append.1 hc' with hc' | hc'
      · exact hl c' hc'
      · exact absurd (by simp [hc']) (hno c')
    obtain ⟨w, _, hw⟩ := run_rel c0 _ hl'
    exact clean_flush hw

/-- C35, durability: if the process ends at any point, a backend that is opened on
its file with the same configuration answers all queries as a backend would that
had registered the first `k` lists, flushed them and done cleanups; lists whose
callback has been called are among them. -/
theorem C35_durable_partial (c0 : Conf) (ops : List BackendOp) (c : Conf) (s0 : Async) (h : Opened c0 ops c s0)
    (hlaw : LookupLaws (ops ++ [.reopen c])) (acts : List Act) (hl : (s0.run acts).lost = false) :
    ∃ ops' k, callsOf ops' = (s0.run acts).calls.take k ∧ (s0.run acts).cb.length ≤ k ∧
      (∀ c', .reopen c' ∉ ops') ∧ ((Backend.new c0).run (ops ++ [.reopen c] ++ ops')).mem ≠ none ∧
      SameAnswers ((crashed (s0.run acts)).step (.reopen (s0.run acts).conf))
        ((Backend.new c0).run (ops ++ [.reopen c] ++ ops')) := by
  obtain ⟨h1, _⟩ := opened_sim h acts hl
  generalize s0.run acts = s at *
  obtain ⟨opsD, mD, d1, d2, d3, d4⟩ := h1.disk
  refine ⟨opsD, (s.cb ++ s.flusher.written).length, ?_, by simp, d1.noReopen, by rw [d1.mem]; simp, ?_⟩
  · rw [d4, ← h1.seq]
    cases s.flusher <;> simp [Flusher.written, Flusher.inflight, List.append_assoc]
    rw [← List.append_assoc, ← List.length_append, List.take_left]
  · obtain ⟨w, hw⟩ := synced_clean (c0 := c0) hlaw d3 d1.noReopen
    have hre := reopenable_run c0 (ops ++ [.reopen c] ++ opsD)
    have hm : ((Backend.new c0).run (ops ++ [.reopen c] ++ opsD)).mem ≠ none := by rw [d1.mem]; simp
    have := sameAnswers_clean hw hre hm
    have e1 := d1.disk
    have e2 := d1.conf
    generalize (Backend.new c0).run (ops ++ [.reopen c] ++ opsD) = b at *
    rw [← e2]
    refine ⟨fun x => ?_, fun x => ?_, fun x => ?_, fun x => ?_⟩
    · rw [← this.lastId]
      simp only [crashed, Backend.step, ← e1]
      cases createDbs b.conf b.disk <;> rfl
    · rw [← this.server]
      simp only [crashed, Backend.step, ← e1]
      cases createDbs b.conf b.disk <;> rfl
    · rw [← this.timeseries]
      simp only [crashed, Backend.step, ← e1]
      cases createDbs b.conf b.disk <;> rfl
    · have h3 := this.latest x
      have : ((crashed s).step (.reopen b.conf)).query (.latest x) = (b.step (.reopen b.conf)).query (.latest x) := by
        simp only [crashed, Backend.step, ← e1]
        cases createDbs b.conf b.disk <;> rfl
      rw [this]; exact h3

/-! ## C60 -/

/-- When a call of `flush` returns, the lists registered before it (their number is
`n`) have been notified, in their order; later failures change nothing.  That
notified lists are durable is `C35_durable_partial`. -/
theorem C60_flush (c0 : Conf) (ops : List BackendOp) (c : Conf) (s0 : Async) (h : Opened c0 ops c s0)
    (acts : List Act) (n : Nat) (hn : n ∈ (s0.run acts).flushed) :
    n ≤ (s0.run acts).cb.length ∧ n ≤ (s0.run acts).calls.length ∧
      (s0.run acts).cb.take n = (s0.run acts).calls.take n := by
  obtain ⟨conf, disk, m, rfl, h1, h2⟩ := h.start
  exact flushed_run h1 h2 acts n hn

/-! ## C36 -/

/-- C36 if no flush fails (events can be stored, no insertion during an
iteration raises).  Every result of a query, in any schedule, is the result of the
same query in a sequential history in which the first `k` lists are registered:
at least those registered before the query started, at most those registered
before its result. -/
theorem C36_partial (c0 : Conf) (ops : List BackendOp) (c : Conf) (s0 : Async) (h : Opened c0 ops c s0)
    (acts : List Act) (hf : Fits (ops ++ [.reopen c]) (actCalls acts)) (hn : NoRace acts)
    (params : QueryParams) (before : Nat) (result : Except PyErr QueryResult) (after : Nat)
    (hx : (params, before, result, after) ∈ (s0.run acts).results) :
    ∃ ops' k, callsOf ops' = (s0.run acts).calls.take k ∧ before ≤ k ∧ k ≤ after ∧
      (∀ c', .reopen c' ∉ ops') ∧ ((Backend.new c0).run (ops ++ [.reopen c] ++ ops')).mem ≠ none ∧
      ((Backend.new c0).run (ops ++ [.reopen c] ++ ops')).query params = result := by
  have hl := C58_partial c0 ops c s0 h acts hf hn
  obtain ⟨h1, _⟩ := opened_sim h acts hl
  have hsub : (s0.run acts).calls.Sublist (actCalls acts) := by
    obtain ⟨conf, disk, m, rfl, _, _⟩ := h.start
    exact calls_sublist _ _ _ _
  obtain ⟨d, mq, cs, ⟨ops', e1, rfl⟩, e2, e3, e4, e5⟩ := results_early h1 (hf.sub hsub) _ hx
  refine ⟨ops', (callsOf ops').length, (List.prefix_iff_eq_take.1 e5), e3, e4, e1.noReopen, by rw [e1.mem]; simp, ?_⟩
  unfold Backend.query
  rw [e1.mem, e1.disk, e1.conf]
  exact e2.symm

theorem noReopen_confs {ops ops' : List BackendOp} {c : Conf} (h : .reopen c ∈ ops ++ ops')
    (hno : ∀ c', .reopen c' ∉ ops') : .reopen c ∈ ops := by
  rcases List.mem_append.1 h with h | h
  · exact h
  · exact absurd h (hno c)

theorem keepsAccepted_append {ops ops' : List BackendOp} (h : KeepsAccepted ops)
    (hno : ∀ c', .reopen c' ∉ ops') : KeepsAccepted (ops ++ ops') := by
  unfold KeepsAccepted at *
  rw [List.filterMap_append]
  rw [(List.filterMap_eq_nil_iff (l := ops')).2, List.append_nil]
  · exact h
  · intro op hop
    cases op with
    | reopen c => exact absurd hop (hno c)
    | _ => rfl

/-- Server queries: a valid query returns a page of the list of all events of the
server that are held (persisted, if this is required) in a state with the first
`k` lists registered, in the order of their identifiers, each once. -/
theorem C36_server_partial (c0 : Conf) (ops : List BackendOp) (c : Conf) (s0 : Async) (h : Opened c0 ops c s0)
    (hk : KeepsAccepted (ops ++ [.reopen c]))
    (acts : List Act) (hf : Fits (ops ++ [.reopen c]) (actCalls acts)) (hn : NoRace acts)
    (p : QueryServerParams) (hp : ServerParamsOk p) (before : Nat) (result : Except PyErr QueryResult) (after : Nat)
    (hx : (.server p, before, result, after) ∈ (s0.run acts).results) :
    ∃ ops' k w full, callsOf ops' = (s0.run acts).calls.take k ∧ before ≤ k ∧ k ≤ after ∧
      Run c0 (ops ++ [.reopen c] ++ ops') w ∧ (∀ c', .reopen c' ∉ ops') ∧
      ServerList (ServerHeld w p.persisted) p.serverId p.lastEventId full ∧
      result = .ok (page full (serverPage p.maxResults)) := by
  obtain ⟨ops', k, h1, h2, h3, h4, h5, h6⟩ := C36_partial c0 ops c s0 h acts hf hn _ _ _ _ hx
  obtain ⟨w, hr, hq⟩ := C31_server c0 (ops ++ [.reopen c] ++ ops')
    (fun c' hc' => hf.laws c' (noReopen_confs hc' h4)) (keepsAccepted_append hk h4) h5
  obtain ⟨full, f1, f2⟩ := hq p hp
  exact ⟨ops', k, w, full, h1, h2, h3, hr, h4, f1, h6.symm.trans f2⟩

/-- Timeseries queries: the claim of `C33_partial` for the same state. -/
theorem C36_timeseries_partial (c0 : Conf) (ops : List BackendOp) (c : Conf) (s0 : Async)
    (h : Opened c0 ops c s0) (hc : TsConfs (ops ++ [.reopen c])) (ho : OrdinaryEvents (ops ++ [.reopen c]))
    (acts : List Act) (hf : Fits (ops ++ [.reopen c]) (actCalls acts)) (hn : NoRace acts)
    (hoe : ∀ es, .register es ∈ acts → ∀ e ∈ es, Ordinary e)
    (p : QueryTimeseriesParams) (before : Nat) (result : Except PyErr QueryResult) (after : Nat)
    (hx : (.timeseries p, before, result, after) ∈ (s0.run acts).results) :
    ∃ ops' k w, callsOf ops' = (s0.run acts).calls.take k ∧ before ≤ k ∧ k ≤ after ∧
      Run c0 (ops ++ [.reopen c] ++ ops') w ∧ (∀ c', .reopen c' ∉ ops') ∧
      let b := (Backend.new c0).run (ops ++ [.reopen c] ++ ops')
      b.query (.timeseries p) = result ∧ (TsParamsOk b.conf p → PendingInOrder w.flushed w.cur p.orderBy →
        ∃ sel, Selected b.conf w.partitions p sel ∧
          let query := fun i mr => b.query (.timeseries { p with lastEventId := i, maxResults := mr })
          match sel with
          | some q => ∃ full, Answers b.conf w.cur q p query full
          | none => ∀ i mr, query i mr = .ok ⟨[], false⟩) := by
  obtain ⟨ops', k, h1, h2, h3, h4, h5, h6⟩ := C36_partial c0 ops c s0 h acts hf hn _ _ _ _ hx
  have hord : OrdinaryEvents (ops ++ [.reopen c] ++ ops') := by
    intro es he
    rcases List.mem_append.1 he with he | he
    · exact ho es he
    · have : es ∈ callsOf ops' := mem_callsOf.2 he
      rw [h1] at this
      have hsub : (s0.run acts).calls.Sublist (actCalls acts) := by
        obtain ⟨conf, disk, m, rfl, _, _⟩ := h.start
        exact calls_sublist _ _ _ _
      have := hsub.subset (List.mem_of_mem_take this)
      simp only [actCalls, List.mem_filterMap] at this
      obtain ⟨a, ha, hae⟩ := this
      cases a <;> simp at hae
      subst hae
      exact hoe _ ha
  obtain ⟨w, hr, hq⟩ := C33_partial c0 (ops ++ [.reopen c] ++ ops')
    (fun c' hc' => hf.laws c' (noReopen_confs hc' h4)) (fun c' hc' => hc c' (noReopen_confs hc' h4)) hord h5
  exact ⟨ops', k, w, h1, h2, h3, hr, h4, h6, fun a b => hq p a b⟩

/-! ## Examples -/

/-- A new file, opened with two partitions: 1 by timestamp, 2 by source timestamp. -/
def exFile : Backend := (Backend.new (exConf none [])).run ([] ++ [.reopen (exConf none exPartitions)])

/-- The backend on the event loop. -/
def exStart : Async := .create exFile.conf exFile.disk (exFile.mem.get (by rfl))

theorem exStart_opened : Opened (exConf none []) [] (exConf none exPartitions) exStart :=
  ⟨exFile.mem.get (by rfl), (Option.some_get _).symm, rfl⟩

theorem exStart_fits {calls : List (List Event)} (h : ∀ es ∈ calls, ∀ e ∈ es, Storable e)
    (hn : (calls.map List.length).sum < 2 ^ 64) : Fits ([] ++ [.reopen (exConf none exPartitions)]) calls :=
  ⟨fun c hc => by
      simp only [List.nil_append, List.mem_singleton, BackendOp.reopen.injEq] at hc
      rw [hc]; exact exConf_lookup _ _,
    ⟨by simp, by simp⟩, h, by simpa [offered] using hn⟩

def exAsc (o : OrderBy) : QueryTimeseriesParams := ⟨none, none, none, none, none, .ascending, o, none, none⟩

def exServer : QueryServerParams := ⟨1, false, none, none⟩

/-- A query is submitted, a flush is requested and starts, an event is registered
while the flush waits for the query, a second query is submitted, everything ends. -/
def exSchedule : List Act :=
  [.register [exE 1 1 1 ["a"] 1 none], .query (.timeseries (exAsc .timestamp)), .request, .flush,
   .register [exE 1 2 1 ["b"] 2 (some 7)], .query (.server exServer), .job false, .start, .finish 0, .job false,
   .job false, .register [exE 1 3 1 ["a"] 3 none], .finish 0, .notify, .notify]

example : (exStart.run exSchedule).results =
    [(.timeseries (exAsc .timestamp), 1, .ok ⟨[exE 1 1 1 ["a"] 1 none], false⟩, 2),
     (.server exServer, 2, .ok ⟨[exE 1 1 1 ["a"] 1 none, exE 1 2 1 ["b"] 2 (some 7), exE 1 3 1 ["a"] 3 none], false⟩, 3)] ∧
    (exStart.run exSchedule).cb = [[exE 1 1 1 ["a"] 1 none]] ∧ (exStart.run exSchedule).flushed = [1] ∧
    (exStart.run exSchedule).calls.length = 3 := by
  refine ⟨by rfl, by rfl, by rfl, by rfl⟩

theorem exE_storable (server session inst : Int) (t : EventType) (s : Int) (src : Option Int)
    (h1 : 0 ≤ server ∧ server < 2 ^ 64) (h2 : 0 ≤ session ∧ session < 2 ^ 64) (h3 : 0 ≤ inst ∧ inst < 2 ^ 64)
    (h4 : -2 ^ 63 ≤ s ∧ s < 2 ^ 63) (h5 : ∀ x, src = some x → -2 ^ 63 ≤ x ∧ x < 2 ^ 63) :
    Storable (exE server session inst t s src) := by
  refine ⟨?_, ?_, ?_⟩
  · simp only [exE, IdRange, U64]; omega
  · simp only [exE, TimeRange]; omega
  · intro x hx
    simp only [exE, Option.map_eq_some_iff] at hx
    obtain ⟨y, hy, rfl⟩ := hx
    have := h5 y hy
    simp only [TimeRange]; omega

theorem exSchedule_fits : Fits ([] ++ [.reopen (exConf none exPartitions)]) (actCalls exSchedule) := by
  refine exStart_fits ?_ (by decide)
  intro es hes e he
  simp only [actCalls, exSchedule, List.filterMap_cons, List.filterMap_nil, List.mem_cons, List.not_mem_nil,
    or_false] at hes
  rcases hes with rfl | rfl | rfl <;> rw [List.mem_singleton.1 he] <;> apply exE_storable <;> simp

theorem exSchedule_noRace : NoRace exSchedule := .inl (by simp [exSchedule])

/-- Hypotheses of `C58_partial`, `C35_order_partial`, `C35_durable_partial`, `C60_flush`. -/
example : (exStart.run exSchedule).lost = false ∧
    (exStart.run exSchedule).flusher.inflight = [] ∧ 1 ∈ (exStart.run exSchedule).flushed :=
  ⟨C58_partial _ _ _ _ exStart_opened _ exSchedule_fits exSchedule_noRace, by rfl,
    by have : (exStart.run exSchedule).flushed = [1] := by rfl
       rw [this]; simp⟩

/-- Hypotheses of `C36_partial`: the second query of the example started after two
lists, saw three. -/
example : ∃ ops' k, callsOf ops' = (exStart.run exSchedule).calls.take k ∧ 2 ≤ k ∧ k ≤ 3 ∧
    ((Backend.new (exConf none [])).run ([] ++ [.reopen (exConf none exPartitions)] ++ ops')).query (.server exServer) =
      .ok ⟨[exE 1 1 1 ["a"] 1 none, exE 1 2 1 ["b"] 2 (some 7), exE 1 3 1 ["a"] 3 none], false⟩ := by
  obtain ⟨ops', k, h1, h2, h3, _, _, h4⟩ := C36_partial _ _ _ _ exStart_opened exSchedule exSchedule_fits
    exSchedule_noRace (.server exServer) 2 _ 3 (by
      have : (exStart.run exSchedule).results =
        [(.timeseries (exAsc .timestamp), 1, .ok ⟨[exE 1 1 1 ["a"] 1 none], false⟩, 2),
         (.server exServer, 2, .ok ⟨[exE 1 1 1 ["a"] 1 none, exE 1 2 1 ["b"] 2 (some 7), exE 1 3 1 ["a"] 3 none], false⟩, 3)] := by rfl
      rw [this]; simp only [List.mem_cons, Prod.mk.injEq]; right; left; exact ⟨trivial, trivial, rfl, trivial⟩)
  exact ⟨ops', k, h1, h2, h3, h4⟩

/-- Hypothesis of `C35_complete_partial`: the schedule continues until the backend is closed. -/
example : (exStart.run (exSchedule ++ [.close, .flush, .job false, .notify, .notify, .notify])).flusher = .ended ∧
    (exStart.run (exSchedule ++ [.close, .flush, .job false, .notify, .notify, .notify])).cb.length = 3 :=
  ⟨by rfl, by rfl⟩

/-! ## Refutations

An ascending timeseries query looks up pending entries of its partition after it
has read the database.  If a flush has started meanwhile, this inserts a key in the
`defaultdict` over which the database thread iterates (`timeseriesdb.py:115-125`,
l.177-179), and the flush fails with `RuntimeError`. -/

def exRace : List Act :=
  [.register [exE 1 1 1 ["a"] 1 none], .query (.server exServer), .job false, .finish 0,
   .query (.timeseries (exAsc .sourceTimestamp)), .job false, .flush, .start, .finish 0, .job true]

theorem exRace_fits (l : List Act) (h : actCalls l = [] ∨ actCalls l = [[exE 1 2 1 ["a"] 2 none]]) :
    Fits ([] ++ [.reopen (exConf none exPartitions)]) (actCalls (exRace ++ l)) := by
  have happ : actCalls (exRace ++ l) = [[exE 1 1 1 ["a"] 1 none]] ++ actCalls l := by
    simp [actCalls, exRace]
  rw [happ]
  refine exStart_fits ?_ ?_
  · intro es hes e he
    rcases h with h | h <;> rw [h] at hes <;> simp at hes
    · subst hes; rw [List.mem_singleton.1 he]; apply exE_storable <;> simp
    · rcases hes with rfl | rfl <;> rw [List.mem_singleton.1 he] <;> apply exE_storable <;> simp
  · rcases h with h | h <;> rw [h] <;> decide

/-- C58 does not hold: a query makes a flush fail. -/
theorem C58_refuted : ¬ ∀ (c0 : Conf) (ops : List BackendOp) (c : Conf) (s0 : Async), Opened c0 ops c s0 →
    ∀ acts : List Act, Fits (ops ++ [.reopen c]) (actCalls acts) → (s0.run acts).lost = false := by
  intro h
  have h1 := h _ _ _ _ exStart_opened exRace (by simpa using exRace_fits [] (.inl rfl))
  have h2 : (exStart.run exRace).lost = true := by rfl
  rw [h2] at h1
  simp at h1

/-- C36 without the hypothesis on races: a server query does not return an event
that was registered and returned before. -/
theorem C36_refuted : ¬ ∀ (c0 : Conf) (ops : List BackendOp) (c : Conf) (s0 : Async), Opened c0 ops c s0 →
    ∀ (acts : List Act) (es : List Event), Fits (ops ++ [.reopen c]) (actCalls acts) → actCalls acts = [es] →
    (∀ fl se now, .cleanup fl se now ∉ acts) →
    ∀ (p : QueryServerParams) (i j n n' k k' : Nat) (r r' : QueryResult), i < j →
      (s0.run acts).results[i]? = some (.server p, n, .ok r, n') →
      (s0.run acts).results[j]? = some (.server p, k, .ok r', k') →
      r'.moreFollows = false → ∀ e ∈ r.events, e ∈ r'.events := by
  intro h
  have h1 := h _ _ _ _ exStart_opened (exRace ++ [.query (.server exServer), .job false, .finish 0])
    [exE 1 1 1 ["a"] 1 none] (exRace_fits _ (.inl rfl)) rfl (by simp [exRace]) exServer 0 2 1 1 1 1
    ⟨[exE 1 1 1 ["a"] 1 none], false⟩ ⟨[], false⟩ (by decide) (by rfl) (by rfl) rfl _ List.mem_cons_self
  simp at h1

/-- The flush loop flushes once more when it ends (`backend.py:222-271`): a list
registered while the flush failed. -/
def exRaceEnd : List Act :=
  [.register [exE 1 1 1 ["a"] 1 none], .query (.server exServer), .job false, .finish 0,
   .query (.timeseries (exAsc .sourceTimestamp)), .job false, .flush, .start, .finish 0,
   .register [exE 1 2 1 ["a"] 2 none], .job true, .notify, .flush, .job false, .notify, .notify]

theorem exRaceEnd_fits : Fits ([] ++ [.reopen (exConf none exPartitions)]) (actCalls exRaceEnd) := by
  have : actCalls exRaceEnd = actCalls (exRace ++ [.register [exE 1 2 1 ["a"] 2 none]]) := rfl
  rw [this]; exact exRace_fits _ (.inr rfl)

/-- C35, order: the first list is skipped. -/
theorem C35_order_refuted : ¬ ∀ (c0 : Conf) (ops : List BackendOp) (c : Conf) (s0 : Async), Opened c0 ops c s0 →
    ∀ acts : List Act, Fits (ops ++ [.reopen c]) (actCalls acts) →
      (s0.run acts).cb <+: (s0.run acts).calls := by
  intro h
  have h1 := h _ _ _ _ exStart_opened exRaceEnd exRaceEnd_fits
  have h2 : (exStart.run exRaceEnd).cb = [[exE 1 2 1 ["a"] 2 none]] := by rfl
  have h3 : (exStart.run exRaceEnd).calls = [[exE 1 1 1 ["a"] 1 none], [exE 1 2 1 ["a"] 2 none]] := by rfl
  rw [h2, h3] at h1
  simp [exE, List.cons_prefix_cons] at h1

/-- C35, durability: the second list is notified, but its event is not found by
a latest query when the backend is opened again (the entry that gives its type a
number was lost with the first list), although it was the latest event before. -/
theorem C35_loss_refuted : ¬ ∀ (c0 : Conf) (ops : List BackendOp) (c : Conf) (s0 : Async), Opened c0 ops c s0 →
    ∀ acts : List Act, Fits (ops ++ [.reopen c]) (actCalls acts) → ∀ e : Event,
      [e] ∈ (s0.run acts).cb → e ∈ (s0.run acts).mem.latest.events.map Prod.snd →
      ∀ r, ((crashed (s0.run acts)).step (.reopen c)).query (.latest none) = .ok r → e ∈ r.events := by
  intro h
  have h1 := h _ _ _ _ exStart_opened exRaceEnd exRaceEnd_fits (exE 1 2 1 ["a"] 2 none)
  have h2 : (exStart.run exRaceEnd).cb = [[exE 1 2 1 ["a"] 2 none]] := by rfl
  have h3 : (exStart.run exRaceEnd).mem.latest.events.map Prod.snd = [exE 1 2 1 ["a"] 2 none] := by rfl
  rw [h2, h3] at h1
  have h4 := h1 (by simp) (by simp) ⟨[], false⟩ (by rfl)
  simp at h4

/-- C59 does not hold: after a failed flush the file contains a later event
without an earlier one of the same server, which a sequential history stores. -/
theorem C59_refuted : ¬ ∀ (c0 : Conf) (ops : List BackendOp) (c : Conf) (s0 : Async), Opened c0 ops c s0 →
    ∀ acts : List Act, Fits (ops ++ [.reopen c]) (actCalls acts) → (∀ fl se now, .cleanup fl se now ∉ acts) →
    ∀ e e' : Event, actCalls acts = [[e], [e']] →
    ∀ (p : QueryTimeseriesParams) (r r' : QueryResult),
      ((crashed (s0.run acts)).step (.reopen c)).query (.timeseries p) = .ok r →
      ((Backend.new c0).run (ops ++ [.reopen c, .register [e], .register [e'], .flush])).query (.timeseries p) = .ok r' →
      e ∈ r'.events → e' ∈ r.events → e ∈ r.events := by
  intro h
  have h1 := h _ _ _ _ exStart_opened exRaceEnd exRaceEnd_fits (by simp [exRaceEnd])
    (exE 1 1 1 ["a"] 1 none) (exE 1 2 1 ["a"] 2 none) rfl (exAsc .timestamp) ⟨[exE 1 2 1 ["a"] 2 none], false⟩
    ⟨[exE 1 1 1 ["a"] 1 none, exE 1 2 1 ["a"] 2 none], false⟩ (by rfl) (by rfl) (by simp) (by simp)
  simp [exE] at h1

end HatEvent
