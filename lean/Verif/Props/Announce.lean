import Verif.Proof.Announcer
import Verif.Props.RestartSeries

/-!
# C107: what clients were told to be persisted, clients find after a crash
-/

namespace HatEvent
open Spec

/-- An event of the server a client was told to be persisted: the backend kept it when it was written. -/
theorem Announcer.told_kept {cf : StationConf} {ops : List BackendOp} {c : Conf} {b : Nat} {acts : List AnnounceAct}
    (hper : ∀ req, .station (.host (.receive b (.init req))) ∈ acts → req.persisted = true) {cb : ReqClient} :
    let s := (Announcer.init cf (ops ++ [.reopen c])).run cf acts
    LookupLaws (ops ++ [.reopen c]) → s.station.clients b = some cb → ClockForward cf.serverId (ops ++ [.reopen c]) s.station.past →
    ∀ l ∈ cb.notified, ∀ x ∈ l, x.id.server = cf.serverId →
      ∃ before after w, s.station.past = before ++ [.flush] ++ after ∧ Reached cf.db (before ++ [.flush]) w ∧
        ((Backend.new cf.db).run (before ++ [.flush])).mem ≠ none ∧ w.conf = c ∧ KeepsAt w x := by
  intro s hl hcb hf l hln x hx hsv
  have hok := Announcer.announceOk_run (cf := cf) (ops := ops) (c := c) acts hper
  -- the client got what was announced
  obtain ⟨xs0, hxs0⟩ := hok.reached
  have hg : Station.Gets b none s.station := by
    show Station.Gets b none ((Announcer.init cf (ops ++ [.reopen c])).run cf acts).station
    rw [hxs0]
    exact Station.gets_run (Station.gets_init cf _) xs0
  rw [hg.notes cb hcb] at hln
  have hall : l ∈ EvServer.allNotes (s.station.host.server.conns b).sent := by
    have : (s.station.conn b).sent = (s.station.conn b).sent.take (s.station.read b) ++ (s.station.conn b).sent.drop (s.station.read b) :=
      (List.take_append_drop _ _).symm
    show l ∈ EvServer.allNotes (s.station.conn b).sent
    rw [this, EvServer.allNotes_append]
    exact List.mem_append_left _ hln
  have hnotes : EvServer.NotesOk s.station.host.server := by
    obtain ⟨evs, hevs⟩ := Station.host_run cf (ops ++ [.reopen c]) xs0
    show EvServer.NotesOk ((Announcer.init cf (ops ++ [.reopen c])).run cf acts).station.host.server
    rw [hxs0, hevs]
    exact EvServer.notesOk_run _ _ evs
  obtain ⟨p, hp, hxp⟩ := hok.told.got hnotes hall x hx
  -- it was written
  obtain ⟨xs, ys, h1, hopen, more, h2, h3⟩ := hok.announced p hp
  have hpast : s.station.past = (((Station.init cf (ops ++ [.reopen c])).run cf xs).run cf ys).past := by rw [← h1]
  obtain ⟨rest, hr⟩ := Station.past_run cf ((Station.init cf (ops ++ [.reopen c])).run cf xs) ys
  rw [← hr, h2] at hpast
  rw [hpast] at hf
  have hf' : ClockForward cf.serverId (ops ++ [.reopen c]) ((Station.init cf (ops ++ [.reopen c])).run cf xs).past := by
    rw [h2]
    exact ClockForward.prefix (by rw [List.append_assoc _ more]; exact List.prefix_append _ _) hf
  have hd := Station.dataOk_run hl xs hf'
  obtain ⟨w, w1, w2, _⟩ := hd.shown hopen
  rw [h2] at w1 w2
  unfold Station.backend at hopen
  rw [h2] at hopen
  refine ⟨ops ++ [.reopen c] ++ more, rest, w, hpast, w1, hopen, ?_, w2 x ?_⟩
  · have := Station.backend_conf cf (Station.init cf (ops ++ [.reopen c])) xs
    unfold Station.backend at this
    rw [h2] at this
    rw [← w1.rel.conf, this]
    simp only [Station.init, Backend.run, List.foldl_append, List.foldl_cons, List.foldl_nil, Backend.step]
    split <;> rfl
  · rw [List.append_assoc, List.drop_left]
    unfold offeredBy
    refine List.mem_flatMap.2 ⟨.register p.2, List.mem_append_left _ h3, ?_⟩
    exact List.mem_filter.2 ⟨hxp, by simpa using hsv⟩

theorem Announcer.laws_begun {cf : StationConf} {ops : List BackendOp} {c : Conf} {b : Nat} {acts : List AnnounceAct} {rest : List BackendOp}
    (hper : ∀ req, .station (.host (.receive b (.init req))) ∈ acts → req.persisted = true)
    (hl : LookupLaws (((Announcer.init cf (ops ++ [.reopen c])).run cf acts).station.past ++ rest)) : LookupLaws (ops ++ [.reopen c]) := by
  intro c' hc'
  obtain ⟨xs, hxs⟩ := (Announcer.announceOk_run (cf := cf) (ops := ops) (c := c) acts hper).reached
  refine hl c' (List.mem_append_left _ ?_)
  rw [hxs]
  exact (Station.past_run cf (Station.init cf (ops ++ [.reopen c])) xs).subset hc'

/-- **C107** for clocks that are not set back (missing: what the backend rejects, see `C107_clock_refuted`): a client that asked for persisted events was
notified of an event of the server.  Whatever happens then, be it a crash of the process at once, be it other processes that use the file with
other configurations and that end or crash: if a client of a later process asks for latest events and gets a result, the event, if it was to
be shown and is to be shown and asked for, or an event of its type that is not older, is in the result.  Conditions of later
configurations do not reject what earlier ones have shown. -/
theorem C107_partial (cf cf' : StationConf) (hdb : cf'.db = cf.db) (ops : List BackendOp) (c : Conf) (b d : Nat) (hd : cf'.foreign d = false)
    (acts : List AnnounceAct) (hper : ∀ req, .station (.host (.receive b (.init req))) ∈ acts → req.persisted = true)
    (rest : List BackendOp) (then_ : List StationAct) (types : Option (List EventType)) (after : List StationAct)
    (cb cd cd' : ReqClient) (r : QueryResult) :
    let s := (Announcer.init cf (ops ++ [.reopen c])).run cf acts
    let t0 := (Station.init cf' (s.station.past ++ rest)).run cf' then_
    let t1 := (t0.step cf' (.client d (.query (.latest types)))).run cf' after
    LookupLaws (s.station.past ++ rest) → KeepsAccepted (s.station.past ++ rest) → s.station.clients b = some cb →
    ClockForward cf.serverId (ops ++ [.reopen c]) s.station.past →
    t0.clients d = some cd → t1.clients d = some cd' → cd'.calls cd.nextCall = .finished (.answered (.result r)) →
    Usable (t0.backend cf').conf types →
    ∀ l ∈ cb.notified, ∀ x ∈ l, x.id.server = cf.serverId → Visible c x → Visible (t0.backend cf').conf x → AskedFor types x.type →
      ∃ y ∈ r.events, y.type = x.type ∧ TimeLe x.timestamp y.timestamp := by
  intro s t0 t1 hl hk hcb hf hcd hcd' hxd hu l hln x hx hsv hv hv' hask
  obtain ⟨before, more, w, h1, h2, h3, h4, h5⟩ := Announcer.told_kept hper (Announcer.laws_begun hper hl) hcb hf l hln x hx hsv
  have e : s.station.past ++ rest = before ++ [.flush] ++ (more ++ rest) := by rw [h1, List.append_assoc]
  have ht0 : t0 = (Station.init cf' (before ++ [.flush] ++ (more ++ rest))).run cf' then_ := by rw [← e]
  have ht1 : t1 = (((Station.init cf' (before ++ [.flush] ++ (more ++ rest))).run cf' then_).step cf' (.client d (.query (.latest types)))).run cf' after := by
    rw [← ht0]
  rw [e] at hl hk
  rw [ht0] at hcd hu hv'
  rw [ht1] at hcd'
  exact Station.latest_later hdb hd h2 h3 (h5.latest (by rw [h4]; exact hv)) hl hk hcd hcd' hxd hu hv' hask

/-- **C107** for timeseries (missing: as above, and pending events out of order while the query is answered, see `C103_refuted`): if a client of a later
process asks for a timeseries and gets a result, the event, if it matches the query and was and is kept for it, is in the result, or more
follows and the event comes after all of the result. -/
theorem C107_series_partial (cf cf' : StationConf) (hdb : cf'.db = cf.db) (ops : List BackendOp) (c : Conf) (b d : Nat) (hd : cf'.foreign d = false)
    (acts : List AnnounceAct) (hper : ∀ req, .station (.host (.receive b (.init req))) ∈ acts → req.persisted = true)
    (rest : List BackendOp) (then_ : List StationAct) (p : QueryTimeseriesParams) (after : List StationAct)
    (cb cd cd' : ReqClient) (r : QueryResult) :
    let s := (Announcer.init cf (ops ++ [.reopen c])).run cf acts
    let t0 := (Station.init cf' (s.station.past ++ rest)).run cf' then_
    let t1 := (t0.step cf' (.client d (.query (.timeseries p)))).run cf' after
    LookupLaws (s.station.past ++ rest) → TsConfs (s.station.past ++ rest) → s.station.clients b = some cb →
    ClockForward cf.serverId (ops ++ [.reopen c]) s.station.past →
    t0.clients d = some cd → t1.clients d = some cd' → cd'.calls cd.nextCall = .finished (.answered (.result r)) →
    OrdinaryEvents t1.past → TsParamsOk (t0.backend cf').conf p → p.lastEventId = none →
    (∀ first, first <+: .client d (.query (.timeseries p)) :: after → InOrderHistory (t0.run cf' first).past p.orderBy) →
    ∀ l ∈ cb.notified, ∀ x ∈ l, x.id.server = cf.serverId → c.conditions x = true → (t0.backend cf').conf.conditions x = true → TsMatches p x →
      KeptAcross c (t0.backend cf').conf p x → Unlimited (s.station.past ++ rest) p.orderBy x →
      x ∈ r.events ∨ (r.moreFollows = true ∧ ∀ y ∈ r.events, OrderOk p y x) := by
  intro s t0 t1 hl hc hcb hf hcd hcd' hxd hord hp hn hin l hln x hx hsv hv hv' hmx hk hu
  obtain ⟨before, more, w, h1, h2, h3, h4, h5⟩ := Announcer.told_kept hper (Announcer.laws_begun hper hl) hcb hf l hln x hx hsv
  have e : s.station.past ++ rest = before ++ [.flush] ++ (more ++ rest) := by rw [h1, List.append_assoc]
  have ht0 : t0 = (Station.init cf' (before ++ [.flush] ++ (more ++ rest))).run cf' then_ := by rw [← e]
  have ht1 : t1 = (((Station.init cf' (before ++ [.flush] ++ (more ++ rest))).run cf' then_).step cf' (.client d (.query (.timeseries p)))).run cf' after := by
    rw [← ht0]
  rw [e] at hl hc hu
  rw [ht0] at hcd hin hp hv' hk
  rw [ht1] at hcd' hord
  rw [← h4] at hv hk
  exact Station.series_later hdb hd h2 h3 h5 hl hc hcd hcd' hxd hord hp hn hin hv hv' hmx hk hu

/-- A client that registers events and one that asked for persisted events are connected, an engine is created and does a session. -/
def exToldUp (now : Int) : List AnnounceAct :=
  ([.host .accept, .host .accept, .host (.receive 0 (.init ⟨"a", none, [], none, false⟩)), .host (.receive 1 (.init ⟨"b", none, [["a"], ["b"]], none, true⟩)),
    .connect 0, .connect 1, .client 0 .start, .client 1 .start, .start [], .host (.setStatus .operational (some 0)), .engine 0 .spawn] ++
    exStationSession now : List StationAct).map .station

/-- Events are registered, flushed and announced. -/
def exToldActs (now : Int) : List AnnounceAct :=
  exToldUp now ++
    ([.client 0 (.register exSeriesEvents true), .client 0 (.sendDone 0), .arrive 0] ++ exStationSession 2 ++ [.keep .flush] : List StationAct).map .station ++
    [.announce, .announce, .station (.host (.send 1 1)), .station (.deliver 1)]

/-- The history. -/
def exTold (now : Int) : Announcer := (Announcer.init exSeriesStation [.reopen exSeries]).run exSeriesStation (exToldActs now)

theorem exTold_persisted (now : Int) : ∀ req, .station (.host (.receive 1 (.init req))) ∈ exToldActs now → req.persisted = true := by
  intro req h
  simp [exToldActs, exToldUp, exStationSession] at h
  rw [h]

theorem exTold_past : (exTold 1).station.past = exSeriesFlushed.past := rfl

/-- The next process, up to the call of the second client, and with the call. -/
def exTold2 : Station := (exSwap0.step exSeriesStation (.client 1 (.query (.latest none)))).run exSeriesStation exStationQuery

theorem exTold_laws {past : List BackendOp} (h : ∀ c, .reopen c ∈ past → c = exSeries ∨ c = exSwapped) :
    LookupLaws past ∧ TsConfs past ∧ KeepsAccepted past := by
  have hlaws : LookupLaws past ∧ TsConfs past := by
    refine exParts_laws fun c hc => ?_
    rcases h c hc with rfl | rfl
    · exact ⟨_, _, rfl, by simp⟩
    · exact ⟨_, _, rfl, by simp⟩
  refine ⟨hlaws.1, hlaws.2, List.pairwise_of_forall_mem_list fun c _ c' hc' e _ _ => ?_⟩
  rcases h c' (mem_openedWith.1 hc') with rfl | rfl <;> rfl

theorem exTold_confs : ∀ c, .reopen c ∈ (exTold 1).station.past ++ exSwapOps → c = exSeries ∨ c = exSwapped := by
  intro c hc
  rw [← mem_openedWith] at hc
  have : openedWith ((exTold 1).station.past ++ exSwapOps) = [exSeries, exSwapped] := rfl
  rw [this] at hc
  simpa using hc

theorem exClock_flushed {x : Int} {pre past : List BackendOp} (hle : pre.length ≤ past.length) (h : ClockForward x pre past) :
    ClockForward x pre (past ++ [.flush]) := by
  have ho : ∀ l : List BackendOp, offeredBy x (l ++ [.flush]) = offeredBy x l := fun l => by simp [offeredBy]
  obtain ⟨h1, h2⟩ := h
  constructor
  · rw [List.drop_append_of_le_length hle, ho, ho]
    exact h1
  · rw [List.drop_append_of_le_length hle, ho]
    exact h2

theorem exTold_clock : ClockForward 7 [.reopen exSeries] (exTold 1).station.past := by
  have e : exSeriesFlushed.past = exSeries1.past ++ [BackendOp.flush] := rfl
  have hl : exSeries1.past.length = 3 := rfl
  rw [exTold_past, e]
  exact exClock_flushed (by rw [hl]; decide) exSeries_clock

/-- The client was told both events, a latest query after the crash gives the one that the configuration wants. -/
example : ∃ cb cd cd', (∀ req, .station (.host (.receive 1 (.init req))) ∈ exToldActs 1 → req.persisted = true) ∧
    (exTold 1).station.clients 1 = some cb ∧ cb.notified = [exDatedEvents] ∧ ClockForward 7 [.reopen exSeries] (exTold 1).station.past ∧
    LookupLaws ((exTold 1).station.past ++ exSwapOps) ∧ KeepsAccepted ((exTold 1).station.past ++ exSwapOps) ∧
    exSwap0 = (Station.init exSeriesStation ((exTold 1).station.past ++ exSwapOps)).run exSeriesStation (exStationUp ++ exStationSession 1 ++ [.keep .flush]) ∧
    exSwap0.clients 1 = some cd ∧ exTold2.clients 1 = some cd' ∧
    cd'.calls cd.nextCall = .finished (.answered (.result ⟨exDatedEvents.take 1, false⟩)) ∧ Usable (exSwap0.backend exSeriesStation).conf none ∧
    ∀ x ∈ exDatedEvents.take 1, x.id.server = 7 ∧ Visible exSeries x ∧ Visible (exSwap0.backend exSeriesStation).conf x ∧ AskedFor none x.type := by
  refine ⟨_, _, _, exTold_persisted 1, rfl, rfl, exTold_clock, (exTold_laws exTold_confs).1, (exTold_laws exTold_confs).2.2, rfl, rfl, rfl, rfl,
    fun _ h => (by cases h), ?_⟩
  have hc : (exSwap0.backend exSeriesStation).conf = exSwapped := rfl
  intro x hx
  simp only [exDatedEvents, List.take_succ_cons, List.take_zero, List.mem_singleton] at hx
  subst hx
  rw [hc]
  exact ⟨rfl, ⟨rfl, rfl⟩, ⟨rfl, rfl⟩, fun _ h => by cases h⟩

/-- A timeseries query after the crash: what the client was told is found. -/
example : ∃ cb cd cd', (∀ req, .station (.host (.receive 1 (.init req))) ∈ exToldActs 1 → req.persisted = true) ∧
    (exTold 1).station.clients 1 = some cb ∧ cb.notified = [exDatedEvents] ∧ ClockForward 7 [.reopen exSeries] (exTold 1).station.past ∧
    LookupLaws ((exTold 1).station.past ++ exSwapOps) ∧ TsConfs ((exTold 1).station.past ++ exSwapOps) ∧
    exSwap0 = (Station.init exSeriesStation ((exTold 1).station.past ++ exSwapOps)).run exSeriesStation (exStationUp ++ exStationSession 1 ++ [.keep .flush]) ∧
    exSwap0.clients 1 = some cd ∧ exSwap1.clients 1 = some cd' ∧
    cd'.calls cd.nextCall = .finished (.answered (.result ⟨exDatedEvents.drop 1, false⟩)) ∧
    OrdinaryEvents exSwap1.past ∧ TsParamsOk (exSwap0.backend exSeriesStation).conf exEarly := by
  refine ⟨_, _, _, exTold_persisted 1, rfl, rfl, exTold_clock, (exTold_laws exTold_confs).1, (exTold_laws exTold_confs).2.1, rfl, rfl, rfl, rfl,
    ?_, exEarly_ok _⟩
  have := exSwap_quiet _ List.prefix_rfl
  rw [exRun_cons] at this
  unfold exSwap1
  rw [this]
  exact exSwap_ordinary

/-- The next process after the clock was set back. -/
def exBack0 : Station := (Station.init exSeriesStation ((exTold 5).station.past ++ [.reopen exSeries])).run exSeriesStation (exStationUp ++ exStationSession 1)

def exBack1 : Station := (exBack0.step exSeriesStation (.client 1 (.query (.latest none)))).run exSeriesStation exStationQuery

/-- **C107 does not hold** if the clock is set back: the backend rejects the events of a session, they are announced as persisted all the same, and
a latest query of the next process has no event of the type. -/
theorem C107_clock_refuted : ∃ (cf : StationConf) (c : Conf) (b d : Nat) (acts : List AnnounceAct) (rest : List BackendOp) (then_ after : List StationAct)
    (cb cd cd' : ReqClient) (r : QueryResult) (l : List Event) (x : Event),
    let s := (Announcer.init cf [.reopen c]).run cf acts
    let t0 := (Station.init cf (s.station.past ++ rest)).run cf then_
    let t1 := (t0.step cf (.client d (.query (.latest none)))).run cf after
    (∀ req, .station (.host (.receive b (.init req))) ∈ acts → req.persisted = true) ∧
    LookupLaws (s.station.past ++ rest) ∧ KeepsAccepted (s.station.past ++ rest) ∧ s.station.clients b = some cb ∧
    t0.clients d = some cd ∧ t1.clients d = some cd' ∧ cd'.calls cd.nextCall = .finished (.answered (.result r)) ∧
    Usable (t0.backend cf).conf none ∧ l ∈ cb.notified ∧ x ∈ l ∧ x.id.server = cf.serverId ∧ Visible c x ∧ Visible (t0.backend cf).conf x ∧
    AskedFor none x.type ∧ ∀ y ∈ r.events, y.type ≠ x.type := by
  have hre : ∀ c, .reopen c ∈ (exTold 5).station.past ++ [.reopen exSeries] → c = exSeries ∨ c = exSwapped := by
    intro c hc
    rw [← mem_openedWith] at hc
    have : openedWith ((exTold 5).station.past ++ [.reopen exSeries]) = [exSeries, exSeries] := rfl
    rw [this] at hc
    simp at hc
    exact .inl hc
  have hc : (exBack0.backend exSeriesStation).conf = exSeries := rfl
  refine ⟨exSeriesStation, exSeries, 1, 1, exToldActs 5, [.reopen exSeries], exStationUp ++ exStationSession 1, exStationQuery, _, _, _, ⟨[], false⟩,
    exDatedEvents, ⟨⟨7, 2, 1⟩, ["a"], exAt 2, some (exAt 5), none⟩, exTold_persisted 5, (exTold_laws hre).1, (exTold_laws hre).2.2, rfl, rfl, rfl, rfl,
    fun _ h => (by cases h), List.mem_singleton.2 rfl, List.mem_cons_self, rfl, ⟨rfl, rfl⟩, ?_, fun _ h => (by cases h), fun _ h => (by cases h)⟩
  show Visible (exBack0.backend exSeriesStation).conf _
  rw [hc]
  exact ⟨rfl, rfl⟩

end HatEvent
