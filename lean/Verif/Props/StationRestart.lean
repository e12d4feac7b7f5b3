import Verif.Props.Station

/-!
# C102: what a client has registered, clients find after restarts of the server
-/

namespace HatEvent
open Spec

/-- An event the backend showed when it was flushed, and a latest query of a client of a later process. -/
theorem Station.latest_later {cf' : StationConf} {db : Conf} (hdb : cf'.db = db) {b : Nat} (hb : cf'.foreign b = false) {ops rest : List BackendOp} {w2 : World}
    (h3 : Reached db (ops ++ [.flush]) w2) (hopen2 : ((Backend.new db).run (ops ++ [.flush])).mem ≠ none) {x : Event}
    (h4 : ShowsAt w2.conf w2.cur x) {then_ : List StationAct} {types : Option (List EventType)} {after : List StationAct} {cb cb' : ReqClient}
    {r : QueryResult} :
    let t0 := (Station.init cf' (ops ++ [.flush] ++ rest)).run cf' then_
    let t1 := (t0.step cf' (.client b (.query (.latest types)))).run cf' after
    LookupLaws (ops ++ [.flush] ++ rest) → KeepsAccepted (ops ++ [.flush] ++ rest) →
    t0.clients b = some cb → t1.clients b = some cb' → cb'.calls cb.nextCall = .finished (.answered (.result r)) →
    Usable (t0.backend cf').conf types → Visible (t0.backend cf').conf x → AskedFor types x.type →
      ∃ y ∈ r.events, y.type = x.type ∧ TimeLe x.timestamp y.timestamp := by
  intro t0 t1 hl hk hcb hcb' hxb hu hv' hask
  have hlkb : Station.Linked (fun _ _ _ => True) b t0 := Station.linked_any hb _
  refine Station.answered_query hb hlkb (fun r => ∃ y ∈ r.events, y.type = x.type ∧ TimeLe x.timestamp y.timestamp) ?_ hcb hcb' hxb
  intro first r _ hq
  obtain ⟨more', hm', hno'⟩ := Station.past_more cf' (Station.init cf' (ops ++ [.flush] ++ rest)) (then_ ++ first)
  have hcf' : ((t0.run cf' first).backend cf').conf = (t0.backend cf').conf := Station.backend_conf cf' t0 first
  have hpast : (t0.run cf' first).past = ops ++ [.flush] ++ (rest ++ more') := by
    have : t0.run cf' first = (Station.init cf' (ops ++ [.flush] ++ rest)).run cf' (then_ ++ first) := by rw [Station.run_append]
    rw [this, hm']
    simp [Station.init]
  unfold Station.backend at hq
  rw [hpast, hdb] at hq
  have hconf : ((Backend.new db).run (ops ++ [.flush] ++ (rest ++ more'))).conf = (t0.backend cf').conf := by
    rw [← hcf', Station.backend, hpast, hdb]
  have hre : openedWith (ops ++ [.flush] ++ (rest ++ more')) = openedWith (ops ++ [.flush] ++ rest) := by
    rw [← List.append_assoc, openedWith_append]
    have : openedWith more' = [] := List.eq_nil_iff_forall_not_mem.2 fun c hc => hno' c (mem_openedWith.1 hc)
    rw [this, List.append_nil]
  have hl' : LookupLaws (ops ++ [.flush] ++ (rest ++ more')) := by
    intro c hc
    rw [← mem_openedWith, hre, mem_openedWith] at hc
    exact hl c hc
  have hk' : KeepsAccepted (ops ++ [.flush] ++ (rest ++ more')) := by
    show Accepting (openedWith _)
    rw [hre]; exact hk
  obtain ⟨w', h5, h6⟩ := shown_later (rest := rest ++ more') hl' hk' hopen2 h3 h4
  exact latest_shown hl' h5 (by rw [hconf]; exact hu) hq (h6 (by rw [← h5.rel.conf, hconf]; exact hv')) hask

/-- **C102** for clocks that are not set back before the registration is answered (missing: what was not flushed, see
`C102_crash_refuted`, and a clock that is set back, see `C99_clock_refuted`): a registration of a client was answered with events, and some time
after that the backend had flushed.  Whatever happens then, be it the end or a crash of the process, be it other processes that use the file
with other configurations and that end or crash: if a client of a later process asks for latest events and gets a result, each of the
events that was to be shown and is to be shown and asked for, or an event of its type that is not older, is in the result.  Conditions of
later configurations do not reject what earlier ones have shown. -/
theorem C102_partial (cf cf' : StationConf) (hdb : cf'.db = cf.db) (pre : List BackendOp) (a b : Nat) (ha : cf.foreign a = false)
    (hb : cf'.foreign b = false) (before : List StationAct) (evs : List RegisterEvent) (between later : List StationAct)
    (ops rest : List BackendOp) (then_ : List StationAct) (types : Option (List EventType)) (after : List StationAct)
    (ca ca' cb cb' : ReqClient) (es : List Event) (r : QueryResult) :
    let s0 := (Station.init cf pre).run cf before
    let s1 := (s0.step cf (.client a (.register evs true))).run cf between
    let s2 := s1.run cf later
    let t0 := (Station.init cf' (s2.past ++ rest)).run cf' then_
    let t1 := (t0.step cf' (.client b (.query (.latest types)))).run cf' after
    LookupLaws (s2.past ++ rest) → KeepsAccepted (s2.past ++ rest) →
    s0.clients a = some ca → s1.clients a = some ca' → ca'.calls ca.nextCall = .finished (.answered (.events (some es))) →
    ClockForward cf.serverId pre s1.past → s2.past = ops ++ [.flush] → (s2.backend cf).mem ≠ none →
    t0.clients b = some cb → t1.clients b = some cb' → cb'.calls cb.nextCall = .finished (.answered (.result r)) →
    Usable (t0.backend cf').conf types →
    ∀ x ∈ es, Visible (s0.backend cf).conf x → Visible (t0.backend cf').conf x → AskedFor types x.type →
      ∃ y ∈ r.events, y.type = x.type ∧ TimeLe x.timestamp y.timestamp := by
  intro s0 s1 s2 t0 t1 hl hk hca hca' hxa hf hflush hopen hcb hcb' hxb hu x hx hv hv' hask
  have hpre : pre <+: s2.past := by
    have : s2 = (Station.init cf pre).run cf (before ++ .client a (.register evs true) :: between ++ later) := by
      rw [Station.run_append, Station.run_append]; rfl
    rw [this]; exact Station.past_run cf (Station.init cf pre) _
  have hlpre : LookupLaws pre := fun c hc => hl c (List.mem_append_left _ (hpre.subset hc))
  obtain ⟨hd, hreg⟩ := Station.answered_registered hlpre ha hca hca' hxa hf
  -- it is shown when everything was flushed
  obtain ⟨more, hm, hno⟩ := Station.past_more cf s1 later
  have hopen2 : ((Backend.new cf.db).run (s1.past ++ more)).mem ≠ none := by
    unfold Station.backend at hopen
    rw [← hm]; exact hopen
  obtain ⟨w, h1, h2, _⟩ := hd.shown (open_earlier hno hopen2)
  have hcf1 : ((Backend.new cf.db).run s1.past).conf = (s0.backend cf).conf :=
    Station.backend_conf cf s0 (.client a (.register evs true) :: between)
  obtain ⟨w2, h3, h4, _, h5⟩ := kept_more hd.laws h1 more hno hopen2
  have h4 := (h5 x (h2 x (hreg x hx))).latest (by rw [h4, ← h1.rel.conf, hcf1]; exact hv)
  rw [← hm, hflush] at h3 hopen2
  have e : s2.past ++ rest = ops ++ [.flush] ++ rest := by rw [hflush]
  have ht0 : t0 = (Station.init cf' (ops ++ [.flush] ++ rest)).run cf' then_ := by rw [← e]
  have ht1 : t1 = (((Station.init cf' (ops ++ [.flush] ++ rest)).run cf' then_).step cf' (.client b (.query (.latest types)))).run cf' after := by
    rw [← ht0]
  rw [e] at hl hk
  rw [ht0] at hcb hu hv'
  rw [ht1] at hcb'
  exact Station.latest_later hdb hb h3 hopen2 h4 hl hk hcb hcb' hxb hu hv' hask

/-- The process crashed while other events were registered, the file is used again. -/
def exRestartOps : List BackendOp := [.register [⟨⟨7, 3, 1⟩, ["a"], exAt 20, none, none⟩], .reopen exKeep]

/-- The next process up to the call of the second client. -/
def exRestart0 : Station := (Station.init exStation ((exStation1 1).past ++ exRestartOps)).run exStation exStationUp

/-- The whole history of the next process. -/
def exRestart1 : Station := (exRestart0.step exStation (.client 1 (.query (.latest none)))).run exStation exStationQuery

theorem exRestart_laws {past : List BackendOp} (h : ∀ c, .reopen c ∈ past → c = exKeep) : LookupLaws past ∧ KeepsAccepted past := by
  refine ⟨fun c hc => ?_, ?_⟩
  · rw [h c hc]; exact exConf_lookup none []
  · refine List.pairwise_of_forall_mem_list fun c _ c' hc' e _ _ => ?_
    rw [h c' (mem_openedWith.1 hc')]; rfl

example : ∃ ops c c', LookupLaws ((exStation1 1).past ++ exRestartOps) ∧ KeepsAccepted ((exStation1 1).past ++ exRestartOps) ∧
    (exStation1 1).past = ops ++ [.flush] ∧ ((exStation1 1).backend exStation).mem.isSome = true ∧
    exRestart0.clients 1 = some c ∧ exRestart1.clients 1 = some c' ∧
    c'.calls c.nextCall = .finished (.answered (.result ⟨[⟨⟨7, 1, 1⟩, ["event", "7", "engine"], exAt 1, none, some (.json (.str "STARTED"))⟩,
      ⟨⟨8, 1, 1⟩, ["a"], exAt 9, none, none⟩, ⟨⟨7, 2, 2⟩, ["b"], exAt 2, some (exAt 0), none⟩], false⟩)) ∧
    ClockForward 7 [.reopen exKeep] (exStation1 1).past ∧ (∀ e, Visible (exRestart0.backend exStation).conf e) := by
  have hre : ∀ c, .reopen c ∈ (exStation1 1).past ++ exRestartOps → c = exKeep := by
    intro c hc
    rw [← mem_openedWith] at hc
    have : openedWith ((exStation1 1).past ++ exRestartOps) = [exKeep, exKeep] := rfl
    rw [this] at hc
    simpa using hc
  exact ⟨(exStation1 1).past.dropLast, _, _, (exRestart_laws hre).1, (exRestart_laws hre).2, rfl, rfl, rfl, rfl, rfl, exStation_clock, exKeep_shows⟩

/-- The call of the first client is answered, nothing is flushed. -/
def exRestartLost : List StationAct := [.client 0 (.sendDone 0), .arrive 0] ++ exStationSession 2 ++ [.answered 0, .deliver 0, .client 0 (.resume 0)]

/-- The history up to the crash. -/
def exLost1 : Station := ((exStation0 1).step exStation (.client 0 (.register exStationEvents true))).run exStation exRestartLost

/-- The next process up to the call of the second client. -/
def exLost2 : Station := (Station.init exStation (exLost1.past ++ [.reopen exKeep])).run exStation exStationUp

/-- The whole history of the next process. -/
def exLost3 : Station := (exLost2.step exStation (.client 1 (.query (.latest none)))).run exStation exStationQuery

theorem exLost_clock : ClockForward 7 [.reopen exKeep] exLost1.past := by
  have h : offeredBy 7 exLost1.past = ⟨⟨7, 1, 1⟩, ["event", "7", "engine"], exAt 1, none, some (.json (.str "STARTED"))⟩ :: exStationGot := rfl
  have h' : offeredBy 7 (exLost1.past.drop 1) =
    ⟨⟨7, 1, 1⟩, ["event", "7", "engine"], exAt 1, none, some (.json (.str "STARTED"))⟩ :: exStationGot := rfl
  constructor
  · rw [h]
    simp [exStationGot, exAt, TimeLe, TimeLt]
  · show ∀ e ∈ offeredBy 7 (exLost1.past.drop 1), _
    rw [h']
    simp [exStationGot, exAt, TimeLe, TimeLt, minTimestamp]

/-- **C102 does not hold** without the flush: a registration of a client is answered with events, the process crashes, and a client of the next
process gets a result without events. -/
theorem C102_crash_refuted : ∃ (cf : StationConf) (pre : List BackendOp) (before between then_ after : List StationAct) (evs : List RegisterEvent)
    (c : Conf) (ca ca' cb cb' : ReqClient) (es : List Event) (r : QueryResult),
    let s0 := (Station.init cf pre).run cf before
    let s1 := (s0.step cf (.client 0 (.register evs true))).run cf between
    let t0 := (Station.init cf (s1.past ++ [.reopen c])).run cf then_
    let t1 := (t0.step cf (.client 1 (.query (.latest none)))).run cf after
    LookupLaws (s1.past ++ [.reopen c]) ∧ KeepsAccepted (s1.past ++ [.reopen c]) ∧ cf.foreign 0 = false ∧ cf.foreign 1 = false ∧
    s0.clients 0 = some ca ∧ s1.clients 0 = some ca' ∧ ca'.calls ca.nextCall = .finished (.answered (.events (some es))) ∧
    ClockForward cf.serverId pre s1.past ∧
    t0.clients 1 = some cb ∧ t1.clients 1 = some cb' ∧ cb'.calls cb.nextCall = .finished (.answered (.result r)) ∧
    (∀ e, Visible (s0.backend cf).conf e) ∧ (∀ e, Visible (t0.backend cf).conf e) ∧ es ≠ [] ∧ r.events = [] := by
  have hre : ∀ c, .reopen c ∈ exLost1.past ++ [.reopen exKeep] → c = exKeep := by
    intro c hc
    rw [← mem_openedWith] at hc
    have : openedWith (exLost1.past ++ [.reopen exKeep]) = [exKeep, exKeep] := rfl
    rw [this] at hc
    simpa using hc
  exact ⟨exStation, [.reopen exKeep], exStationUp ++ exStationSession 1, exRestartLost, exStationUp, exStationQuery, exStationEvents, exKeep,
    _, _, _, _, exStationGot, ⟨[], false⟩, (exRestart_laws hre).1, (exRestart_laws hre).2, rfl, rfl, rfl, rfl, rfl, exLost_clock,
    rfl, rfl, rfl, exKeep_shows, exKeep_shows, by simp [exStationGot], rfl⟩

/-- A configuration that rejects events with a payload. -/
def exBare : Conf := { exKeep with conditions := fun e => e.payload.isNone }

/-- The first client registers an event with a payload, which is flushed. -/
def exBareLater : List StationAct :=
  [.client 0 (.register [⟨["b"], none, some (.json .null)⟩] true), .client 0 (.sendDone 1), .arrive 0] ++ exStationSession 3 ++ [.keep .flush]

/-- The first process. -/
def exBare1 : Station := exLost1.run exStation exBareLater

/-- The next process up to the call of the second client. -/
def exBare2 : Station := (Station.init exStation (exBare1.past ++ [.reopen exBare])).run exStation exStationUp

/-- **C102 does not hold** for conditions of a later configuration that reject what was shown: the event is to be shown in both processes, but is
neither in the result nor is another one of its type. -/
theorem C102_conditions_refuted : ∃ (cf : StationConf) (pre : List BackendOp) (before between later then_ after : List StationAct)
    (evs : List RegisterEvent) (ops : List BackendOp) (c : Conf) (ca ca' cb cb' : ReqClient) (es : List Event) (r : QueryResult),
    let s0 := (Station.init cf pre).run cf before
    let s1 := (s0.step cf (.client 0 (.register evs true))).run cf between
    let s2 := s1.run cf later
    let t0 := (Station.init cf (s2.past ++ [.reopen c])).run cf then_
    let t1 := (t0.step cf (.client 1 (.query (.latest none)))).run cf after
    LookupLaws (s2.past ++ [.reopen c]) ∧ cf.foreign 0 = false ∧ cf.foreign 1 = false ∧
    s0.clients 0 = some ca ∧ s1.clients 0 = some ca' ∧ ca'.calls ca.nextCall = .finished (.answered (.events (some es))) ∧
    ClockForward cf.serverId pre s1.past ∧ s2.past = ops ++ [.flush] ∧ (s2.backend cf).mem.isSome = true ∧
    t0.clients 1 = some cb ∧ t1.clients 1 = some cb' ∧ cb'.calls cb.nextCall = .finished (.answered (.result r)) ∧
    ∃ x ∈ es, Visible (s0.backend cf).conf x ∧ Visible (t0.backend cf).conf x ∧ ∀ y ∈ r.events, y.type ≠ x.type := by
  have hre : ∀ c, .reopen c ∈ exBare1.past ++ [.reopen exBare] → c = exKeep ∨ c = exBare := by
    intro c hc
    rw [← mem_openedWith] at hc
    have : openedWith (exBare1.past ++ [.reopen exBare]) = [exKeep, exBare] := rfl
    rw [this] at hc
    simpa using hc
  refine ⟨exStation, [.reopen exKeep], exStationUp ++ exStationSession 1, exRestartLost, exBareLater, exStationUp, exStationQuery, exStationEvents,
    exBare1.past.dropLast, exBare, _, _, _, _, exStationGot, ⟨[⟨⟨7, 2, 1⟩, ["a"], exAt 2, none, none⟩], false⟩, ?_, rfl, rfl, rfl, rfl, rfl, exLost_clock, rfl, rfl,
    rfl, rfl, rfl, ⟨⟨7, 2, 2⟩, ["b"], exAt 2, some (exAt 0), none⟩, List.mem_of_getElem? (i := 1) rfl, exKeep_shows _, ?_, ?_⟩
  · intro c hc
    rcases hre c hc with rfl | rfl
    · exact exConf_lookup none []
    · exact exConf_lookup none []
  · exact ⟨rfl, rfl⟩
  · intro y hy
    simp only [List.mem_cons, List.not_mem_nil, or_false] at hy
    subst hy
    decide

end HatEvent
