import Verif.Proof.StationKept

/-!
# C99: what one client has registered, another client finds
-/

namespace HatEvent
open Spec

/-- **C99**: a registration of a client was answered with events.  There is one for each register event, in order, with its type, source
timestamp and payload, and they are events of the server. -/
theorem C99_registered (cf : StationConf) (pre : List BackendOp) (hl : LookupLaws pre) (a : Nat) (ha : cf.foreign a = false)
    (before : List StationAct) (evs : List RegisterEvent) (between : List StationAct) (c c' : ReqClient) (es : List Event) :
    let s0 := (Station.init cf pre).run cf before
    let s1 := (s0.step cf (.client a (.register evs true))).run cf between
    s0.clients a = some c → s1.clients a = some c' → c'.calls c.nextCall = .finished (.answered (.events (some es))) →
    es.length = evs.length ∧ ∀ (j : Nat) (x : Event) (r : RegisterEvent), es[j]? = some x → evs[j]? = some r → MadeFrom cf.serverId x r := by
  intro s0 s1 hc hc' hx
  have hs1 : s1 = (Station.init cf pre).run cf (before ++ .client a (.register evs true) :: between) := by
    rw [Station.run_append]; rfl
  have hlk : Station.Linked (fun _ _ _ => True) a s1 := by rw [hs1]; exact Station.linked_any ha _
  have hfair := Station.answered_call (cf := cf) hc (act := .register evs true) (req := fun conv => .register conv evs false) rfl (fun _ => nofun)
    (fun _ => rfl) between hlk hc' hx
  refine Station.registered_made (cf := cf) (s := s1) ?_ hfair
  rw [hs1]
  exact Station.madeOk_run ⟨hl, fun x hx => by cases hx⟩ _

/-- **C99** for clocks that are not set back before the registration is answered (missing: a clock that is set back, see
`C99_clock_refuted`): a registration of a client was answered with events; later a client, the same or another one, asks for latest events and
gets a result.  Then each of the events that is to be shown and asked for, or an event of its type that is not older, is in the result.
Clients, connections, engines, the backend and programs that are no eventer client may do anything before, between and after. -/
theorem C99_partial (cf : StationConf) (pre : List BackendOp) (hl : LookupLaws pre) (a b : Nat) (ha : cf.foreign a = false)
    (hb : cf.foreign b = false) (before : List StationAct) (evs : List RegisterEvent) (between : List StationAct)
    (types : Option (List EventType)) (after : List StationAct) (ca ca' cb cb' : ReqClient) (es : List Event) (r : QueryResult) :
    let s0 := (Station.init cf pre).run cf before
    let s1 := (s0.step cf (.client a (.register evs true))).run cf between
    let s2 := (s1.step cf (.client b (.query (.latest types)))).run cf after
    s0.clients a = some ca → s1.clients a = some ca' → ca'.calls ca.nextCall = .finished (.answered (.events (some es))) →
    s1.clients b = some cb → s2.clients b = some cb' → cb'.calls cb.nextCall = .finished (.answered (.result r)) →
    ClockForward cf.serverId pre s1.past → Usable (s0.backend cf).conf types →
    ∀ x ∈ es, Visible (s0.backend cf).conf x → AskedFor types x.type →
      ∃ y ∈ r.events, y.type = x.type ∧ TimeLe x.timestamp y.timestamp := by
  intro s0 s1 s2 hca hca' hxa hcb hcb' hxb hf hu x hx hv hask
  have hs1 : s1 = (Station.init cf pre).run cf (before ++ .client a (.register evs true) :: between) := by
    rw [Station.run_append]; rfl
  have hconf : ∀ acts, ((s1.run cf acts).backend cf).conf = (s0.backend cf).conf := by
    intro acts
    have : s1.run cf acts = s0.run cf ((.client a (.register evs true) :: between) ++ acts) := by rw [Station.run_append]; rfl
    rw [this, Station.backend_conf]
  obtain ⟨hd, hreg⟩ := Station.answered_registered hl ha hca hca' hxa hf
  have hlkb : Station.Linked (fun _ _ _ => True) b s1 := by rw [hs1]; exact Station.linked_any hb _
  refine Station.answered_query hb hlkb (fun r => ∃ y ∈ r.events, y.type = x.type ∧ TimeLe x.timestamp y.timestamp) ?_ hcb hcb' hxb
  intro first r _ hq
  obtain ⟨more, hm, hno⟩ := Station.past_more cf s1 first
  have hcf := hconf first
  unfold Station.backend at hq hcf
  rw [hm] at hq hcf
  have hopen : ((Backend.new cf.db).run (s1.past ++ more)).mem ≠ none := by
    intro hn
    unfold Backend.query at hq
    rw [hn] at hq
    simp at hq
  obtain ⟨w, h1, h2, _⟩ := hd.shown (open_earlier hno hopen)
  have hcf1 : ((Backend.new cf.db).run s1.past).conf = (s0.backend cf).conf := hconf []
  obtain ⟨w', h3, h5, _, h6⟩ := kept_more hd.laws h1 more hno hopen
  have h4 := (h6 x (h2 x (hreg x hx))).latest (by rw [h5, ← h1.rel.conf, hcf1]; exact hv)
  refine latest_shown (fun c hc => ?_) h3 (by rw [hcf]; exact hu) hq h4 hask
  rcases List.mem_append.1 hc with hc | hc
  · exact hd.laws c hc
  · exact absurd hc (hno c)

/-- A server with the database of `exKeep`. -/
def exStation : StationConf := { db := exKeep, serverId := 7 }

/-- Two clients are connected, an engine is created and the server becomes operational. -/
def exStationUp : List StationAct :=
  [.host .accept, .host .accept, .host (.receive 0 (.init ⟨"a", none, [], none, false⟩)), .host (.receive 1 (.init ⟨"b", none, [], none, false⟩)),
    .connect 0, .connect 1, .client 0 .start, .client 1 .start, .start [], .host (.setStatus .operational (some 0)), .engine 0 .spawn]

/-- The engine does a session. -/
def exStationSession (now : Int) : List StationAct :=
  [.engine 0 (.take (exAt now)), .engine 0 .next, .engine 0 .next, .engine 0 .next, .engine 0 (.registered .same (exAt now))]

/-- The register events of a client. -/
def exStationEvents : List RegisterEvent := [⟨["a"], none, none⟩, ⟨["b"], some (exAt 0), none⟩]

/-- The call of the first client is answered; meanwhile another server registers. -/
def exStationAnswer (now : Int) : List StationAct :=
  [.client 0 (.sendDone 0), .arrive 0] ++ exStationSession now ++
    [.remote [⟨⟨8, 1, 1⟩, ["a"], exAt 9, none, none⟩], .answered 0, .keep .flush, .deliver 0, .client 0 (.resume 0)]

/-- The call of the second client is answered. -/
def exStationQuery : List StationAct := [.client 1 (.sendDone 0), .arrive 1, .queried 1, .deliver 1, .client 1 (.resume 0)]

/-- The history up to the call of the first client; `now` is the time of the first session. -/
def exStation0 (now : Int) : Station := (Station.init exStation [.reopen exKeep]).run exStation (exStationUp ++ exStationSession now)

/-- The history up to the call of the second client. -/
def exStation1 (now : Int) : Station := ((exStation0 now).step exStation (.client 0 (.register exStationEvents true))).run exStation (exStationAnswer 2)

/-- The whole history. -/
def exStation2 (now : Int) : Station := ((exStation1 now).step exStation (.client 1 (.query (.latest none)))).run exStation exStationQuery

/-- The events the first client gets. -/
def exStationGot : List Event := [⟨⟨7, 2, 1⟩, ["a"], exAt 2, none, none⟩, ⟨⟨7, 2, 2⟩, ["b"], exAt 2, some (exAt 0), none⟩]

theorem exStation_laws : LookupLaws [.reopen exKeep] := by
  intro c hc
  cases List.mem_singleton.1 hc
  exact exConf_lookup none []

example : ∃ c c', (exStation0 1).clients 0 = some c ∧ (exStation1 1).clients 0 = some c' ∧
    c'.calls c.nextCall = .finished (.answered (.events (some exStationGot))) ∧ exStation.foreign 0 = false ∧
    LookupLaws [.reopen exKeep] := ⟨_, _, rfl, rfl, rfl, rfl, exStation_laws⟩

theorem exKeep_shows (e : Event) : Visible exKeep e :=
  ⟨rfl, by show nodeMatches e.type _ = true; cases e.type <;> rfl⟩

theorem exStation_offered : offeredBy 7 ((exStation1 1).past.drop 1) =
    ⟨⟨7, 1, 1⟩, ["event", "7", "engine"], exAt 1, none, some (.json (.str "STARTED"))⟩ :: exStationGot := rfl

theorem exStation_clock : ClockForward 7 [.reopen exKeep] (exStation1 1).past := by
  have h : offeredBy 7 (exStation1 1).past = ⟨⟨7, 1, 1⟩, ["event", "7", "engine"], exAt 1, none, some (.json (.str "STARTED"))⟩ :: exStationGot := rfl
  constructor
  · rw [h]
    simp [exStationGot, exAt, TimeLe, TimeLt]
  · show ∀ e ∈ offeredBy 7 ((exStation1 1).past.drop 1), _
    rw [exStation_offered]
    simp [exStationGot, exAt, TimeLe, TimeLt, minTimestamp]

example : ∃ c c', (exStation1 1).clients 1 = some c ∧ (exStation2 1).clients 1 = some c' ∧
    c'.calls c.nextCall = .finished (.answered (.result ⟨[⟨⟨7, 1, 1⟩, ["event", "7", "engine"], exAt 1, none, some (.json (.str "STARTED"))⟩,
      ⟨⟨8, 1, 1⟩, ["a"], exAt 9, none, none⟩, ⟨⟨7, 2, 2⟩, ["b"], exAt 2, some (exAt 0), none⟩], false⟩)) ∧
    ClockForward 7 [.reopen exKeep] (exStation1 1).past ∧ Usable ((exStation0 1).backend exStation).conf none ∧
    (∀ e, Visible ((exStation0 1).backend exStation).conf e) :=
  ⟨_, _, rfl, rfl, rfl, exStation_clock, (fun l hl => by cases hl), exKeep_shows⟩

/-- **C99 does not hold** if the clock is set back: a registration of a client is answered with events, which are to be shown, but the
latest query another client makes afterwards has no event of the type of one of them. -/
theorem C99_clock_refuted : ∃ (cf : StationConf) (pre : List BackendOp) (before between after : List StationAct) (evs : List RegisterEvent)
    (ca ca' cb cb' : ReqClient) (es : List Event) (r : QueryResult),
    let s0 := (Station.init cf pre).run cf before
    let s1 := (s0.step cf (.client 0 (.register evs true))).run cf between
    let s2 := (s1.step cf (.client 1 (.query (.latest none)))).run cf after
    LookupLaws pre ∧ cf.foreign 0 = false ∧ cf.foreign 1 = false ∧
    s0.clients 0 = some ca ∧ s1.clients 0 = some ca' ∧ ca'.calls ca.nextCall = .finished (.answered (.events (some es))) ∧
    s1.clients 1 = some cb ∧ s2.clients 1 = some cb' ∧ cb'.calls cb.nextCall = .finished (.answered (.result r)) ∧
    (∀ e, Visible (s0.backend cf).conf e) ∧ ∃ x ∈ es, ∀ y ∈ r.events, y.type ≠ x.type := by
  refine ⟨exStation, [.reopen exKeep], exStationUp ++ exStationSession 5, exStationAnswer 2, exStationQuery, exStationEvents, _, _, _, _, exStationGot,
    ⟨[⟨⟨7, 1, 1⟩, ["event", "7", "engine"], exAt 5, none, some (.json (.str "STARTED"))⟩, ⟨⟨8, 1, 1⟩, ["a"], exAt 9, none, none⟩], false⟩,
    exStation_laws, rfl, rfl, rfl, rfl, rfl, rfl, rfl, rfl, exKeep_shows, ⟨⟨7, 2, 2⟩, ["b"], exAt 2, some (exAt 0), none⟩, List.mem_of_getElem? (i := 1) rfl, ?_⟩
  intro y hy
  simp only [List.mem_cons, List.not_mem_nil, or_false] at hy
  rcases hy with rfl | rfl <;> decide

end HatEvent
