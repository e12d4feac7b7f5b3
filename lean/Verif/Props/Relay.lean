import Verif.Proof.RelayClient
import Verif.Props.Station

/-!
# C100: a client is notified about its own events before its call of register returns
-/

namespace HatEvent
open Spec

/-- What a client asked for, it gets. -/
theorem picked_iff {cf : StationConf} {s : EvServer} {evs : List EvAct} (hs : s = (EvServer.init cf.useC cf.token).run evs) {j : Nat} {info : ConnInfo}
    (hk : (j, info) ∈ s.infos) (hn : cf.useC = true → ∀ q ∈ info.req.subscriptions, NulFree q) (x : Event) :
    Picked info x ↔ MatchesAny info.req.subscriptions x.type ∧ (info.req.serverId = none ∨ info.req.serverId = some x.id.server) := by
  subst hs
  have h := selectEvents_eq ((EvServer.infosOk_run _ _ _).good _ hk) (by rw [EvServer.useC_run]; exact hn) [x]
  have h1 : Picked info x ↔ x ∈ EvServer.selectEvents info [x] := by rw [mem_select]; simp
  rw [h1, h]
  unfold wanted
  simp

/-- **C100**: a client that is subscribed calls `register` with a response and gets events.  Then it has been notified about those of them it
is subscribed to when the call returns. -/
theorem C100_own_partial (cf : StationConf) (pre : List BackendOp) (a : Nat) (ha : cf.foreign a = false) (before : List RelayAct)
    (evs : List RegisterEvent) (between : List RelayAct) (c c' : ReqClient) (info : ConnInfo) (es : List Event) :
    let s0 := (Relay.init cf pre).run cf before
    let s1 := (s0.step cf (.station (.client a (.register evs true)))).run cf between
    s0.station.clients a = some c → (a, info) ∈ s0.station.host.server.infos → info.req.persisted = false →
    (cf.useC = true → ∀ q ∈ info.req.subscriptions, NulFree q) →
    s1.station.clients a = some c' → c'.calls c.nextCall = .finished (.answered (.events (some es))) →
    ∀ x ∈ es, MatchesAny info.req.subscriptions x.type → (info.req.serverId = none ∨ info.req.serverId = some x.id.server) →
      ∃ l ∈ c'.notified, x ∈ l := by
  intro s0 s1 hc hk hp hn hc' hx x hxe hm hs
  obtain ⟨xs, hxs⟩ := Relay.station_run cf (Relay.init cf pre) before
  obtain ⟨evs', he⟩ := Station.host_run cf pre xs
  exact (Relay.registered_heard ha before evs between hc hk hp hc' hx x hxe
    ((picked_iff (cf := cf) (evs := evs') (by rw [← he]; exact congrArg (fun s => s.host.server) hxs) hk hn x).2 ⟨hm, hs⟩)).2 rfl

/-- **C100**: other clients the server knew when the call was made, too: when the call returns, their notifications were sent or their
connections are lost. -/
theorem C100_others_partial (cf : StationConf) (pre : List BackendOp) (a b : Nat) (ha : cf.foreign a = false) (before : List RelayAct)
    (evs : List RegisterEvent) (between : List RelayAct) (c c' : ReqClient) (info : ConnInfo) (es : List Event) :
    let s0 := (Relay.init cf pre).run cf before
    let s1 := (s0.step cf (.station (.client a (.register evs true)))).run cf between
    s0.station.clients a = some c → (b, info) ∈ s0.station.host.server.infos → info.req.persisted = false →
    (cf.useC = true → ∀ q ∈ info.req.subscriptions, NulFree q) →
    s1.station.clients a = some c' → c'.calls c.nextCall = .finished (.answered (.events (some es))) →
    ∀ x ∈ es, MatchesAny info.req.subscriptions x.type → (info.req.serverId = none ∨ info.req.serverId = some x.id.server) →
      (s1.station.conn b).lost = true ∨ ∃ l ∈ EvServer.allNotes (s1.station.conn b).sent, x ∈ l := by
  intro s0 s1 hc hk hp hn hc' hx x hxe hm hs
  obtain ⟨xs, hxs⟩ := Relay.station_run cf (Relay.init cf pre) before
  obtain ⟨evs', he⟩ := Station.host_run cf pre xs
  exact (Relay.registered_heard ha before evs between hc hk hp hc' hx x hxe
    ((picked_iff (cf := cf) (evs := evs') (by rw [← he]; exact congrArg (fun s => s.host.server) hxs) hk hn x).2 ⟨hm, hs⟩)).1

/-- Two clients are connected, the first with subscription `a`, the second with `b` and the server 7; an engine is created. -/
def exRelayUp (persisted : Bool) : List RelayAct :=
  ([.host .accept, .host .accept, .host (.receive 0 (.init ⟨"a", none, [["a"]], none, persisted⟩)),
    .host (.receive 1 (.init ⟨"b", none, [["b"]], some 7, false⟩)),
    .connect 0, .connect 1, .client 0 .start, .client 1 .start, .start [], .host (.setStatus .operational (some 0)), .engine 0 .spawn,
    .engine 0 (.take (exAt 1)), .engine 0 .next, .engine 0 .next, .engine 0 .next] : List StationAct).map .station ++
    [.tell 0, .station (.engine 0 (.registered .same (exAt 1)))]

/-- The call of the first client is answered. -/
def exRelayAnswer (persisted : Bool) : List RelayAct :=
  ([.client 0 (.sendDone 0), .arrive 0, .engine 0 (.take (exAt 2)), .engine 0 .next, .engine 0 .next, .engine 0 .next] : List StationAct).map .station ++
    [.tell 0] ++ (if persisted then [] else [.station (.host (.send 1 0))]) ++ [.station (.host (.send 1 1))] ++
    ([.engine 0 (.registered .same (exAt 2)), .answered 0, .deliver 0, .client 0 (.callbackDone true), .deliver 0, .client 0 (.resume 0)] : List StationAct).map .station

/-- The history up to the call. -/
def exRelay0 (persisted : Bool) : Relay := (Relay.init exStation [.reopen exKeep]).run exStation (exRelayUp persisted)

/-- The whole history. -/
def exRelay1 (persisted : Bool) : Relay :=
  ((exRelay0 persisted).step exStation (.station (.client 0 (.register exStationEvents true)))).run exStation (exRelayAnswer persisted)

example : ∃ c c' info, (exRelay0 false).station.clients 0 = some c ∧ (0, info) ∈ (exRelay0 false).station.host.server.infos ∧
    info.req = ⟨"a", none, [["a"]], none, false⟩ ∧ (exRelay1 false).station.clients 0 = some c' ∧
    c'.calls c.nextCall = .finished (.answered (.events (some exStationGot))) ∧ c'.notified = [[⟨⟨7, 2, 1⟩, ["a"], exAt 2, none, none⟩]] :=
  ⟨_, _, _, rfl, List.mem_of_getElem? (i := 0) rfl, rfl, rfl, rfl, rfl⟩

example : ∃ c c' info, (exRelay0 false).station.clients 0 = some c ∧ (1, info) ∈ (exRelay0 false).station.host.server.infos ∧
    info.req = ⟨"b", none, [["b"]], some 7, false⟩ ∧ (exRelay1 false).station.clients 0 = some c' ∧
    c'.calls c.nextCall = .finished (.answered (.events (some exStationGot))) ∧
    EvServer.allNotes ((exRelay1 false).station.conn 1).sent = [[⟨⟨7, 2, 2⟩, ["b"], exAt 2, some (exAt 0), none⟩]] :=
  ⟨_, _, _, rfl, List.mem_of_getElem? (i := 1) rfl, rfl, rfl, rfl, rfl⟩

/-- Without the callback the call does not return. -/
example : ∃ c, (((exRelay0 false).step exStation (.station (.client 0 (.register exStationEvents true)))).run exStation
    ((exRelayAnswer false).filter fun act => match act with | .tell _ => false | _ => true)).station.clients 0 = some c ∧ c.calls 0 = .waiting 0 :=
  ⟨_, rfl, rfl⟩

/-- **C100 does not hold** for a client that asks for persisted events: its call returns before it is notified. -/
theorem C100_persisted_refuted : ∃ (cf : StationConf) (pre : List BackendOp) (before between : List RelayAct) (evs : List RegisterEvent)
    (c c' : ReqClient) (info : ConnInfo) (es : List Event),
    let s0 := (Relay.init cf pre).run cf before
    let s1 := (s0.step cf (.station (.client 0 (.register evs true)))).run cf between
    cf.foreign 0 = false ∧ s0.station.clients 0 = some c ∧ (0, info) ∈ s0.station.host.server.infos ∧ info.req.persisted = true ∧
    s1.station.clients 0 = some c' ∧ c'.calls c.nextCall = .finished (.answered (.events (some es))) ∧
    (∃ x ∈ es, MatchesAny info.req.subscriptions x.type ∧ info.req.serverId = none) ∧ c'.notified = [] := by
  refine ⟨exStation, [.reopen exKeep], exRelayUp true, exRelayAnswer true, exStationEvents, _, _, _, exStationGot, rfl, rfl, List.mem_of_getElem? (i := 0) rfl,
    rfl, rfl, rfl, ⟨⟨⟨7, 2, 1⟩, ["a"], exAt 2, none, none⟩, List.mem_of_getElem? (i := 0) rfl, ⟨["a"], List.mem_singleton_self _, ?_⟩, rfl⟩, rfl⟩
  exact .same _ .nil

end HatEvent
