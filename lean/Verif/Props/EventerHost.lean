import Verif.Proof.EventerHost

/-! # C69, C70: clients of the event server and its engine -/

namespace HatEvent
open Host

/-! ## C69: connections are reported to the engine -/

/-- For each connection the engine gets `CONNECTED` at most once and before everything else, `DISCONNECTED` at most once and
after everything else, with the same name, and `DISCONNECTED` only after the connection loop has ended. -/
theorem C69_order (useC : Bool) (token : Option String) (acts : List HostAct) (id : Nat) :
    (∃ name, Orderly name ((((Host.init useC token).run acts).callsOf id).map Prod.snd)) ∧
    (∀ e name, (e, .disconnected name) ∈ ((Host.init useC token).run acts).callsOf id →
      (((Host.init useC token).run acts).server.conns id).phase = .ended) ∧
    (∀ info e name, (id, info) ∈ ((Host.init useC token).run acts).server.infos →
      (e, .connected name) ∈ ((Host.init useC token).run acts).callsOf id → name = info.req.clientName) := by
  have h := shape_run useC token acts id
  generalize hk : ((Host.init useC token).run acts).callsOf id = calls at *
  have hopen : ∀ {name : String}, Open name (calls.map Prod.snd) →
      (∀ e n, (e, HostCall.disconnected n) ∉ calls) ∧ (∀ e n, (e, HostCall.connected n) ∈ calls → n = name) := by
    rintro name ⟨pre, mid, he, h1, h2⟩
    have hmem : ∀ {e : Nat} {c : HostCall}, (e, c) ∈ calls → c = .connected name ∨ ∃ evs, c = .register evs := by
      intro e c hc
      have hc := List.mem_map_of_mem (f := Prod.snd) hc
      rw [he] at hc
      rcases List.mem_append.mp hc with hc | hc
      · rcases h1 with rfl | rfl
        · simp at hc
        · exact .inl (List.mem_singleton.mp hc)
      · exact .inr (h2 _ hc)
    refine ⟨fun e n hc => ?_, fun e n hc => ?_⟩
    · rcases hmem hc with h | ⟨_, h⟩ <;> simp at h
    · rcases hmem hc with h | ⟨_, h⟩ <;> simp at h
      exact h
  have hnil : calls.map Prod.snd = [] → calls = [] := List.map_eq_nil_iff.mp
  refine ⟨?_, ?_, ?_⟩
  · cases hp : (((Host.init useC token).run acts).server.conns id).phase <;> rw [hp] at h
    case absent => exact ⟨"", (show _ = [] from h) ▸ (open_nil "").orderly⟩
    case waiting => exact ⟨"", (show _ = [] from h) ▸ (open_nil "").orderly⟩
    case connecting info => exact ⟨_, (show _ = [_] from h) ▸ (open_connected _).orderly⟩
    case rejected =>
      obtain ⟨name, h | h⟩ := h
      · exact ⟨name, h ▸ (open_nil _).orderly⟩
      · exact ⟨name, h ▸ (open_connected _).orderly⟩
    case ready info => exact ⟨_, Open.orderly h⟩
    case busy info m => exact ⟨_, Open.orderly h⟩
    case ended => exact h
  · intro e name hm
    have hm' := List.mem_map_of_mem (f := Prod.snd) hm
    cases hp : (((Host.init useC token).run acts).server.conns id).phase <;> rw [hp] at h
    case absent => rw [hnil h] at hm; simp at hm
    case waiting => rw [hnil h] at hm; simp at hm
    case connecting info => rw [show calls.map Prod.snd = [_] from h] at hm'; simp at hm'
    case rejected => obtain ⟨n, h | h⟩ := h <;> (rw [h] at hm'; simp at hm')
    case ready info => exact absurd hm ((hopen h).1 e name)
    case busy info m => exact absurd hm ((hopen h).1 e name)
  · intro info e name hi hm
    obtain ⟨sacts, hs⟩ := server_run useC token acts
    rw [hs] at hi
    have hserv := (EvServer.infosOk_run useC token sacts).serving _ hi
    rw [← hs] at hserv
    rcases hserv with hp | ⟨m, hp⟩ <;> (rw [hp] at h; exact (hopen h).2 e name hm)

/-- An engine that is in use before a client sends its init request and until the end gets `CONNECTED` before the client is
known, and `DISCONNECTED` when the connection has ended. -/
theorem C69_reported_partial {useC : Bool} {token : Option String} {before mid after : List HostAct} {id e : Nat}
    {info : ConnInfo} (hu : ((Host.init useC token).run before).Uses e)
    (hp : (((Host.init useC token).run before).server.conns id).phase = .absent ∨
      (((Host.init useC token).run before).server.conns id).phase = .waiting)
    (hm : ∀ a ∈ mid, a.keeps e) (ha : ∀ a ∈ after, a.keeps e)
    (hi : (id, info) ∈ ((Host.init useC token).run (before ++ mid)).server.infos) :
    (e, .connected info.req.clientName) ∈ ((Host.init useC token).run (before ++ mid)).callsOf id ∧
    ((((Host.init useC token).run (before ++ mid ++ after)).server.conns id).phase = .ended →
      (e, .disconnected info.req.clientName) ∈ ((Host.init useC token).run (before ++ mid ++ after)).callsOf id) := by
  obtain ⟨hu', ht⟩ := told_run (id := id) hu hm (by rcases hp with hp | hp <;> (rw [hp]; trivial))
  obtain ⟨sacts, hs⟩ := server_run useC token (before ++ mid)
  have hi' := hi
  rw [hs] at hi'
  have hserv := (EvServer.infosOk_run useC token sacts).serving _ hi'
  rw [← hs] at hserv
  have hc : (e, .connected info.req.clientName) ∈ ((Host.init useC token).run (before ++ mid)).callsOf id := by
    rcases hserv with hp | ⟨m, hp⟩ <;> (rw [hp] at ht; exact ht)
  refine ⟨hc, fun hend => ?_⟩
  have hb : Both e info (((Host.init useC token).run (before ++ mid)).server.conns id).phase
      (((Host.init useC token).run (before ++ mid)).callsOf id) := by
    rcases hserv with hp | ⟨m, hp⟩ <;> (rw [hp]; exact ⟨rfl, hc⟩)
  have hb' := (both_run (id := id) hu' ha hb).2
  rw [hend] at hb'
  exact hb'.2

/-- A request for the examples. -/
def hostReq : InitReq := ⟨"c", none, [["*"]], none, false⟩

/-- A client comes and goes while an engine is in use. -/
example : ∃ info,
    (0, info) ∈ ((Host.init false none).run ([.setStatus .operational (some 7)] ++
      [.accept, .receive 0 (.init hostReq), .answer 0 (.registered (some []))])).server.infos ∧
    (((Host.init false none).run [.setStatus .operational (some 7)]).Uses 7) ∧
    (((Host.init false none).run ([.setStatus .operational (some 7)] ++
      [.accept, .receive 0 (.init hostReq), .answer 0 (.registered (some []))] ++
      [.receive 0 (.register 1 [⟨["a"], none, none⟩] true), .answer 0 (.registered none), .lose 0, .giveUp 0])).callsOf 0) =
      [(7, .connected "c"), (7, .register [⟨["a"], none, none⟩]), (7, .disconnected "c")] := by
  refine ⟨_, List.mem_cons_self, ⟨rfl, rfl⟩, rfl⟩

/-- It is not so that each known client was reported to the open engine: a client that came before the engine was started
is never reported to it. -/
theorem C69_late_refuted : ¬ ∀ (useC : Bool) (token : Option String) (acts : List HostAct) (id e : Nat) (info : ConnInfo),
    ((Host.init useC token).run acts).Uses e → (id, info) ∈ ((Host.init useC token).run acts).server.infos →
    (e, .connected info.req.clientName) ∈ ((Host.init useC token).run acts).callsOf id := by
  intro h
  have h' := h false none [.accept, .receive 0 (.init hostReq), .setStatus .operational (some 7)] 0 7 _ ⟨rfl, rfl⟩
    List.mem_cons_self
  have e : ((Host.init false none).run
      [.accept, .receive 0 (.init hostReq), .setStatus .operational (some 7)]).callsOf 0 = [] := rfl
  rw [e] at h'
  cases h'

/-- Requests are passed to an engine exactly while the clients are told that the server is operational: whatever arguments
`set_status` is called with, there is an engine if and only if the status is operational. -/
theorem C69_status (useC : Bool) (token : Option String) (acts : List HostAct) :
    ((Host.init useC token).run acts).engine.isSome = true ↔
      ((Host.init useC token).run acts).server.status = .operational := engine_run useC token acts

/-- Calls of `set_status` that raise and one that does not. -/
example : ((Host.init false none).run [.setStatus .operational none, .setStatus .starting (some 1),
    .setStatus .operational (some 7), .setStatus .stopping (some 7)]).engine = some 7 := rfl

/-! ## C70: register requests are answered -/

/-- Without an engine a register request fails at once, and the connection remains. -/
theorem C70_standby (s : Host) {id conv : Nat} {info : ConnInfo} {evs : List RegisterEvent}
    (hp : (s.server.conns id).phase = .ready info) (hl : (s.server.conns id).lost = false) (he : s.engine = none) :
    ((s.step (.receive id (.register conv evs false))).server.conns id).sent =
      (s.server.conns id).sent ++ [.registerRes conv none] ∧
    ((s.step (.receive id (.register conv evs false))).server.conns id).phase = .ready info ∧
    (s.step (.receive id (.register conv evs false))).calls = s.calls := by
  simp [Host.step, afterReceive, serve, EvServer.step, EvServer.receive, EvServer.process, EvServer.handle, EvServer.reply,
    EvServer.respond, EvServer.post, EvServer.setConn, onRegister, settle, hp, hl, he]

/-- What `Engine.register` returns is the response, and the connection remains. -/
theorem C70_answer_partial (s : Host) {id conv : Nat} {info : ConnInfo} {evs : List RegisterEvent}
    {result : Option (List Event)} (hp : (s.server.conns id).phase = .busy info (.register conv evs false))
    (hl : (s.server.conns id).lost = false) :
    ((s.step (.answer id (.registered result))).server.conns id).sent =
      (s.server.conns id).sent ++ [.registerRes conv result] ∧
    ((s.step (.answer id (.registered result))).server.conns id).phase = .ready info := by
  simp [Host.step, answer, serve, EvServer.step, EvServer.reply, EngineEnd.handled,
    EvServer.respond, EvServer.post, EvServer.setConn, settle, hp, hl]

/-- A client in standby, and one whose request is with the engine. -/
example : ∃ info, (((Host.init false none).run [.accept, .receive 0 (.init hostReq)]).server.conns 0).phase = .ready info ∧
    ((Host.init false none).run [.accept, .receive 0 (.init hostReq)]).engine = none ∧
    (((Host.init false none).run [.accept, .receive 0 (.init hostReq), .setStatus .operational (some 7),
      .receive 0 (.register 1 [⟨["a"], none, none⟩] false)]).server.conns 0).phase =
      .busy info (.register 1 [⟨["a"], none, none⟩] false) := ⟨_, rfl, rfl, rfl⟩

/-- While a connection loop has not ended all finished register requests are answered.  If no connection was lost and neither
engine nor backend has raised, this is also so after the end. -/
theorem C70_answered_partial (useC : Bool) (token : Option String) (acts : List HostAct) (id : Nat)
    (h : (((Host.init useC token).run acts).server.conns id).phase ≠ .ended ∨ ∀ a ∈ acts, a.calm ∧ a.succeeds) :
    ((Host.init useC token).run acts).Answered id := by
  obtain ⟨sacts, hs, hg⟩ := server_run_good useC token acts
  have hans := EvServer.ansOk_run useC token sacts id
  by_cases hp : (((Host.init useC token).run acts).server.conns id).phase = .ended
  · rcases h with h | h
    · exact absurd hp h
    · have hf := full_run useC token sacts (hg h) id
      rw [← hs] at hf
      exact answered_of (hf.gone hp)
  · exact answered_ansOk (by rw [hs]; exact hans) hp

/-- A client that ends its connection by a wrong message after a request. -/
example :
    let acts : List HostAct := [.setStatus .operational (some 7), .accept, .receive 0 (.init hostReq),
      .answer 0 (.registered (some [])), .receive 0 (.register 1 [⟨["a"], none, none⟩] false), .answer 0 (.registered none),
      .receive 0 .other]
    (∀ a ∈ acts, a.calm ∧ a.succeeds) ∧ (((Host.init false none).run acts).server.conns 0).phase = .ended ∧
      (((Host.init false none).run acts).server.conns 0).handled = [.register 1 [⟨["a"], none, none⟩] false] := by
  refine ⟨by simp [HostAct.calm, HostAct.succeeds], rfl, rfl⟩

/-- It is not so that each register request is answered: if the engine closes, the connection is closed instead, although
nothing was lost and the eventer server is open. -/
theorem C70_refuted : ¬ ∀ (useC : Bool) (token : Option String) (acts : List HostAct) (id : Nat), (∀ a ∈ acts, a.calm) →
    ((Host.init useC token).run acts).Answered id := by
  intro h
  have h' := h false none [.setStatus .operational (some 7), .accept, .receive 0 (.init hostReq),
    .answer 0 (.registered (some [])), .closeEngine 7, .receive 0 (.register 1 [⟨["a"], none, none⟩] false),
    .answer 0 .raised] 0 (by simp [HostAct.calm]) 1 [⟨["a"], none, none⟩] List.mem_cons_self (by intro info m hm; cases hm)
  cases h'

end HatEvent
