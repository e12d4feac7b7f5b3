import Verif.Proof.RelayWireLive
import Verif.Proof.Forever
import Verif.Props.Wire
import Verif.Props.Relay

/-!
# C101: calls of clients of a whole event server end
-/

namespace HatEvent
open Spec

/-- **C101** Each call of `Engine.register` ends in a process that goes on, from whatever callback it comes. -/
theorem C101_engine (cf : StationConf) (past : List BackendOp) (acts : Nat → RelayAct) (hp : ProcessGoesOn cf past acts) (n e i : Nat)
    (h : ∃ eng, (relayAt cf past acts n).station.engines[e]? = some eng ∧ i < eng.requests.length) :
    ∃ m o, n ≤ m ∧ (relayAt cf past acts m).station.outcome (e, i) = some o := by
  obtain ⟨eng, h1, h2⟩ := h
  obtain ⟨m, x, hm, hx, ha⟩ := relay_answered hp h1 h2
  obtain ⟨o, ho⟩ := outcome_some hx ha
  exact ⟨m, o, hm, ho⟩

/-- How a call of a client is told to have ended: with a response for the message of this very call, with an error because the connection was closed, or cancelled. -/
def RelayEnded (acts : Nat → RelayAct) (a n m : Nat) (c c' : ReqClient) (r : ReqAct) : CallEnd → Prop
  | .answered x => ∃ msg, (c.step r).sent = c.sent ++ [msg] ∧ Suits msg x
  | .connectionError => c'.isOpen = false
  | .cancelled => ∃ j, n < j ∧ j < m ∧ acts j = .station (.client a (.cancel c.nextCall))
  | .nothing => False

/-- **C101** Every call of `register` with response and of `query` of a client ends, if the process, the client and its connection go on: with a response of the right kind, with
`ConnectionError` if the connection was closed, or cancelled.  It is assumed that the receive loop of the client is not cancelled before it starts
and that the response is not received before `send_msg` has returned. -/
theorem C101_ends_partial (cf : StationConf) (past : List BackendOp) (acts : Nat → RelayAct) (a n : Nat) (hid : cf.foreign a = false) {r : ReqAct} (hr : Asks r)
    (ha : acts n = .station (.client a r)) {c : ReqClient} (hc : (relayAt cf past acts n).station.clients a = some c)
    (hp : ProcessGoesOn cf past acts) (hg : ClientGoesOn cf past acts a) (hk : TaskGoesOn acts a c.nextCall) (hs : ReceiveStarts cf past acts a)
    (ht : SentFirst cf past acts a c.nextCall) :
    ∃ m c' e, n < m ∧ (relayAt cf past acts m).station.clients a = some c' ∧ c'.calls c.nextCall = .finished e ∧ RelayEnded acts a n m c c' r e := by
  obtain ⟨L, wacts, f, hw⟩ := exists_wireFlat hid past acts
  have hmem : .client r ∈ L n := ((hw.block n).client r).1 ha
  have hL : L n = [.client r] := by
    rcases (hw.block n).kind with ⟨y, hy⟩ | hy
    · rw [hy] at hmem ⊢
      rw [List.mem_singleton.1 hmem]
    · rcases hy _ hmem with ⟨y, hy⟩ | hy <;> cases hy
  have hact : wacts (f n) = .client r := by
    obtain ⟨j, hj, h1⟩ := hw.mem_at hmem
    rw [hL] at hj
    simp at hj
    subst hj
    exact h1
  obtain ⟨i, c', e, hi, hc', he, hend⟩ := C94_ends_partial a cf.useC cf.token wacts (f n) hr hact (c := c) (by rw [hw.at_]; exact hc) (hw.goesOn hp hg)
    ⟨hw.often_client hk.sendDone, hw.often_client hk.resume⟩ (hw.starts hs) (hw.notOvertaken ht)
  obtain ⟨n', j, hj, rfl⟩ := hw.place i
  have hnn : n ≤ n' := by
    by_contra hlt
    have h1 := hw.mono (show n' + 1 ≤ n by omega)
    have h2 := hw.start n'
    omega
  -- the time of the process
  obtain ⟨m, hm, hcm, hbound⟩ : ∃ m, n < m ∧ (relayAt cf past acts m).station.clients a = some c' ∧ ∀ k, f k < f n' + j → k < m := by
    rcases hw.client_at n' j (by omega) with ⟨hj0, h1⟩ | ⟨_, h1⟩
    · subst hj0
      refine ⟨n', ?_, by rw [← h1]; exact hc', fun k hk => ?_⟩
      · rcases Nat.lt_or_ge n n' with h | h
        · exact h
        · have : n = n' := by omega
          subst this
          omega
      · by_contra hge
        have := hw.mono (show n' ≤ k by omega)
        omega
    · refine ⟨n' + 1, by omega, by rw [← h1]; exact hc', fun k hk => ?_⟩
      by_contra hge
      have := hw.mono (show n' + 1 ≤ k by omega)
      have := hw.start n'
      omega
  refine ⟨m, c', e, hm, hcm, he, ?_⟩
  cases e with
  | nothing => exact hend
  | connectionError => exact hend
  | answered x =>
    obtain ⟨msg, h1, h2, _⟩ := hend
    exact ⟨msg, h1, h2⟩
  | cancelled =>
    obtain ⟨i', h1, h2, h3⟩ := hend
    obtain ⟨k, j', hj', rfl⟩ := hw.place i'
    rcases hw.act_at k j' hj' with ⟨hl, h4⟩ | ⟨_, h4⟩
    · rw [h3] at h4
      have h5 : .client (.cancel c.nextCall) ∈ L k := h4 ▸ List.getElem_mem hl
      refine ⟨k, ?_, hbound k (by omega), ((hw.block k).client _).2 h5⟩
      rcases Nat.lt_trichotomy n k with h | h | h
      · exact h
      · subst h
        rw [hL] at h5
        cases List.mem_singleton.1 h5
        cases hr
      · have := hw.mono (show k + 1 ≤ n by omega)
        have := hw.start k
        omega
    · rw [h3] at h4
      rcases WireFlat.pad_not h4.symm with h | h <;> cases h

/-- **C101** If the client stays open and the call is not cancelled, it is answered. -/
theorem C101_answered_partial (cf : StationConf) (past : List BackendOp) (acts : Nat → RelayAct) (a n : Nat) (hid : cf.foreign a = false) {r : ReqAct} (hr : Asks r)
    (ha : acts n = .station (.client a r)) {c : ReqClient} (hc : (relayAt cf past acts n).station.clients a = some c)
    (hp : ProcessGoesOn cf past acts) (hg : ClientGoesOn cf past acts a) (hk : TaskGoesOn acts a c.nextCall) (hs : ReceiveStarts cf past acts a)
    (ht : SentFirst cf past acts a c.nextCall) (hopen : ∀ m c', (relayAt cf past acts m).station.clients a = some c' → c'.isOpen = true)
    (hcancel : ∀ m, acts m ≠ .station (.client a (.cancel c.nextCall))) :
    ∃ m c' x msg, n < m ∧ (relayAt cf past acts m).station.clients a = some c' ∧ c'.calls c.nextCall = .finished (.answered x) ∧
      (c.step r).sent = c.sent ++ [msg] ∧ Suits msg x := by
  obtain ⟨m, c', e, h1, h2, h3, h4⟩ := C101_ends_partial cf past acts a n hid hr ha hc hp hg hk hs ht
  cases e with
  | nothing => exact h4.elim
  | connectionError =>
    have := hopen m c' h2
    rw [show c'.isOpen = false from h4] at this
    cases this
  | cancelled =>
    obtain ⟨j, _, _, h5⟩ := h4
    exact absurd h5 (hcancel j)
  | answered x =>
    obtain ⟨msg, h5, h6⟩ := h4
    exact ⟨m, c', x, msg, h1, h2, h3, h5, h6⟩

/-- What a client and its connection do again and again. -/
def exClientCycle (a : Nat) : List RelayAct :=
  ([.arrive a, .deliver a, .client a .start, .client a .stop, .client a (.callbackDone true), .answered a, .queried a] : List StationAct).map .station

/-- What happens again and again. -/
def exRelayCycle : List RelayAct :=
  ([.engine 0 (.take (exAt 3)), .engine 0 .next, .engine 0 .told, .engine 0 (.processed []), .engine 0 (.registered .same (exAt 3)),
    .host (.send 1 0), .host (.send 1 1), .host (.send 3 0), .client 0 (.sendDone 0), .client 0 (.resume 0)] : List StationAct).map .station ++ [.tell 0] ++
    exClientCycle 0 ++ exClientCycle 1

theorem exRelayCycle_ne : exRelayCycle ≠ [] := List.cons_ne_nil _ _

/-- Nothing is left to do for a client. -/
structure ExDrained (s : Relay) (a : Nat) (c : ReqClient) : Prop where
  ready : ∃ info, (s.station.conn a).phase = .ready info
  client : s.station.clients a = some c
  taken : c.sent[s.station.taken a]? = none
  read : (s.station.conn a).sent[s.station.read a]? = none
  isOpen : c.isOpen = true
  loop : c.loop = .receiving

theorem exAdvance {cf : StationConf} {s : Relay} (act : StationAct) (h : s.station.step cf act = s.station) : s.advance cf act = s := by
  unfold Relay.advance
  rw [h]
  simp

theorem exHostStep {cf : StationConf} {s : Station} (act : HostAct) (h : s.host.step act = s.host) : s.hostStep cf act = s := by
  unfold Station.hostStep
  rw [h]
  simp

theorem exClientStep {cf : StationConf} {s : Station} {a : Nat} {c : ReqClient} (hc : s.clients a = some c) (act : ReqAct) (hne : ∀ m, act ≠ .receive m)
    (h : c.step act = c) : s.step cf (.client a act) = s := by
  have h1 : s.setClient a (·.step act) = s := by
    unfold Station.setClient
    have : (fun i => if i = a then (s.clients i).map (·.step act) else s.clients i) = s.clients := by
      funext i
      split
      · next hi => subst hi; rw [hc]; simp [h]
      · rfl
    rw [this]
  cases act with
  | receive m => exact absurd rfl (hne m)
  | _ => exact h1

theorem ExDrained.fix {cf : StationConf} {s : Relay} {a : Nat} {c : ReqClient} (h : ExDrained s a c) : ∀ x ∈ exClientCycle a, s.step cf x = s := by
  obtain ⟨info, hready⟩ := h.ready
  have hready' : (s.station.host.server.conns a).phase = .ready info := hready
  intro x hx
  simp only [exClientCycle, List.map_cons, List.map_nil, List.mem_cons, List.not_mem_nil, or_false] at hx
  rcases hx with rfl | rfl | rfl | rfl | rfl | rfl | rfl
  · refine exAdvance _ ?_
    simp [Station.step, Station.arrive, hready, h.client, h.taken]
  · refine exAdvance _ ?_
    simp [Station.step, Station.deliver, h.client, h.read]
  · exact exAdvance _ (exClientStep h.client _ nofun (by simp [ReqClient.step, ReqClient.start, h.loop]))
  · exact exAdvance _ (exClientStep h.client _ nofun (by simp [ReqClient.step, ReqClient.stop, h.isOpen]))
  · exact exAdvance _ (exClientStep h.client _ nofun (by simp [ReqClient.step, ReqClient.callbackDone, h.loop]))
  · refine exAdvance _ ?_
    simp only [Station.step, Station.answered]
    split
    · split
      · exact exHostStep _ (by simp [Host.step, Host.answer, hready'])
      · rfl
    · rfl
  · refine exAdvance _ ?_
    simp [Station.step, Station.queried, hready]

/-- Notifications of some call that may be sent, to some client. -/
def exSends : List (Nat × Nat) := [(1, 0), (1, 1), (3, 0)]

/-- There is nothing to be sent. -/
def exSent (s : EvServer) : Bool :=
  exSends.all fun x => ((s.calls x.1).targets.find? fun t => t.1 = x.2).isNone || decide ((s.calls x.1).state x.2 = .done)

theorem exSent_fix {s : Host} (h : exSent s.server = true) {k i : Nat} (hx : (k, i) ∈ exSends) : s.step (.send k i) = s := by
  have := List.all_eq_true.1 h (k, i) hx
  simp only [Bool.or_eq_true, Option.isNone_iff_eq_none, decide_eq_true_eq] at this
  have hs : s.server.step (.send k i) = s.server := by
    rcases this with e | e
    · simp only [EvServer.step, EvServer.send, e]
    · simp only [EvServer.step, EvServer.send, e]
      split
      · next h => cases h
      · rfl
  show { s with server := s.server.step (.send k i) } = s
  rw [hs]

/-- Nothing is left to do for the process and the clients. -/
structure ExRest (s : Relay) (c : ReqClient) (eng : Engine) : Prop where
  engines : s.station.engines = [eng]
  idle : eng.phase = .idle
  queue : eng.queue = []
  first : ExDrained s 0 c
  second : ∃ d, ExDrained s 1 d
  call : (∃ conv, c.calls 0 = .waiting conv) ∨ ∃ e, c.calls 0 = .finished e
  sent : exSent s.station.host.server = true

theorem ExRest.fix {cf : StationConf} {s : Relay} {c : ReqClient} {eng : Engine} (h : ExRest s c eng) : ∀ x ∈ exRelayCycle, s.step cf x = s := by
  have eng_ : ∀ act, eng.step act = eng → s.station.step cf (.engine 0 act) = s.station := by
    intro act ha
    have h1 : s.station.engines[0]? = some eng := by rw [h.engines]; rfl
    simp only [Station.step, Station.engineStep, h1, ha]
    simp [h.engines]
    rw [← h.engines]
  intro x hx
  rcases List.mem_append.1 hx with hx | hx
  · rcases List.mem_append.1 hx with hx | hx
    · simp only [List.map_cons, List.map_nil, List.cons_append, List.nil_append, List.mem_cons, List.not_mem_nil, or_false] at hx
      rcases hx with rfl | rfl | rfl | rfl | rfl | rfl | rfl | rfl | rfl | rfl | rfl
      · exact exAdvance _ (eng_ _ (by simp [Engine.step, Engine.take, h.idle, h.queue]))
      · exact exAdvance _ (eng_ _ (by simp [Engine.step, Engine.next, h.idle]))
      · exact exAdvance _ (eng_ _ (by simp [Engine.step, Engine.told, h.idle]))
      · exact exAdvance _ (eng_ _ (by simp [Engine.step, Engine.processedAct, h.idle]))
      · show (if s.returns 0 then _ else s) = s
        split
        · exact exAdvance _ (eng_ _ (by simp [Engine.step, Engine.registered, h.idle]))
        · rfl
      · exact exAdvance _ (exHostStep _ (exSent_fix h.sent (by simp [exSends])))
      · exact exAdvance _ (exHostStep _ (exSent_fix h.sent (by simp [exSends])))
      · exact exAdvance _ (exHostStep _ (exSent_fix h.sent (by simp [exSends])))
      · refine exAdvance _ (exClientStep h.first.client _ nofun ?_)
        rcases h.call with ⟨_, e⟩ | ⟨_, e⟩ <;> simp [ReqClient.step, ReqClient.sendDone, e]
      · refine exAdvance _ (exClientStep h.first.client _ nofun ?_)
        rcases h.call with ⟨_, e⟩ | ⟨_, e⟩ <;> simp [ReqClient.step, ReqClient.resume, e]
      · have h1 : s.station.engines[0]?.bind Relay.offered = none := by rw [h.engines]; simp [Relay.offered, h.idle]
        simp only [Relay.step, Relay.tell, h1]
        split <;> simp_all
    · exact h.first.fix x hx
  · exact h.second.elim fun _ hd => hd.fix x hx

/-- What holds for the states of a history. -/
def exTrace (cf : StationConf) (f : Relay → Bool) : Relay → List RelayAct → Bool
  | s, [] => f s
  | s, x :: l => f s && exTrace cf f (s.step cf x) l

theorem exTrace_all {cf : StationConf} {f : Relay → Bool} {l : List RelayAct} : ∀ {s : Relay}, exTrace cf f s l = true → ∀ n, f (s.run cf (l.take n)) = true := by
  induction l with
  | nil => intro s h n; rw [List.take_nil]; exact h
  | cons x l ih =>
    intro s h n
    simp only [exTrace, Bool.and_eq_true] at h
    cases n with
    | zero => exact h.1
    | succ n => exact ih h.2 n

/-- The second client receives its notification. -/
def exSecondReads : List RelayAct := [.station (.deliver 1), .station (.client 1 (.callbackDone true))]

/-- The history of a call that is answered. -/
def exRelayCall : List RelayAct :=
  exRelayUp false ++ .station (.client 0 (.register exStationEvents true)) :: (exRelayAnswer false ++ exSecondReads)

/-- A history in which the response is received before `send_msg` has returned. -/
def exRelayOvertaken : List RelayAct :=
  exRelayUp false ++ .station (.client 0 (.register exStationEvents true)) :: ((exRelayAnswer false).drop 1 ++ [.station (.client 0 (.sendDone 0))] ++ exSecondReads)

/-- There is room in the queues, the backend is open, the receive loop of the first client was not cancelled before its start. -/
def exFine (s : Relay) : Bool :=
  s.station.engines.all (fun eng => eng.putters.isEmpty) && (s.station.backend exStation).mem.isSome &&
    match s.station.clients 0 with
    | some c => match c.loop with | .never => false | _ => true
    | none => true

/-- The first process. -/
def exRelayInit : Relay := Relay.init exStation [.reopen exKeep]

theorem exRelayCall_fine : exTrace exStation exFine exRelayInit exRelayCall = true := rfl

theorem exRelayOvertaken_fine : exTrace exStation exFine exRelayInit exRelayOvertaken = true := rfl

theorem exRelayCall_rest : ∃ c eng, ExRest (exRelayInit.run exStation exRelayCall) c eng :=
  ⟨_, _, rfl, rfl, rfl, ⟨⟨_, rfl⟩, rfl, rfl, rfl, rfl, rfl⟩, ⟨_, ⟨_, rfl⟩, rfl, rfl, rfl, rfl, rfl⟩, .inr ⟨_, rfl⟩, rfl⟩

theorem exRelayOvertaken_rest : ∃ c eng, ExRest (exRelayInit.run exStation exRelayOvertaken) c eng :=
  ⟨_, _, rfl, rfl, rfl, ⟨⟨_, rfl⟩, rfl, rfl, rfl, rfl, rfl⟩, ⟨_, ⟨_, rfl⟩, rfl, rfl, rfl, rfl, rfl⟩, .inl ⟨_, rfl⟩, rfl⟩

/-- What is needed for endless schedules with such a beginning. -/
structure ExBegins (pre : List RelayAct) : Prop where
  fine : exTrace exStation exFine exRelayInit pre = true
  rest : ∃ c eng, ExRest (exRelayInit.run exStation pre) c eng
  length : 10 < pre.length
  start : ∃ persisted, pre.take 11 = (exRelayUp persisted).take 11
  calls : (exRelayInit.run exStation pre).station.host.server.nextCall ≤ 4
  targets : ((List.range 4).all fun k => ((exRelayInit.run exStation pre).station.host.server.calls k).targets.all fun t => exSends.contains (k, t.1)) = true
  lost : ((exRelayInit.run exStation pre).station.conn 0).lost = false ∧ ((exRelayInit.run exStation pre).station.conn 1).lost = false

/-- An endless schedule. -/
def exRelayActs (pre : List RelayAct) : Nat → RelayAct := exForever pre exRelayCycle exRelayCycle_ne

section
variable {pre : List RelayAct}

theorem exRelay_at (h : ExBegins pre) (n : Nat) : relayAt exStation [.reopen exKeep] (exRelayActs pre) n = exRelayInit.run exStation (pre.take n) := by
  obtain ⟨c, eng, hr⟩ := h.rest
  obtain ⟨l, h1, h2, h3⟩ := exForever_states (pre := pre) (cycle := exRelayCycle) (hc := exRelayCycle_ne) (step := Relay.step exStation) (s := exRelayInit) hr.fix n
  unfold relayAt
  rw [show (Relay.init exStation [.reopen exKeep]).run exStation (upTo (exRelayActs pre) n) = exRelayInit.run exStation l from h2, List.prefix_iff_eq_take.1 h1, h3]
  rcases Nat.le_total n pre.length with hn | hn
  · rw [Nat.min_eq_left hn]
  · rw [Nat.min_eq_right hn, List.take_of_length_le (Nat.le_refl _), List.take_of_length_le hn]

theorem exRelay_last (h : ExBegins pre) {n : Nat} (hn : pre.length ≤ n) :
    relayAt exStation [.reopen exKeep] (exRelayActs pre) n = exRelayInit.run exStation pre := by
  rw [exRelay_at h, List.take_of_length_le hn]

theorem exRelay_often {x : RelayAct} (h : x ∈ exRelayCycle) : Often (exRelayActs pre) x := exForever_often h

theorem exRelay_fine (h : ExBegins pre) (n : Nat) : exFine (relayAt exStation [.reopen exKeep] (exRelayActs pre) n) = true := by
  rw [exRelay_at h]
  exact exTrace_all h.fine n

theorem exRelay_only (h : ExBegins pre) {n e : Nat} {eng : Engine} (he : (relayAt exStation [.reopen exKeep] (exRelayActs pre) n).station.engines[e]? = some eng) :
    e = 0 := by
  obtain ⟨l, hl⟩ := relay_persists he (Nat.le_max_left n pre.length)
  rw [exRelay_last h (Nat.le_max_right n pre.length)] at hl
  obtain ⟨c, x, hr⟩ := h.rest
  rw [hr.engines] at hl
  cases e with
  | zero => rfl
  | succ e => cases hl

theorem exRelayUp_engine (p : Bool) : ∃ x, (exRelayInit.run exStation ((exRelayUp p).take 10)).station.engines[0]? = some x ∧ x.phase = .creating := by
  cases p <;> exact ⟨_, rfl, rfl⟩

theorem exRelay_process (h : ExBegins pre) : ProcessGoesOn exStation [.reopen exKeep] (exRelayActs pre) where
  engines e n eng he := by
    rw [exRelay_only h he]
    exact ⟨fun n => (exRelay_often (x := .station (.engine 0 (.take (exAt 3)))) (by simp [exRelayCycle]) n).imp fun _ hm => ⟨hm.1, _, hm.2⟩,
      exRelay_often (by simp [exRelayCycle]), exRelay_often (by simp [exRelayCycle]),
      fun n => (exRelay_often (x := .station (.engine 0 (.processed []))) (by simp [exRelayCycle]) n).imp fun _ hm => ⟨hm.1, _, hm.2⟩,
      exRelay_often (by simp [exRelayCycle]),
      fun n => (exRelay_often (x := .station (.engine 0 (.registered .same (exAt 3)))) (by simp [exRelayCycle]) n).imp fun _ hm => ⟨hm.1, _, hm.2⟩⟩
  started e n eng he := by
    rw [exRelay_only h he]
    obtain ⟨p, hstart⟩ := h.start
    have h10 : pre.take 10 = (exRelayUp p).take 10 := by
      have := congrArg (List.take 10) hstart
      rwa [List.take_take, List.take_take] at this
    obtain ⟨x, hx1, hx2⟩ := exRelayUp_engine p
    refine ⟨10, x, by rw [exRelay_at h, h10]; exact hx1, hx2, ?_⟩
    have h1 : pre[10]? = some (.station (.engine 0 .spawn)) := by
      have := congrArg (fun l => l[10]?) hstart
      simp only [List.getElem?_take_of_lt (show 10 < 11 by omega)] at this
      rw [this]
      rfl
    have h2 := h.length
    unfold exRelayActs exForever
    rw [dif_pos h2]
    rw [List.getElem?_eq_getElem h2] at h1
    exact Option.some.inj h1
  calm e session := by
    obtain ⟨c, x, hr⟩ := h.rest
    refine ⟨(madeIn x session).length, fun n eng he => ?_⟩
    have h0 := exRelay_only h he
    obtain ⟨l, hl⟩ := relay_persists he (Nat.le_max_left n pre.length)
    rw [exRelay_last h (Nat.le_max_right n pre.length), hr.engines, h0] at hl
    have : x = eng.run l := Option.some.inj hl
    rw [this]
    exact madeIn_le (module_events_run eng l) session
  room e n eng he := by
    have := exRelay_fine h n
    simp only [exFine, Bool.and_eq_true, List.all_eq_true] at this
    have := this.1.1 eng (List.mem_of_getElem? he)
    simpa using this
  open_ n := by
    have := exRelay_fine h n
    simp only [exFine, Bool.and_eq_true] at this
    exact this.1.2
  send n call x hx := by
    have hlt : call < (relayAt exStation [.reopen exKeep] (exRelayActs pre) n).station.host.server.nextCall := by
      by_contra hge
      obtain ⟨xs, hxs⟩ := Relay.station_run exStation (Relay.init exStation [.reopen exKeep]) (upTo (exRelayActs pre) n)
      obtain ⟨evs, hevs⟩ := Station.host_run exStation [.reopen exKeep] xs
      have he : (relayAt exStation [.reopen exKeep] (exRelayActs pre) n).station.host.server = (EvServer.init exStation.useC exStation.token).run evs := by
        rw [← hevs]; exact congrArg (fun s => s.host.server) hxs
      rw [he] at hx hge
      rw [(EvServer.notesOk_run _ _ evs).later call (by omega)] at hx
      cases hx
    obtain ⟨h1, h2, _⟩ := relay_call (Nat.le_max_left n pre.length) hlt
    rw [← h2] at hx
    rw [exRelay_last h (Nat.le_max_right n pre.length)] at h1 hx
    have h3 := List.all_eq_true.1 (List.all_eq_true.1 h.targets call (List.mem_range.2 (by have := h.calls; omega))) x hx
    simp only [exSends, List.contains_eq_mem, List.mem_cons, List.not_mem_nil, or_false, Prod.mk.injEq, decide_eq_true_eq] at h3
    rcases h3 with ⟨rfl, h3⟩ | ⟨rfl, h3⟩ | ⟨rfl, h3⟩ <;> rw [h3] <;> exact exRelay_often (by simp [exRelayCycle])

theorem exRelay_client (h : ExBegins pre) {a : Nat} (ha : a = 0 ∨ a = 1) : ClientGoesOn exStation [.reopen exKeep] (exRelayActs pre) a := by
  have hin : ∀ x ∈ exClientCycle a, Often (exRelayActs pre) x := by
    intro x hx
    refine exRelay_often ?_
    rcases ha with rfl | rfl
    · exact List.mem_append_left _ (List.mem_append_right _ hx)
    · exact List.mem_append_right _ hx
  refine ⟨hin _ (by simp [exClientCycle]), hin _ (by simp [exClientCycle]), fun n => ?_, hin _ (by simp [exClientCycle]), hin _ (by simp [exClientCycle]),
    fun n => (hin (.station (.client a (.callbackDone true))) (by simp [exClientCycle]) n).imp fun _ hm => ⟨hm.1, _, hm.2⟩,
    hin _ (by simp [exClientCycle]), hin _ (by simp [exClientCycle])⟩
  refine ⟨max n pre.length, Nat.le_max_left _ _, ?_⟩
  rw [exRelay_last h (Nat.le_max_right _ _)]
  obtain ⟨c, x, hr⟩ := h.rest
  rcases ha with rfl | rfl
  · exact .inl ⟨h.lost.1, fun c' hc' => by rw [hr.first.client] at hc'; cases hc'; exact hr.first.isOpen⟩
  · obtain ⟨d, hd⟩ := hr.second
    exact .inl ⟨h.lost.2, fun c' hc' => by rw [hd.client] at hc'; cases hc'; exact hd.isOpen⟩

theorem exRelay_task : TaskGoesOn (exRelayActs pre) 0 0 := ⟨exRelay_often (by simp [exRelayCycle]), exRelay_often (by simp [exRelayCycle])⟩

theorem exRelay_starts (h : ExBegins pre) : ReceiveStarts exStation [.reopen exKeep] (exRelayActs pre) 0 := by
  intro n c hc hl
  have := exRelay_fine h n
  simp [exFine, hc, hl] at this

end

theorem exRelayCall_begins : ExBegins exRelayCall := ⟨exRelayCall_fine, exRelayCall_rest, by decide, ⟨false, rfl⟩, by decide, rfl, rfl, rfl⟩

theorem exRelayOvertaken_begins : ExBegins exRelayOvertaken := ⟨exRelayOvertaken_fine, exRelayOvertaken_rest, by decide, ⟨false, rfl⟩, by decide, rfl, rfl, rfl⟩

/-- A call of the first client is not being sent. -/
def exNotSending (s : Relay) : Bool :=
  match s.station.clients 0 with
  | some c => match c.calls 0 with | .sending _ _ => false | _ => true
  | none => true

theorem exRelayCall_sending (n : Nat) (hn : n ≠ 18) : exNotSending (exRelayInit.run exStation (exRelayCall.take n)) = true := by
  have h1 : exTrace exStation exNotSending exRelayInit (exRelayCall.take 17) = true := rfl
  have h2 : exTrace exStation exNotSending (exRelayInit.run exStation (exRelayCall.take 19)) (exRelayCall.drop 19) = true := rfl
  rcases Nat.lt_or_ge n 18 with h | h
  · have := exTrace_all h1 n
    rwa [List.take_take, Nat.min_eq_left (by omega)] at this
  · obtain ⟨k, rfl⟩ := Nat.exists_eq_add_of_le (show 19 ≤ n by omega)
    have := exTrace_all h2 k
    rwa [List.take_add, Relay.run, List.foldl_append]

theorem exRelayCall_first : SentFirst exStation [.reopen exKeep] (exRelayActs exRelayCall) 0 0 := by
  intro n c conv w msg x ha hc hcall hmsg
  by_cases hn : n = 18
  · subst hn; cases ha
  · have := exRelayCall_sending n hn
    rw [← exRelay_at exRelayCall_begins] at this
    simp [exNotSending, hc, hcall] at this

/-- The hypotheses of the theorems, with the time of the registration. -/
example : ∃ c, exStation.foreign 0 = false ∧ Asks (.register exStationEvents true) ∧
    exRelayActs exRelayCall 17 = .station (.client 0 (.register exStationEvents true)) ∧
    (relayAt exStation [.reopen exKeep] (exRelayActs exRelayCall) 17).station.clients 0 = some c ∧ c.nextCall = 0 ∧
    ProcessGoesOn exStation [.reopen exKeep] (exRelayActs exRelayCall) ∧ ClientGoesOn exStation [.reopen exKeep] (exRelayActs exRelayCall) 0 ∧
    TaskGoesOn (exRelayActs exRelayCall) 0 c.nextCall ∧ ReceiveStarts exStation [.reopen exKeep] (exRelayActs exRelayCall) 0 ∧
    SentFirst exStation [.reopen exKeep] (exRelayActs exRelayCall) 0 c.nextCall :=
  ⟨_, rfl, .register _, rfl, rfl, rfl, exRelay_process exRelayCall_begins, exRelay_client exRelayCall_begins (.inl rfl), exRelay_task,
    exRelay_starts exRelayCall_begins, exRelayCall_first⟩

/-- The hypotheses of `C101_engine`: the request of the client is in the engine. -/
example : ProcessGoesOn exStation [.reopen exKeep] (exRelayActs exRelayCall) ∧
    ∃ eng, (relayAt exStation [.reopen exKeep] (exRelayActs exRelayCall) 20).station.engines[0]? = some eng ∧ eng.requests = [(⟨.eventer, 0⟩, exStationEvents)] ∧
      eng.outcomes = [] :=
  ⟨exRelay_process exRelayCall_begins, _, rfl, rfl, rfl⟩

/-- **C101 does not hold** if the response is received before `send_msg` of the request has returned: everything goes on, but the call does not end. -/
theorem C101_ends_refuted : ∃ (cf : StationConf) (past : List BackendOp) (acts : Nat → RelayAct) (a n : Nat) (r : ReqAct) (c : ReqClient),
    cf.foreign a = false ∧ Asks r ∧ acts n = .station (.client a r) ∧ (relayAt cf past acts n).station.clients a = some c ∧ ProcessGoesOn cf past acts ∧
    ClientGoesOn cf past acts a ∧ TaskGoesOn acts a c.nextCall ∧ ReceiveStarts cf past acts a ∧
    ∀ m c' e, (relayAt cf past acts m).station.clients a = some c' → c'.calls c.nextCall ≠ .finished e := by
  refine ⟨exStation, [.reopen exKeep], exRelayActs exRelayOvertaken, 0, 17, .register exStationEvents true, _, rfl, .register _, rfl, rfl,
    exRelay_process exRelayOvertaken_begins, exRelay_client exRelayOvertaken_begins (.inl rfl), exRelay_task, exRelay_starts exRelayOvertaken_begins, fun m c' e hc he => ?_⟩
  have hf : exTrace exStation (fun s => match s.station.clients 0 with
      | some c => match c.calls 0 with | .finished _ => false | _ => true
      | none => true) exRelayInit exRelayOvertaken = true := rfl
  have := exTrace_all hf m
  rw [← exRelay_at exRelayOvertaken_begins] at this
  have he' : c'.calls 0 = .finished e := he
  simp [hc, he'] at this

end HatEvent
