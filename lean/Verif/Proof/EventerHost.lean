import Verif.Spec.EventerHost
import Verif.Proof.Answers

/-! # Facts about the eventer server of the event server -/

namespace HatEvent
namespace Host
open EvServer

/-- The call at the end of a connection loop. -/
def bye (e : Option Nat) (name : String) : List (Nat × HostCall) :=
  match e with
  | some e => [(e, .disconnected name)]
  | none => []

/-- How one connection may change, and the calls made for it; `e` is the open engine. -/
inductive Move (e : Option Nat) : LoopPhase → LoopPhase → List (Nat × HostCall) → Prop
  | stay (p : LoopPhase) : Move e p p []
  | accept : Move e .absent .waiting []
  | ask (info : ConnInfo) (k : Nat) (h : e = some k) :
      Move e .waiting (.connecting info) [(k, .connected info.req.clientName)]
  | admit (info : ConnInfo) (h : e = none) : Move e .waiting (.ready info) []
  | refuse (p : LoopPhase) (h : p = .rejected ∨ p = .ended) : Move e .waiting p []
  | joined (info : ConnInfo) : Move e (.connecting info) (.ready info) []
  | failed (info : ConnInfo) (p : LoopPhase) (h : p = .rejected ∨ p = .ended) : Move e (.connecting info) p []
  | late (info : ConnInfo) : Move e (.connecting info) .ended (bye e info.req.clientName)
  | work (info : ConnInfo) (m : ClientMsg) : Move e (.ready info) (.busy info m) []
  | register (info : ConnInfo) (m : ClientMsg) (k : Nat) (evs : List RegisterEvent) :
      Move e (.ready info) (.busy info m) [(k, .register evs)]
  | done (info : ConnInfo) (m : ClientMsg) : Move e (.busy info m) (.ready info) []
  | leave (info : ConnInfo) (c : Conn) (h : Serving c info) : Move e c.phase .ended (bye e info.req.clientName)
  | gone : Move e .rejected .ended []

theorem callsOf_call (s : Host) (e i id : Nat) (c : HostCall) :
    (s.call e i c).callsOf id = s.callsOf id ++ if i = id then [(e, c)] else [] := by
  unfold callsOf call
  rw [List.filter_append, List.map_append]
  by_cases h : i = id <;> simp [h]

theorem callsOf_onDisconnected (s : Host) (i id : Nat) (info : ConnInfo) :
    (s.onDisconnected i info).callsOf id =
      s.callsOf id ++ if i = id then bye s.openEngine info.req.clientName else [] := by
  unfold onDisconnected
  cases h : s.openEngine with
  | some e => rw [callsOf_call]; rfl
  | none => simp [bye]

theorem onDisconnected_server (s : Host) (i : Nat) (info : ConnInfo) : (s.onDisconnected i info).server = s.server := by
  unfold onDisconnected; split <;> rfl

theorem settle_server (s : Host) (i : Nat) (info : ConnInfo) : (s.settle i info).server = s.server := by
  unfold settle; split
  · exact onDisconnected_server _ _ _
  · rfl

theorem settle_other (s : Host) {i id : Nat} (h : i ≠ id) (info : ConnInfo) : (s.settle i info).callsOf id = s.callsOf id := by
  unfold settle; split
  · rw [callsOf_onDisconnected, if_neg h, List.append_nil]
  · rfl

theorem settle_ended {s : Host} {i : Nat} (h : (s.server.conns i).phase = .ended) (info : ConnInfo) :
    (s.settle i info).callsOf i = s.callsOf i ++ bye s.openEngine info.req.clientName := by
  unfold settle; rw [h]; simp only
  rw [callsOf_onDisconnected, if_pos rfl]

theorem settle_open {s : Host} {i : Nat} (h : (s.server.conns i).phase ≠ .ended) (info : ConnInfo) :
    (s.settle i info).callsOf i = s.callsOf i := by
  unfold settle; split
  · next h' => exact absurd h' h
  · rfl

/-! ### Phases of the eventer server -/

theorem endLoop_phase (s : EvServer) (id : Nat) : ((s.endLoop id).conns id).phase = .ended := by
  rw [endLoop_conns, if_pos rfl]

theorem reject_phase (s : EvServer) (id : Nat) :
    ((s.reject id).conns id).phase = .rejected ∨ ((s.reject id).conns id).phase = .ended := by
  rw [reject_conns, if_pos rfl]; split
  · exact .inr rfl
  · exact .inl rfl

theorem respond_phase (s : EvServer) (id : Nat) (info : ConnInfo) (m : ServerMsg) :
    ((s.respond id info m).conns id).phase = .ready info ∨ ((s.respond id info m).conns id).phase = .ended := by
  rw [respond_conns, if_pos rfl]; split
  · exact .inr rfl
  · exact .inl rfl

theorem connected_true_phase {s : EvServer} {id : Nat} {info : ConnInfo} (h : (s.conns id).phase = .connecting info) :
    ((s.step (.connected id true)).conns id).phase = .ready info ∨ ((s.step (.connected id true)).conns id).phase = .ended := by
  simp only [EvServer.step, EvServer.connected, h, if_true]
  split
  · exact .inr (endLoop_phase s id)
  · left; rw [establish_conns, if_pos rfl]

theorem connected_false_phase {s : EvServer} {id : Nat} {info : ConnInfo} (h : (s.conns id).phase = .connecting info) :
    ((s.step (.connected id false)).conns id).phase = .rejected ∨
      ((s.step (.connected id false)).conns id).phase = .ended := by
  simp only [EvServer.step, EvServer.connected, h]
  exact reject_phase s id

theorem reply_phase {s : EvServer} {id : Nat} {info : ConnInfo} {m : ClientMsg} {r : Handled}
    (h : (s.conns id).phase = .busy info m) :
    ((s.step (.reply id r)).conns id).phase = .busy info m ∨
      ((s.step (.reply id r)).conns id).phase = .ready info ∨ ((s.step (.reply id r)).conns id).phase = .ended := by
  simp only [EvServer.step, EvServer.reply, h]
  split
  · exact .inr (.inr (endLoop_phase s id))
  · split
    · right; left; rw [setConn_conns, if_pos rfl]
    · exact .inr (respond_phase _ _ _ _)
  · exact .inr (respond_phase _ _ _ _)
  · exact .inl h

theorem receive_waiting {s : EvServer} {id : Nat} {msg : ClientMsg} (h : (s.conns id).phase = .waiting) :
    (∃ info, ((s.step (.receive id msg)).conns id).phase = .connecting info) ∨
      ((s.step (.receive id msg)).conns id).phase = .rejected ∨ ((s.step (.receive id msg)).conns id).phase = .ended := by
  simp only [EvServer.step, EvServer.receive, h]
  split
  · unfold EvServer.initConn
    split
    · exact .inr (reject_phase s id)
    · split
      · left; rw [setConn_conns, if_pos rfl]; exact ⟨_, rfl⟩
      · exact .inr (reject_phase s id)
  · exact .inr (.inr (endLoop_phase s id))

theorem receive_ready {s : EvServer} {id : Nat} {msg : ClientMsg} {info : ConnInfo} (h : (s.conns id).phase = .ready info) :
    ((s.step (.receive id msg)).conns id).phase = .ready info ∨
      ((s.step (.receive id msg)).conns id).phase = .busy info msg ∨
      ((s.step (.receive id msg)).conns id).phase = .ended := by
  simp only [EvServer.step, EvServer.receive, h, EvServer.process]
  split
  · left; rw [acknowledge_conns, if_pos rfl]; exact h
  · right; left; unfold EvServer.handle; rw [setConn_conns, if_pos rfl]
  · right; left; unfold EvServer.handle; rw [setConn_conns, if_pos rfl]
  · exact .inr (.inr (endLoop_phase s id))
  · exact .inr (.inr (endLoop_phase s id))

theorem receive_else {s : EvServer} {id : Nat} {msg : ClientMsg} (h1 : (s.conns id).phase ≠ .waiting)
    (h2 : ∀ info, (s.conns id).phase ≠ .ready info) : s.step (.receive id msg) = s := by
  simp only [EvServer.step, EvServer.receive]

/-! ### One step -/

/-- The change of a connection in a step and the calls made for it. -/
def Moves (s s' : Host) (id : Nat) : Prop :=
  ∃ new, Move s.openEngine (s.server.conns id).phase (s'.server.conns id).phase new ∧ s'.callsOf id = s.callsOf id ++ new

theorem moves_same {s s' : Host} {id : Nat} (hp : (s'.server.conns id).phase = (s.server.conns id).phase)
    (hc : s'.callsOf id = s.callsOf id) : Moves s s' id :=
  ⟨[], hp ▸ .stay _, by rw [hc, List.append_nil]⟩

theorem moves_serve {s : Host} {a : EvAct} {id : Nat} (ha : a.about ≠ some id)
    (hacc : a = .accept → id ≠ s.server.nextConn) : Moves s (s.serve a) id :=
  moves_same (phase_other (s := s.server) ha hacc) rfl

theorem moves_settle {s : Host} {a : EvAct} {i id : Nat} (info : ConnInfo) (h : i ≠ id) (ha : a.about = some i)
    (hacc : a ≠ .accept) : Moves s ((s.serve a).settle i info) id := by
  refine moves_same ?_ ?_
  · rw [settle_server]
    exact phase_other (s := s.server) (by rw [ha]; simpa using h) (fun h => absurd h hacc)
  · rw [settle_other _ h]; rfl

theorem phase_call (s : Host) (e i : Nat) (c : HostCall) : (s.call e i c).server = s.server := rfl

/-- A connection loop that is serving: an end is reported. -/
theorem moves_reply {s : Host} {id : Nat} {info : ConnInfo} {m : ClientMsg} {r : Handled}
    (h : (s.server.conns id).phase = .busy info m) : Moves s ((s.serve (.reply id r)).settle id info) id := by
  rcases reply_phase (r := r) h with hp | hp | hp
  · refine moves_same (by rw [settle_server]; exact hp.trans h.symm) ?_
    rw [settle_open (by show ((s.server.step _).conns id).phase ≠ _; rw [hp]; simp)]; rfl
  · refine ⟨[], ?_, ?_⟩
    · rw [settle_server, h]
      show Move _ _ ((s.server.step _).conns id).phase _
      rw [hp]; exact .done info m
    · rw [settle_open (by show ((s.server.step _).conns id).phase ≠ _; rw [hp]; simp), List.append_nil]; rfl
  · refine ⟨bye s.openEngine info.req.clientName, ?_, ?_⟩
    · rw [settle_server]
      show Move _ _ ((s.server.step _).conns id).phase _
      rw [hp]; exact .leave info _ (.inr ⟨m, h⟩)
    · rw [settle_ended (by exact hp)]; rfl

theorem openEngine_serve (s : Host) (a : EvAct) : (s.serve a).openEngine = s.openEngine := rfl

/-- The settling after a connected callback that was not suspended. -/
theorem connected_settled {s : Host} {id : Nat} {info : ConnInfo} (h : (s.server.conns id).phase = .connecting info) :
    ((((s.serve (.connected id true)).settle id info).server.conns id).phase = .ready info ∧
      ((s.serve (.connected id true)).settle id info).callsOf id = s.callsOf id) ∨
    ((((s.serve (.connected id true)).settle id info).server.conns id).phase = .ended ∧
      ((s.serve (.connected id true)).settle id info).callsOf id = s.callsOf id ++ bye s.openEngine info.req.clientName) := by
  rcases connected_true_phase h with hp | hp
  · left
    refine ⟨by rw [settle_server]; exact hp, ?_⟩
    rw [settle_open (by show ((s.server.step _).conns id).phase ≠ _; rw [hp]; simp)]; rfl
  · right
    exact ⟨by rw [settle_server]; exact hp, by rw [settle_ended (by exact hp)]; rfl⟩

theorem moves_receive (s : Host) (id : Nat) (msg : ClientMsg) : Moves s (s.step (.receive id msg)) id := by
  show Moves s ((s.serve (.receive id msg)).afterReceive id (s.server.conns id).phase) id
  by_cases hw : (s.server.conns id).phase = .waiting
  · rcases receive_waiting (msg := msg) hw with ⟨info, hp⟩ | hp
    · have hp' : ((s.serve (.receive id msg)).server.conns id).phase = .connecting info := hp
      have e : (s.serve (.receive id msg)).afterReceive id (s.server.conns id).phase =
          (s.serve (.receive id msg)).onConnected id info := by
        unfold afterReceive; rw [hw, hp']
      rw [e]
      unfold onConnected
      rw [openEngine_serve]
      cases he : s.openEngine with
      | some k =>
        refine ⟨[(k, .connected info.req.clientName)], ?_, ?_⟩
        · rw [phase_call, hp', hw]; exact .ask info k he
        · simp only [callsOf_call, if_true]; rfl
      | none =>
        simp only
        rcases connected_settled hp' with ⟨h1, h2⟩ | ⟨h1, h2⟩
        · exact ⟨[], by rw [h1, hw]; exact .admit info he, by rw [h2, List.append_nil]; rfl⟩
        · refine ⟨[], by rw [h1, hw]; exact .refuse _ (.inr rfl), ?_⟩
          rw [h2, openEngine_serve, he]; rfl
    · have e : (s.serve (.receive id msg)).afterReceive id (s.server.conns id).phase = s.serve (.receive id msg) := by
        unfold afterReceive
        rw [hw]
        rcases hp with hp | hp
        · have hp' : ((s.serve (.receive id msg)).server.conns id).phase = .rejected := hp
          rw [hp']
        · have hp' : ((s.serve (.receive id msg)).server.conns id).phase = .ended := hp
          rw [hp']
      rw [e]
      exact ⟨[], by rw [hw]; exact .refuse _ hp, by rw [List.append_nil]; rfl⟩
  by_cases hr : ∃ info, (s.server.conns id).phase = .ready info
  · obtain ⟨info, hr⟩ := hr
    rcases receive_ready (msg := msg) hr with hp | hp | hp
    · have hp' : ((s.serve (.receive id msg)).server.conns id).phase = .ready info := hp
      have e : (s.serve (.receive id msg)).afterReceive id (s.server.conns id).phase = s.serve (.receive id msg) := by
        unfold afterReceive; rw [hr, hp']
      rw [e]
      exact moves_same (hp'.trans hr.symm) rfl
    · have hp' : ((s.serve (.receive id msg)).server.conns id).phase = .busy info msg := hp
      by_cases hm : ∃ conv evs last, msg = .register conv evs last
      · obtain ⟨conv, evs, last, rfl⟩ := hm
        have e : (s.serve (.receive id (.register conv evs last))).afterReceive id (s.server.conns id).phase =
            (s.serve (.receive id (.register conv evs last))).onRegister id info evs := by
          unfold afterReceive; rw [hr, hp']
        rw [e]
        have hrep : ∀ r, Moves s
            (((s.serve (.receive id (.register conv evs last))).serve (.reply id r)).settle id info) id := by
          intro r
          rcases reply_phase (r := r) hp' with h | h | h
          · refine ⟨[], ?_, ?_⟩
            · rw [settle_server, hr]
              show Move _ _ (((s.serve _).server.step _).conns id).phase _
              rw [h]; exact .work info _
            · rw [settle_open (by show (((s.serve _).server.step _).conns id).phase ≠ _; rw [h]; simp), List.append_nil]; rfl
          · refine ⟨[], ?_, ?_⟩
            · rw [settle_server, hr]
              show Move _ _ (((s.serve _).server.step _).conns id).phase _
              rw [h]; exact .stay _
            · rw [settle_open (by show (((s.serve _).server.step _).conns id).phase ≠ _; rw [h]; simp), List.append_nil]; rfl
          · refine ⟨bye s.openEngine info.req.clientName, ?_, ?_⟩
            · rw [settle_server]
              show Move _ _ (((s.serve _).server.step _).conns id).phase _
              rw [h]; exact .leave info _ (.inl hr)
            · rw [settle_ended (by exact h)]; rfl
        unfold onRegister
        split
        · exact hrep _
        · next k hk =>
          split
          · exact hrep _
          · refine ⟨[(k, .register evs)], ?_, ?_⟩
            · rw [phase_call, hp', hr]; exact .register info _ k evs
            · rw [callsOf_call, if_pos rfl]; rfl
      · have e : (s.serve (.receive id msg)).afterReceive id (s.server.conns id).phase = s.serve (.receive id msg) := by
          unfold afterReceive
          rw [hr, hp']
          split
          all_goals first
            | rfl
            | (next h => simp at h)
            | (next h => simp at h; exact absurd ⟨_, _, _, h.2⟩ hm)
            | skip
          all_goals simp_all
        rw [e]
        exact ⟨[], by rw [hr, hp']; exact .work info msg, by rw [List.append_nil]; rfl⟩
    · have hp' : ((s.serve (.receive id msg)).server.conns id).phase = .ended := hp
      have e : (s.serve (.receive id msg)).afterReceive id (s.server.conns id).phase =
          (s.serve (.receive id msg)).onDisconnected id info := by
        unfold afterReceive; rw [hr, hp']
      rw [e]
      refine ⟨bye s.openEngine info.req.clientName, ?_, ?_⟩
      · rw [onDisconnected_server, hp']; exact .leave info _ (.inl hr)
      · rw [callsOf_onDisconnected, if_pos rfl]; rfl
  · have hr' : ∀ info, (s.server.conns id).phase ≠ .ready info := fun info h => hr ⟨info, h⟩
    have e : s.serve (.receive id msg) = s := by
      unfold serve; rw [receive_else hw hr']
    rw [e]
    have e' : s.afterReceive id (s.server.conns id).phase = s := by
      unfold afterReceive
      split
      · next h _ => exact absurd h hw
      · next h _ => exact absurd h (hr' _)
      · next h _ => exact absurd h (hr' _)
      · rfl
    rw [e']
    exact moves_same rfl rfl

/-- `afterReceive` of another connection. -/
theorem moves_receive_other (s : Host) {i id : Nat} (h : i ≠ id) (msg : ClientMsg) :
    Moves s (s.step (.receive i msg)) id := by
  have hs : ∀ {t : Host} {a : EvAct}, a.about = some i → a ≠ .accept →
      ((t.serve a).server.conns id).phase = (t.server.conns id).phase := by
    intro t a ha hacc
    exact phase_other (s := t.server) (by rw [ha]; simpa using h) (fun e => absurd e hacc)
  have h0 : ((s.serve (.receive i msg)).server.conns id).phase = (s.server.conns id).phase := hs rfl (by simp)
  have hset : ∀ {a : EvAct} (info : ConnInfo), a.about = some i → a ≠ .accept →
      Moves s (((s.serve (.receive i msg)).serve a).settle i info) id := by
    intro a info ha hacc
    refine moves_same ?_ ?_
    · rw [settle_server, hs ha hacc, h0]
    · rw [settle_other _ h]; rfl
  have hcall : ∀ (e : Nat) (c : HostCall), Moves s ((s.serve (.receive i msg)).call e i c) id := by
    intro e c
    refine moves_same h0 ?_
    rw [callsOf_call, if_neg h, List.append_nil]; rfl
  show Moves s ((s.serve (.receive i msg)).afterReceive i (s.server.conns i).phase) id
  unfold afterReceive
  split
  · unfold onConnected
    split
    · exact hcall _ _
    · exact hset _ rfl (by simp)
  · unfold onRegister
    split
    · exact hset _ rfl (by simp)
    · split
      · exact hset _ rfl (by simp)
      · exact hcall _ _
  · refine moves_same ?_ ?_
    · rw [onDisconnected_server, h0]
    · rw [callsOf_onDisconnected, if_neg h, List.append_nil]; rfl
  · exact moves_same h0 rfl

theorem moves_step (s : Host) (a : HostAct) (id : Nat) (hf : Fresh s.server) : Moves s (s.step a) id := by
  cases a with
  | accept =>
    by_cases hi : id = s.server.nextConn
    · subst hi
      refine ⟨[], ?_, by rw [List.append_nil]; rfl⟩
      rw [hf _ (Nat.le_refl _)]
      have e : ((s.step .accept).server.conns s.server.nextConn).phase = .waiting := by
        show ((s.server.setConn s.server.nextConn fun c => { c with phase := .waiting }).conns _).phase = _
        rw [setConn_conns, if_pos rfl]
      rw [e]; exact .accept
    · exact moves_serve (by simp [EvAct.about]) (fun _ => hi)
  | lose i => exact moves_serve (by simp [EvAct.about]) (by simp)
  | receive i msg =>
    by_cases h : i = id
    · subst h; exact moves_receive s i msg
    · exact moves_receive_other s h msg
  | giveUp i =>
    show Moves s (s.giveUp i) id
    unfold giveUp
    by_cases h : i = id
    · subst h
      split
      · next info hp =>
        by_cases hl : (s.server.conns i).lost = true
        · have he : ((s.server.step (.giveUp i)).conns i).phase = .ended := by
            simp only [EvServer.step, EvServer.giveUp, hp, hl, if_true]; exact endLoop_phase _ _
          refine ⟨bye s.openEngine info.req.clientName, ?_, ?_⟩
          · rw [settle_server]
            show Move _ _ ((s.server.step _).conns i).phase _
            rw [he]; exact .leave info _ (.inl hp)
          · rw [settle_ended (by exact he)]; rfl
        · have he : s.server.step (.giveUp i) = s.server := by
            simp only [EvServer.step, EvServer.giveUp, hp]; exact if_neg hl
          have e : s.serve (.giveUp i) = s := by unfold serve; rw [he]
          rw [e]
          exact moves_same (by rw [settle_server]) (settle_open (by rw [hp]; simp) info)
      · next hn =>
        refine ⟨[], ?_, by rw [List.append_nil]; rfl⟩
        show Move _ _ ((s.server.giveUp i).conns i).phase _
        unfold EvServer.giveUp
        split
        · next hp =>
          split
          · rw [endLoop_phase, hp]; exact .refuse _ (.inr rfl)
          · exact .stay _
        · next info hp => exact absurd hp (hn info)
        · next hp => rw [endLoop_phase, hp]; exact .gone
        · exact .stay _
    · split
      · exact moves_settle _ h rfl (by simp)
      · exact moves_serve (by simpa [EvAct.about] using h) (by simp)
  | answer i result =>
    show Moves s (s.answer i result) id
    unfold answer
    by_cases h : i = id
    · subst h
      split
      · next info hp =>
        split
        · rcases connected_settled hp with ⟨h1, h2⟩ | ⟨h1, h2⟩
          · exact ⟨[], by rw [h1, hp]; exact .joined info, by rw [h2, List.append_nil]⟩
          · exact ⟨_, by rw [h1, hp]; exact .late info, h2⟩
        · exact ⟨[], by rw [hp]; exact .failed info _ (connected_false_phase hp), by rw [List.append_nil]; rfl⟩
      · next info _ _ _ hp => exact moves_reply hp
      · exact moves_same rfl rfl
    · split
      · split
        · exact moves_settle _ h rfl (by simp)
        · exact moves_serve (by simpa [EvAct.about] using h) (by simp)
      · exact moves_settle _ h rfl (by simp)
      · exact moves_same rfl rfl
  | queried i result =>
    show Moves s (s.queried i result) id
    unfold queried
    by_cases h : i = id
    · subst h
      split
      · next info _ _ hp => split <;> exact moves_reply hp
      · exact moves_same rfl rfl
    · split
      · split <;> exact moves_settle _ h rfl (by simp)
      · exact moves_same rfl rfl
  | setStatus st e =>
    show Moves s (s.setStatus st e) id
    unfold setStatus
    split
    · exact moves_same (phase_other (s := s.server) (by simp [EvAct.about]) (by simp)) rfl
    · exact moves_same rfl rfl
  | closeEngine e => exact moves_same rfl rfl
  | statusStep task => exact moves_serve (by simp [EvAct.about]) (by simp)
  | notify es p w => exact moves_serve (by simp [EvAct.about]) (by simp)
  | send k i => exact moves_serve (by simp [EvAct.about]) (by simp)
  | await_ k i => exact moves_serve (by simp [EvAct.about]) (by simp)

/-! ### Histories -/

theorem run_snoc (s : Host) (acts : List HostAct) (a : HostAct) : s.run (acts ++ [a]) = (s.run acts).step a := by
  simp [run]

theorem run_append (s : Host) (xs ys : List HostAct) : s.run (xs ++ ys) = (s.run xs).run ys := by simp [run]

/-- An action of the eventer server that cannot leave a request without response. -/
def Good : EvAct → Prop
  | .lose _ => False
  | .reply _ .raised => False
  | _ => True

/-- The eventer server has made steps of its own, good ones if `q`. -/
def Reach (q : Prop) (s s' : Host) : Prop := ∃ acts, s'.server = s.server.run acts ∧ (q → ∀ a ∈ acts, Good a)

theorem Reach.refl (q : Prop) (s : Host) : Reach q s s := ⟨[], rfl, by simp⟩

theorem Reach.of_eq {q : Prop} {s s' t : Host} (h : Reach q s s') (e : t.server = s'.server) : Reach q s t := by
  obtain ⟨acts, h, hg⟩ := h; exact ⟨acts, e.trans h, hg⟩

theorem Reach.serve {q : Prop} {s s' : Host} (h : Reach q s s') (a : EvAct) (ha : q → Good a) : Reach q s (s'.serve a) := by
  obtain ⟨acts, h, hg⟩ := h
  refine ⟨acts ++ [a], ?_, ?_⟩
  · rw [EvServer.run_snoc, ← h]; rfl
  · intro hq x hx
    rcases List.mem_append.mp hx with hx | hx
    · exact hg hq x hx
    · rw [List.mem_singleton.mp hx]; exact ha hq

theorem Reach.settle {q : Prop} {s s' : Host} (h : Reach q s s') (i : Nat) (info : ConnInfo) : Reach q s (s'.settle i info) :=
  h.of_eq (settle_server _ _ _)

theorem reach_step (s : Host) (a : HostAct) : Reach (a.calm ∧ a.succeeds) s (s.step a) := by
  cases a with
  | receive i msg =>
    show Reach _ s ((s.serve (.receive i msg)).afterReceive i (s.server.conns i).phase)
    have r' := (Reach.refl ((HostAct.receive i msg).calm ∧ (HostAct.receive i msg).succeeds) s).serve (.receive i msg)
      (fun _ => trivial)
    unfold afterReceive
    split
    · unfold onConnected; split
      · exact r'.of_eq rfl
      · exact Reach.settle (r'.serve _ fun _ => by trivial) _ _
    · unfold onRegister; split
      · exact Reach.settle (r'.serve _ fun _ => by trivial) _ _
      · split
        · exact Reach.settle (r'.serve _ fun _ => by trivial) _ _
        · exact r'.of_eq rfl
    · exact r'.of_eq (onDisconnected_server _ _ _)
    · exact r'
  | giveUp i =>
    show Reach _ s (s.giveUp i)
    unfold giveUp; split
    · exact Reach.settle ((Reach.refl _ s).serve _ fun _ => by trivial) _ _
    · exact (Reach.refl _ s).serve _ fun _ => trivial
  | answer i result =>
    show Reach _ s (s.answer i result)
    unfold answer; split
    · split
      · exact Reach.settle ((Reach.refl _ s).serve _ fun _ => by trivial) _ _
      · exact (Reach.refl _ s).serve _ fun _ => trivial
    · refine ((Reach.refl _ s).serve _ fun hq => ?_).settle _ _
      cases result with
      | registered r => trivial
      | raised => exact hq.2.elim
    · exact Reach.refl _ s
  | queried i result =>
    show Reach _ s (s.queried i result)
    unfold queried; split
    · split
      · exact Reach.settle ((Reach.refl _ s).serve _ fun _ => by trivial) _ _
      · exact ((Reach.refl _ s).serve _ fun hq => hq.2.elim).settle _ _
    · exact Reach.refl _ s
  | setStatus st e =>
    show Reach _ s (s.setStatus st e)
    unfold setStatus; split
    · exact ((Reach.refl _ s).serve (.setStatus st) fun _ => trivial).of_eq rfl
    · exact Reach.refl _ s
  | closeEngine e => exact (Reach.refl _ s).of_eq rfl
  | accept => exact (Reach.refl _ s).serve _ fun _ => trivial
  | lose i => exact (Reach.refl _ s).serve _ fun hq => hq.1.elim
  | statusStep task => exact (Reach.refl _ s).serve _ fun _ => trivial
  | notify es p w => exact (Reach.refl _ s).serve _ fun _ => trivial
  | send k i => exact (Reach.refl _ s).serve _ fun _ => trivial
  | await_ k i => exact (Reach.refl _ s).serve _ fun _ => trivial

theorem server_run_good (useC : Bool) (token : Option String) (acts : List HostAct) :
    ∃ sacts, ((init useC token).run acts).server = (EvServer.init useC token).run sacts ∧
      ((∀ a ∈ acts, a.calm ∧ a.succeeds) → ∀ a ∈ sacts, Good a) := by
  induction acts using List.reverseRecOn with
  | nil => exact ⟨[], rfl, by simp⟩
  | append_singleton acts a ih =>
    obtain ⟨sacts, ih, hg⟩ := ih
    obtain ⟨more, h, hm⟩ := reach_step ((init useC token).run acts) a
    refine ⟨sacts ++ more, ?_, ?_⟩
    · rw [run_snoc, h, ih]
      simp [EvServer.run]
    · intro hq x hx
      rcases List.mem_append.mp hx with hx | hx
      · exact hg (fun y hy => hq y (List.mem_append_left _ hy)) x hx
      · exact hm (hq a (by simp)) x hx

theorem server_run (useC : Bool) (token : Option String) (acts : List HostAct) :
    ∃ sacts, ((init useC token).run acts).server = (EvServer.init useC token).run sacts := by
  obtain ⟨sacts, h, _⟩ := server_run_good useC token acts
  exact ⟨sacts, h⟩

theorem fresh_host (useC : Bool) (token : Option String) (acts : List HostAct) :
    Fresh ((init useC token).run acts).server := by
  obtain ⟨sacts, h⟩ := server_run useC token acts
  rw [h]; exact fresh_run useC token sacts

/-! ### The order of calls -/

/-- Before the end of a connection loop. -/
def Open (name : String) (calls : List HostCall) : Prop :=
  ∃ pre mid, calls = pre ++ mid ∧ (pre = [] ∨ pre = [.connected name]) ∧ ∀ c ∈ mid, ∃ evs, c = .register evs

/-- The calls for a connection in a phase. -/
def ShapeOk : LoopPhase → List HostCall → Prop
  | .absent, calls => calls = []
  | .waiting, calls => calls = []
  | .connecting info, calls => calls = [.connected info.req.clientName]
  | .rejected, calls => ∃ name, calls = [] ∨ calls = [.connected name]
  | .ready info, calls => Open info.req.clientName calls
  | .busy info _, calls => Open info.req.clientName calls
  | .ended, calls => ∃ name, Orderly name calls

theorem Open.orderly {name : String} {calls : List HostCall} (h : Open name calls) : Orderly name calls := by
  obtain ⟨pre, mid, rfl, h1, h2⟩ := h
  exact ⟨pre, mid, [], by simp, h1, h2, .inl rfl⟩

theorem Open.bye {name : String} {calls : List HostCall} (h : Open name calls) (e : Option Nat) :
    Orderly name (calls ++ (bye e name).map Prod.snd) := by
  obtain ⟨pre, mid, rfl, h1, h2⟩ := h
  refine ⟨pre, mid, _, rfl, h1, h2, ?_⟩
  cases e with
  | some e => exact .inr rfl
  | none => exact .inl rfl

theorem Open.register {name : String} {calls : List HostCall} (h : Open name calls) (evs : List RegisterEvent) :
    Open name (calls ++ [.register evs]) := by
  obtain ⟨pre, mid, rfl, h1, h2⟩ := h
  refine ⟨pre, mid ++ [.register evs], by simp, h1, ?_⟩
  intro c hc
  rcases List.mem_append.mp hc with hc | hc
  · exact h2 c hc
  · exact ⟨evs, List.mem_singleton.mp hc⟩

theorem open_nil (name : String) : Open name [] := ⟨[], [], rfl, .inl rfl, by simp⟩

theorem open_connected (name : String) : Open name [.connected name] := ⟨[.connected name], [], rfl, .inr rfl, by simp⟩

theorem shape_away {p : LoopPhase} {calls : List HostCall} (hp : p = .rejected ∨ p = .ended)
    (h : calls = [] ∨ ∃ name, calls = [.connected name]) : ShapeOk p calls := by
  rcases hp with rfl | rfl
  · rcases h with h | ⟨name, h⟩
    · exact ⟨"", .inl h⟩
    · exact ⟨name, .inr h⟩
  · rcases h with h | ⟨name, h⟩
    · exact ⟨"", h ▸ (open_nil "").orderly⟩
    · exact ⟨name, h ▸ (open_connected name).orderly⟩

theorem shape_move {e : Option Nat} {p p' : LoopPhase} {new : List (Nat × HostCall)} {calls : List HostCall}
    (m : Move e p p' new) (h : ShapeOk p calls) : ShapeOk p' (calls ++ new.map Prod.snd) := by
  cases m with
  | stay => simpa using h
  | accept => simpa [ShapeOk] using h
  | ask info k _ =>
    have h : calls = [] := h
    subst h; rfl
  | admit info _ =>
    have h : calls = [] := h
    subst h; exact open_nil _
  | refuse p' hp =>
    have h : calls = [] := h
    subst h; exact shape_away hp (.inl rfl)
  | joined info =>
    have h : calls = [.connected info.req.clientName] := h
    subst h; exact open_connected _
  | failed info p' hp =>
    have h : calls = [.connected info.req.clientName] := h
    subst h; exact shape_away hp (.inr ⟨_, rfl⟩)
  | late info =>
    have h : calls = [.connected info.req.clientName] := h
    subst h; exact ⟨_, (open_connected _).bye e⟩
  | work info m => simpa [ShapeOk] using h
  | register info m k evs => exact Open.register (name := info.req.clientName) h evs
  | done info m => simpa [ShapeOk] using h
  | leave info c hs =>
    have h' : Open info.req.clientName calls := by
      rcases hs with hs | ⟨m, hs⟩ <;> (rw [hs] at h; exact h)
    exact ⟨_, h'.bye e⟩
  | gone =>
    obtain ⟨name, h⟩ := h
    rw [List.map_nil, List.append_nil]
    rcases h with rfl | rfl
    · exact ⟨name, (open_nil _).orderly⟩
    · exact ⟨name, (open_connected _).orderly⟩

theorem shape_run (useC : Bool) (token : Option String) (acts : List HostAct) (id : Nat) :
    ShapeOk (((init useC token).run acts).server.conns id).phase
      ((((init useC token).run acts).callsOf id).map Prod.snd) := by
  induction acts using List.reverseRecOn with
  | nil => rfl
  | append_singleton acts a ih =>
    rw [run_snoc]
    obtain ⟨new, m, hc⟩ := moves_step _ a id (fresh_host useC token acts)
    rw [hc, List.map_append]
    exact shape_move m ih

/-! ### An engine that stays -/

theorem uses_step {s : Host} {a : HostAct} {e : Nat} (h : s.Uses e) (ha : a.keeps e) : (s.step a).Uses e := by
  have hs : ∀ {t : Host}, t.engine = s.engine → t.closed = s.closed → t.Uses e := by
    intro t h1 h2; unfold Uses; rw [h1, h2]; exact h
  have hset : ∀ {t : Host} {i : Nat} {info : ConnInfo}, t.engine = s.engine → t.closed = s.closed →
      (t.settle i info).Uses e := by
    intro t i info h1 h2
    unfold settle; split
    · unfold onDisconnected; split
      · exact hs h1 h2
      · exact hs h1 h2
    · exact hs h1 h2
  cases a with
  | receive i msg =>
    show ((s.serve (.receive i msg)).afterReceive i (s.server.conns i).phase).Uses e
    unfold afterReceive
    split
    · unfold onConnected; split
      · exact hs rfl rfl
      · exact hset rfl rfl
    · unfold onRegister; split
      · exact hset rfl rfl
      · split
        · exact hset rfl rfl
        · exact hs rfl rfl
    · unfold onDisconnected; split <;> exact hs rfl rfl
    · exact hs rfl rfl
  | giveUp i =>
    show (s.giveUp i).Uses e
    unfold giveUp; split
    · exact hset rfl rfl
    · exact hs rfl rfl
  | answer i result =>
    show (s.answer i result).Uses e
    unfold answer; split
    · split
      · exact hset rfl rfl
      · exact hs rfl rfl
    · exact hset rfl rfl
    · exact h
  | queried i result =>
    show (s.queried i result).Uses e
    unfold queried; split
    · split <;> exact hset rfl rfl
    · exact h
  | setStatus st e' =>
    show (s.setStatus st e').Uses e
    unfold setStatus; split
    · exact ⟨ha, h.2⟩
    · exact h
  | closeEngine e' =>
    refine ⟨h.1, ?_⟩
    show (if e = e' then true else s.closed e) = false
    rw [if_neg (fun he => ha he.symm)]; exact h.2
  | accept => exact hs rfl rfl
  | lose i => exact hs rfl rfl
  | statusStep task => exact hs rfl rfl
  | notify es p w => exact hs rfl rfl
  | send k i => exact hs rfl rfl
  | await_ k i => exact hs rfl rfl

theorem Uses.openEngine {s : Host} {e : Nat} (h : s.Uses e) : s.openEngine = some e := by
  unfold Host.openEngine; rw [h.1]; simp [h.2]

/-- With an open engine: a known client was reported. -/
def Told (e : Nat) : LoopPhase → List (Nat × HostCall) → Prop
  | .connecting info, calls => (e, .connected info.req.clientName) ∈ calls
  | .ready info, calls => (e, .connected info.req.clientName) ∈ calls
  | .busy info _, calls => (e, .connected info.req.clientName) ∈ calls
  | _, _ => True

theorem told_move {e : Nat} {p p' : LoopPhase} {new calls : List (Nat × HostCall)} (m : Move (some e) p p' new)
    (h : Told e p calls) : Told e p' (calls ++ new) := by
  cases m with
  | stay => cases p <;> simp_all [Told]
  | accept => trivial
  | ask info k hk => cases hk; simp [Told]
  | admit info hk => cases hk
  | refuse p' hp => rcases hp with rfl | rfl <;> trivial
  | joined info => simpa [Told] using h
  | failed info p' hp => rcases hp with rfl | rfl <;> trivial
  | late info => trivial
  | work info m => simpa [Told] using h
  | register info m k evs => exact List.mem_append_left _ h
  | done info m => simpa [Told] using h
  | leave info c hs => trivial
  | gone => trivial

/-- With an open engine: a client is known and reported, or it has left and both are reported. -/
def Both (e : Nat) (info : ConnInfo) : LoopPhase → List (Nat × HostCall) → Prop
  | .ready i, calls => i = info ∧ (e, .connected info.req.clientName) ∈ calls
  | .busy i _, calls => i = info ∧ (e, .connected info.req.clientName) ∈ calls
  | .ended, calls => (e, .connected info.req.clientName) ∈ calls ∧ (e, .disconnected info.req.clientName) ∈ calls
  | _, _ => False

theorem both_move {e : Nat} {info : ConnInfo} {p p' : LoopPhase} {new calls : List (Nat × HostCall)}
    (m : Move (some e) p p' new) (h : Both e info p calls) : Both e info p' (calls ++ new) := by
  cases m with
  | stay => cases p <;> simp_all [Both]
  | accept => exact h.elim
  | ask _ _ _ => exact h.elim
  | admit _ _ => exact h.elim
  | refuse _ _ => exact h.elim
  | joined _ => exact h.elim
  | failed _ _ _ => exact h.elim
  | late _ => exact h.elim
  | work i m => simpa [Both] using h
  | register i m k evs => exact ⟨h.1, List.mem_append_left _ h.2⟩
  | done i m => simpa [Both] using h
  | leave i c hs =>
    have h' : i = info ∧ (e, .connected info.req.clientName) ∈ calls := by
      rcases hs with hs | ⟨m, hs⟩ <;> (rw [hs] at h; exact h)
    obtain ⟨rfl, h'⟩ := h'
    exact ⟨List.mem_append_left _ h', List.mem_append_right _ (by simp [bye])⟩
  | gone => exact h.elim

theorem told_run {useC : Bool} {token : Option String} {acts more : List HostAct} {id e : Nat}
    (hu : ((init useC token).run acts).Uses e) (hk : ∀ a ∈ more, a.keeps e)
    (h : Told e (((init useC token).run acts).server.conns id).phase (((init useC token).run acts).callsOf id)) :
    ((init useC token).run (acts ++ more)).Uses e ∧
      Told e (((init useC token).run (acts ++ more)).server.conns id).phase
        (((init useC token).run (acts ++ more)).callsOf id) := by
  induction more using List.reverseRecOn with
  | nil => rw [List.append_nil]; exact ⟨hu, h⟩
  | append_singleton more a ih =>
    obtain ⟨hu', h'⟩ := ih (fun x hx => hk x (List.mem_append_left _ hx))
    rw [← List.append_assoc, run_snoc]
    refine ⟨uses_step hu' (hk a (by simp)), ?_⟩
    obtain ⟨new, m, hc⟩ := moves_step _ a id (fresh_host useC token (acts ++ more))
    rw [hc]
    exact told_move (hu'.openEngine ▸ m) h'

theorem both_run {useC : Bool} {token : Option String} {acts more : List HostAct} {id e : Nat} {info : ConnInfo}
    (hu : ((init useC token).run acts).Uses e) (hk : ∀ a ∈ more, a.keeps e)
    (h : Both e info (((init useC token).run acts).server.conns id).phase (((init useC token).run acts).callsOf id)) :
    ((init useC token).run (acts ++ more)).Uses e ∧
      Both e info (((init useC token).run (acts ++ more)).server.conns id).phase
        (((init useC token).run (acts ++ more)).callsOf id) := by
  induction more using List.reverseRecOn with
  | nil => rw [List.append_nil]; exact ⟨hu, h⟩
  | append_singleton more a ih =>
    obtain ⟨hu', h'⟩ := ih (fun x hx => hk x (List.mem_append_left _ hx))
    rw [← List.append_assoc, run_snoc]
    refine ⟨uses_step hu' (hk a (by simp)), ?_⟩
    obtain ⟨new, m, hc⟩ := moves_step _ a id (fresh_host useC token (acts ++ more))
    rw [hc]
    exact both_move (hu'.openEngine ▸ m) h'

/-! ### Responses -/

/-- Nothing was lost before the loop has ended, and then all requests are answered. -/
structure Full (c : Conn) : Prop where
  live : c.phase ≠ .ended → c.lost = false
  gone : c.phase = .ended → (Spec.answersOf c.sent).map Prod.fst = c.handled.filterMap Spec.asksFor

theorem full_endLoop {s : EvServer} {i : Nat} (h : AnsOk (s.conns i)) (hb : ∀ info m, (s.conns i).phase ≠ .busy info m)
    (he : (s.conns i).phase ≠ .ended) : Full ((s.endLoop i).conns i) := by
  rw [endLoop_conns, if_pos rfl]
  refine ⟨fun h => absurd rfl h, fun _ => ?_⟩
  unfold AnsOk at h
  split at h
  · next hp => exact absurd hp (hb _ _)
  · next hp => exact absurd hp he
  · exact h

theorem full_reject {s : EvServer} {i : Nat} (hl : (s.conns i).lost = false) : Full ((s.reject i).conns i) := by
  rw [reject_conns, if_pos rfl, if_neg (by rw [hl]; simp)]
  exact ⟨fun _ => hl, fun h => by simp at h⟩

theorem full_respond {s : EvServer} {i : Nat} {info : ConnInfo} {m : ServerMsg} (hl : (s.conns i).lost = false) :
    Full ((s.respond i info m).conns i) := by
  rw [respond_conns, if_pos rfl, if_neg (by rw [hl]; simp)]
  exact ⟨fun _ => hl, fun h => by simp at h⟩

theorem full_step {s : EvServer} {a : EvAct} {i : Nat} (hg : Good a) (h : Full (s.conns i)) (hans : AnsOk (s.conns i))
    (hf : Fresh s) : Full ((s.step a).conns i) := by
  by_cases ha : a.about = some i
  · cases a with
    | receive j msg =>
      simp only [EvAct.about, Option.some.injEq] at ha
      subst ha
      simp only [EvServer.step, EvServer.receive]
      split
      · next hp =>
        have hl := h.live (by rw [hp]; simp)
        have hend : Full ((s.endLoop j).conns j) := full_endLoop hans (by rw [hp]; simp) (by rw [hp]; simp)
        split
        · unfold EvServer.initConn
          split
          · exact full_reject hl
          · split
            · rw [setConn_conns, if_pos rfl]
              exact ⟨fun _ => hl, fun h => by simp at h⟩
            · exact full_reject hl
        · exact hend
      · next info hp =>
        have hl := h.live (by rw [hp]; simp)
        have hend : Full ((s.endLoop j).conns j) := full_endLoop hans (by rw [hp]; simp) (by rw [hp]; simp)
        have hh : Full ((s.handle j info msg).conns j) := by
          unfold EvServer.handle
          rw [setConn_conns, if_pos rfl]
          exact ⟨fun _ => hl, fun h => by simp at h⟩
        unfold EvServer.process
        split
        · rw [acknowledge_conns, if_pos rfl]
          exact ⟨h.live, h.gone⟩
        · exact hh
        · exact hh
        · exact hend
        · exact hend
      · exact h
    | connected j ok =>
      simp only [EvAct.about, Option.some.injEq] at ha
      subst ha
      simp only [EvServer.step, EvServer.connected]
      split
      · next info hp =>
        have hl := h.live (by rw [hp]; simp)
        split
        · rw [if_neg (by rw [hl]; simp), establish_conns, if_pos rfl]
          exact ⟨fun _ => hl, fun h => by simp at h⟩
        · exact full_reject hl
      · exact h
    | reply j result =>
      simp only [EvAct.about, Option.some.injEq] at ha
      subst ha
      simp only [EvServer.step, EvServer.reply]
      split
      · next info msg hp =>
        have hl := h.live (by rw [hp]; simp)
        split
        · exact hg.elim
        · split
          · rw [setConn_conns, if_pos rfl]
            exact ⟨fun _ => hl, fun h => by simp at h⟩
          · exact full_respond hl
        · exact full_respond hl
        · exact h
      · exact h
    | giveUp j =>
      simp only [EvAct.about, Option.some.injEq] at ha
      subst ha
      simp only [EvServer.step, EvServer.giveUp]
      split
      · next hp => rw [if_neg (by rw [h.live (by rw [hp]; simp)]; simp)]; exact h
      · next hp => rw [if_neg (by rw [h.live (by rw [hp]; simp)]; simp)]; exact h
      · next hp => exact full_endLoop hans (by rw [hp]; simp) (by rw [hp]; simp)
      · exact h
    | _ => simp [EvAct.about] at ha
  · have hl : ((s.step a).conns i).lost = (s.conns i).lost :=
      lost_other ha (fun e => by rw [e] at hg; exact hg)
    by_cases hacc : a = .accept ∧ i = s.nextConn
    · obtain ⟨rfl, rfl⟩ := hacc
      refine ⟨fun _ => ?_, fun hp => ?_⟩
      · rw [hl]; exact h.live (by rw [hf _ (Nat.le_refl _)]; simp)
      · have e : ((s.step .accept).conns s.nextConn).phase = .waiting := by
          show ((s.setConn s.nextConn fun c => { c with phase := .waiting }).conns _).phase = _
          rw [setConn_conns, if_pos rfl]
        rw [e] at hp; cases hp
    · have hp : ((s.step a).conns i).phase = (s.conns i).phase := phase_other ha (fun e hi => hacc ⟨e, hi⟩)
      refine ⟨fun h' => by rw [hl]; exact h.live (by rwa [← hp]), fun h' => ?_⟩
      have hc := change_step s a i
      generalize (s.step a).conns i = c at hc
      cases hc with
      | same _ _ h1 h2 => rw [h1, h2]; exact h.gone (by rwa [← hp])
      | handle msg _ _ _ _ => simp [EvAct.about] at ha
      | answer r _ _ _ _ _ _ _ _ _ _ _ => simp [EvAct.about] at ha

theorem full_run (useC : Bool) (token : Option String) (acts : List EvAct) (hg : ∀ a ∈ acts, Good a) (i : Nat) :
    Full (((EvServer.init useC token).run acts).conns i) := by
  induction acts using List.reverseRecOn with
  | nil => exact ⟨fun _ => rfl, fun h => by simp [EvServer.run, EvServer.init] at h⟩
  | append_singleton acts a ih =>
    rw [EvServer.run_snoc]
    exact full_step (hg a (by simp)) (ih fun x hx => hg x (List.mem_append_left _ hx)) (ansOk_run useC token acts i)
      (fresh_run useC token acts)

theorem answered_of {s : Host} {id : Nat}
    (h : (Spec.answersOf (s.server.conns id).sent).map Prod.fst = (s.server.conns id).handled.filterMap Spec.asksFor) :
    s.Answered id := by
  intro conv evs hm _
  rw [h]
  exact List.mem_filterMap.mpr ⟨_, hm, rfl⟩

theorem answered_ansOk {s : Host} {id : Nat} (h : AnsOk (s.server.conns id)) (he : (s.server.conns id).phase ≠ .ended) :
    s.Answered id := by
  unfold AnsOk at h
  split at h
  · next hp => intro _ _ _ hb; exact absurd hp (hb _ _)
  · next hp => exact absurd hp he
  · exact answered_of h

/-! ### Status and engine -/

/-- Neither the engine nor the status has changed. -/
def Kept (s t : Host) : Prop := t.engine = s.engine ∧ t.server.status = s.server.status

theorem Kept.serve {s t : Host} (h : Kept s t) (a : EvAct) (ha : ∀ st, a ≠ .setStatus st) : Kept s (t.serve a) := by
  refine ⟨h.1, ?_⟩
  show (t.server.step a).status = _
  rw [status_step]
  cases a <;> first | exact h.2 | exact absurd rfl (ha _)

theorem Kept.settle {s t : Host} (h : Kept s t) (i : Nat) (info : ConnInfo) : Kept s (t.settle i info) := by
  unfold Host.settle; split
  · unfold onDisconnected; split <;> exact h
  · exact h

theorem kept_step (s : Host) (a : HostAct) (ha : ∀ st e, a ≠ .setStatus st e) : Kept s (s.step a) := by
  have r : Kept s s := ⟨rfl, rfl⟩
  cases a with
  | receive i msg =>
    show Kept s ((s.serve (.receive i msg)).afterReceive i (s.server.conns i).phase)
    have r' := r.serve (.receive i msg) (by simp)
    unfold afterReceive
    split
    · unfold onConnected; split
      · exact r'
      · exact Kept.settle (r'.serve _ (by simp)) _ _
    · unfold onRegister; split
      · exact Kept.settle (r'.serve _ (by simp)) _ _
      · split
        · exact Kept.settle (r'.serve _ (by simp)) _ _
        · exact r'
    · unfold onDisconnected; split <;> exact r'
    · exact r'
  | giveUp i =>
    show Kept s (s.giveUp i)
    unfold giveUp; split
    · exact Kept.settle (r.serve _ (by simp)) _ _
    · exact r.serve _ (by simp)
  | answer i result =>
    show Kept s (s.answer i result)
    unfold answer; split
    · split
      · exact Kept.settle (r.serve _ (by simp)) _ _
      · exact r.serve _ (by simp)
    · exact Kept.settle (r.serve _ (by simp)) _ _
    · exact r
  | queried i result =>
    show Kept s (s.queried i result)
    unfold queried; split
    · split <;> exact Kept.settle (r.serve _ (by simp)) _ _
    · exact r
  | setStatus st e => exact absurd rfl (ha st e)
  | closeEngine e => exact r
  | accept => exact r.serve _ (by simp)
  | lose i => exact r.serve _ (by simp)
  | statusStep task => exact r.serve _ (by simp)
  | notify es p w => exact r.serve _ (by simp)
  | send k i => exact r.serve _ (by simp)
  | await_ k i => exact r.serve _ (by simp)

theorem engine_run (useC : Bool) (token : Option String) (acts : List HostAct) :
    ((init useC token).run acts).engine.isSome = true ↔ ((init useC token).run acts).server.status = .operational := by
  induction acts using List.reverseRecOn with
  | nil => simp [run, init, EvServer.init]
  | append_singleton acts a ih =>
    rw [run_snoc]
    by_cases ha : ∃ st e, a = .setStatus st e
    · obtain ⟨st, e, rfl⟩ := ha
      show ((run _ acts).setStatus st e).engine.isSome = true ↔ ((run _ acts).setStatus st e).server.status = _
      unfold setStatus
      split
      · next hfit =>
        have e1 : ((((init useC token).run acts).server).step (.setStatus st)).status = st := by
          simp only [EvServer.step, EvServer.setStatus]
          split
          · next h => exact h
          · rfl
        simp only
        rw [e1]
        cases st <;> cases e <;> simp [fits] at hfit ⊢
      · exact ih
    · have hk := kept_step ((init useC token).run acts) a (fun st e h => ha ⟨st, e, h⟩)
      rw [hk.1, hk.2]; exact ih

end Host
end HatEvent
