import Verif.Proof.WireAlive

/-! # Deliveries of notifications, step by step -/

namespace HatEvent
open Spec EvServer
namespace EvServer

/-- What may happen to a delivery. -/
inductive Goes (s : EvServer) (a : EvAct) (call id : Nat) : Delivery → Prop
  | stay : Goes s a call id ((s.calls call).state id)
  | sent (es : List Event) (ha : a = .send call id) (h : (s.calls call).state id = .unsent) (hl : (s.conns id).lost = false)
      (hs : ((s.step a).conns id).sent = (s.conns id).sent ++ [.events call s.nextConv es]) : Goes s a call id (.sent s.nextConv)
  | waits (conv : Nat) (ha : a = .await_ call id) (h : (s.calls call).state id = .sent conv) : Goes s a call id (.waiting conv)
  | done : Goes s a call id .done

theorem goes_step (s : EvServer) (a : EvAct) {call id : Nat} (hk : call < s.nextCall) :
    Goes s a call id (((s.step a).calls call).state id) := by
  have hend : ∀ i, Goes s a call id (((s.endLoop i).calls call).state id) := by
    intro i
    show Goes s a call id (failDelivery ((s.calls call).state id))
    unfold failDelivery
    split
    · exact .done
    · exact .stay
  have hrej : ∀ i, Goes s a call id (((s.reject i).calls call).state id) := by
    intro i
    unfold reject
    split
    · exact hend i
    · exact .stay
  have hresp : ∀ i info m, Goes s a call id (((s.respond i info m).calls call).state id) := by
    intro i info m
    unfold respond
    split
    · exact hend i
    · exact .stay
  cases a with
  | accept => exact .stay
  | lose i => exact .stay
  | receive i msg =>
    simp only [step, receive]
    split
    · split
      · unfold initConn
        split
        · exact hrej i
        · split
          · exact .stay
          · exact hrej i
      · exact hend i
    · unfold process
      split
      · next conv =>
        show Goes s _ call id (if id = i ∧ (s.calls call).state id = .waiting conv then .done else (s.calls call).state id)
        split
        · exact .done
        · exact .stay
      · exact .stay
      · exact .stay
      · exact hend i
      · exact hend i
    · exact .stay
  | connected i ok =>
    simp only [step, connected]
    split
    · split
      · split
        · exact hend i
        · exact .stay
      · exact hrej i
    · exact .stay
  | reply i r =>
    simp only [step, reply]
    split
    · split
      · exact hend i
      · split
        · exact .stay
        · exact hresp _ _ _
      · exact hresp _ _ _
      · exact .stay
    · exact .stay
  | giveUp i =>
    simp only [step, giveUp]
    split
    · split
      · exact hend i
      · exact .stay
    · split
      · exact hend i
      · exact .stay
    · exact hend i
    · exact .stay
  | setStatus st =>
    simp only [step, setStatus]
    split <;> exact .stay
  | statusStep task =>
    simp only [step, statusStep]
    split
    · exact .stay
    · split <;> exact .stay
  | notify events persisted withAck =>
    simp only [step, notify]
    rw [if_neg (by omega)]
    exact .stay
  | send k i =>
    have hst : ((s.step (.send k i)).conns i).sent = ((s.send k i).conns i).sent := rfl
    revert hst
    simp only [step, send]
    split
    · next t hf hu =>
      split
      · split
        · intro _
          by_cases hki : call = k ∧ id = i
          · obtain ⟨rfl, rfl⟩ := hki
            simp only [setDelivery, if_true]
            exact .done
          · simp only [setDelivery]
            split
            · next hk' =>
              subst hk'
              simp only
              rw [if_neg (fun h => hki ⟨rfl, h⟩)]
              exact .stay
            · exact .stay
        · next hturn hlost =>
          intro _
          by_cases hki : call = k ∧ id = i
          · obtain ⟨rfl, rfl⟩ := hki
            simp only [setDelivery, if_true]
            split
            · refine .sent t.2 rfl hu (by simpa using hlost) ?_
              simp only [step, send, hf, hu, hturn, if_true, hlost]
              show ((s.post id _).conns id).sent = _
              rw [post_sent, if_pos rfl]
            · exact .done
          · simp only [setDelivery]
            split
            · next hk' =>
              subst hk'
              simp only
              rw [if_neg (fun h => hki ⟨rfl, h⟩)]
              exact .stay
            · exact .stay
      · exact fun _ => .stay
    · exact fun _ => .stay
  | await_ k i =>
    simp only [step, awaitAck]
    split
    · next conv hs =>
      by_cases hki : call = k ∧ id = i
      · obtain ⟨rfl, rfl⟩ := hki
        simp only [setDelivery, if_true]
        exact .waits conv rfl hs
      · simp only [setDelivery]
        split
        · next hk' =>
          subst hk'
          simp only
          rw [if_neg (fun h => hki ⟨rfl, h⟩)]
          exact .stay
        · exact .stay
    · exact .stay

theorem accept_self (s : EvServer) : (s.step .accept).conns s.nextConn = { s.conns s.nextConn with phase := .waiting } := by
  show (s.setConn s.nextConn fun c => { c with phase := .waiting }).conns s.nextConn = _
  rw [setConn_self]

/-- When a connection loop ends nobody waits for an acknowledgment. -/
theorem ended_fails {s : EvServer} (a : EvAct) {id : Nat} (h : ((s.step a).conns id).phase = .ended) :
    (s.conns id).phase = .ended ∨ ∀ call conv, ((s.step a).calls call).state id ≠ .waiting conv := by
  have hend : ∀ i call conv, ((s.endLoop i).calls call).state id ≠ .waiting conv := by
    intro i call conv
    show failDelivery ((s.calls call).state id) ≠ _
    unfold failDelivery
    split
    · simp
    · next hw => exact fun h => hw conv h
  by_cases hab : a.about = some id
  · cases a with
    | receive i msg =>
      cases hab
      have hrej : ((s.reject id).conns id).phase = .ended → ∀ call conv, ((s.reject id).calls call).state id ≠ .waiting conv := by
        unfold reject
        split
        · exact fun _ => hend id
        · rw [setConn_self]; exact nofun
      revert h
      simp only [step, receive]
      split
      · split
        · unfold initConn
          split
          · exact fun h => .inr (hrej h)
          · split
            · rw [setConn_self]; exact nofun
            · exact fun h => .inr (hrej h)
        · exact fun _ => .inr (hend id)
      · next info hp =>
        unfold process
        split
        · rw [acknowledge_conns, if_pos rfl]; exact fun h => .inl h
        · unfold handle; rw [setConn_self]; exact nofun
        · unfold handle; rw [setConn_self]; exact nofun
        · exact fun _ => .inr (hend id)
        · exact fun _ => .inr (hend id)
      · exact fun h => .inl h
    | connected i ok =>
      cases hab
      have hrej : ((s.reject id).conns id).phase = .ended → ∀ call conv, ((s.reject id).calls call).state id ≠ .waiting conv := by
        unfold reject
        split
        · exact fun _ => hend id
        · rw [setConn_self]; exact nofun
      revert h
      simp only [step, connected]
      split
      · split
        · split
          · exact fun _ => .inr (hend id)
          · rw [establish_conns, if_pos rfl]; exact nofun
        · exact fun h => .inr (hrej h)
      · exact fun h => .inl h
    | reply i r =>
      cases hab
      have hresp : ∀ info m, ((s.respond id info m).conns id).phase = .ended →
          ∀ call conv, ((s.respond id info m).calls call).state id ≠ .waiting conv := by
        intro info m
        unfold respond
        split
        · exact fun _ => hend id
        · rw [setConn_self]; exact nofun
      revert h
      simp only [step, reply]
      split
      · split
        · exact fun _ => .inr (hend id)
        · split
          · rw [setConn_self]; exact nofun
          · exact fun h => .inr (hresp _ _ h)
        · exact fun h => .inr (hresp _ _ h)
        · exact fun h => .inl h
      · exact fun h => .inl h
    | giveUp i =>
      cases hab
      revert h
      simp only [step, giveUp]
      split
      · split
        · exact fun _ => .inr (hend id)
        · exact fun h => .inl h
      · split
        · exact fun _ => .inr (hend id)
        · exact fun h => .inl h
      · exact fun _ => .inr (hend id)
      · exact fun h => .inl h
    | _ => cases hab
  · by_cases hacc : a = .accept ∧ id = s.nextConn
    · obtain ⟨rfl, rfl⟩ := hacc
      rw [accept_self] at h
      cases h
    · rw [phase_other hab (fun h1 h2 => hacc ⟨h1, h2⟩)] at h
      exact .inl h

/-- A known client was told so first. -/
theorem greetedFirst_step {s : EvServer} (a : EvAct) {id : Nat} (h : ∀ info, Serving (s.conns id) info → ∃ st rest, (s.conns id).sent = .initOk st :: rest)
    (hc : ∀ info, (s.conns id).phase = .connecting info → (s.conns id).sent = []) :
    ∀ info, Serving ((s.step a).conns id) info → ∃ st rest, ((s.step a).conns id).sent = .initOk st :: rest := by
  intro info hs
  have hold : (∃ info, Serving (s.conns id) info) → ∃ st rest, ((s.step a).conns id).sent = .initOk st :: rest := by
    rintro ⟨info, hi⟩
    obtain ⟨st, rest, e⟩ := h info hi
    obtain ⟨r, hr⟩ := (later_step s a).sent id
    exact ⟨st, rest ++ r, by rw [← hr, e]; rfl⟩
  have hno : ∀ {c : Conn}, (∀ info, c.phase ≠ .ready info) → (∀ info m, c.phase ≠ .busy info m) → ¬ Serving c info := by
    rintro c h1 h2 (h | ⟨m, h⟩)
    · exact h1 _ h
    · exact h2 _ _ h
  have hend : ∀ i, Serving ((s.endLoop i).conns id) info → Serving (s.conns id) info := by
    intro i
    rw [endLoop_conns]
    split
    · exact fun h => absurd h (hno (by simp) (by simp))
    · exact fun h => h
  have hrej : ∀ i, Serving ((s.reject i).conns id) info → Serving (s.conns id) info := by
    intro i
    rw [reject_conns]
    split
    · split <;> exact fun h => absurd h (hno (by simp) (by simp))
    · exact fun h => h
  by_cases hab : a.about = some id
  · cases a with
    | receive i msg =>
      cases hab
      refine hold ?_
      revert hs
      simp only [step, receive]
      split
      · split
        · unfold initConn
          split
          · exact fun h => ⟨_, hrej _ h⟩
          · split
            · rw [setConn_self]; exact fun h => absurd h (hno (by simp) (by simp))
            · exact fun h => ⟨_, hrej _ h⟩
        · exact fun h => ⟨_, hend _ h⟩
      · next info' hp => exact fun _ => ⟨info', .inl hp⟩
      · exact fun h => ⟨_, h⟩
    | connected i ok =>
      cases hab
      revert hs hold
      simp only [step, connected]
      split
      · next info' hp =>
        split
        · split
          · exact fun h hold => hold ⟨_, hend _ h⟩
          · intro _ _
            rw [establish_conns, if_pos rfl, hc info' hp]
            exact ⟨s.status, [], rfl⟩
        · exact fun h hold => hold ⟨_, hrej _ h⟩
      · exact fun h hold => hold ⟨_, h⟩
    | reply i r =>
      cases hab
      refine hold ?_
      revert hs
      simp only [step, reply]
      split
      · next info' msg hp => exact fun _ => ⟨info', .inr ⟨_, hp⟩⟩
      · exact fun h => ⟨_, h⟩
    | giveUp i =>
      cases hab
      refine hold ?_
      revert hs
      simp only [step, giveUp]
      split
      · split
        · exact fun h => ⟨_, hend _ h⟩
        · exact fun h => ⟨_, h⟩
      · next info' hp => exact fun _ => ⟨info', .inl hp⟩
      · exact fun h => ⟨_, hend _ h⟩
      · exact fun h => ⟨_, h⟩
    | _ => cases hab
  · by_cases hacc : a = .accept ∧ id = s.nextConn
    · obtain ⟨rfl, rfl⟩ := hacc
      rw [accept_self] at hs
      exact absurd hs (hno (by simp) (by simp))
    · refine hold ⟨info, ?_⟩
      unfold Serving at hs ⊢
      rwa [phase_other hab (fun h1 h2 => hacc ⟨h1, h2⟩)] at hs

theorem greetedFirst_run (useC : Bool) (token : Option String) (acts : List EvAct) (id : Nat) :
    ∀ info, Serving (((init useC token).run acts).conns id) info → ∃ st rest, (((init useC token).run acts).conns id).sent = .initOk st :: rest := by
  induction acts using List.reverseRecOn with
  | nil => rintro info (h | ⟨m, h⟩) <;> cases h
  | append_singleton acts a ih =>
    rw [run_snoc]
    refine greetedFirst_step a ih ?_
    intro info hp
    have ho : Out ((init useC token).run acts) id := out_run (by rw [hp]; rfl)
    exact ho.conn.sent_nil (by rw [hp]; simp) (by rw [hp]; simp)

end EvServer

namespace ReqClient

/-- A client that is closed sends nothing. -/
theorem closed_sent {c : ReqClient} (a : ReqAct) (h : c.isOpen = false) : (c.step a).sent = c.sent := by
  cases a with
  | register events w => simp [step, request, h, setCall]
  | query params => simp [step, request, h, setCall]
  | receive msg =>
    simp only [step, receive]
    split
    · unfold process
      split <;> rfl
    · rfl
  | callbackDone ok =>
    simp only [step, callbackDone]
    split
    · split
      · unfold afterCallback
        split
        · unfold acknowledge
          rw [if_neg (by simp [h])]
          rfl
        · rfl
      · rfl
    · rfl
  | _ =>
    simp only [step, start, sendDone, resume, cancel, stop, close, setCall]
    repeat' split
    all_goals rfl

theorem never_closed (status : Status) (acts : List ReqAct) (h : ((init status).run acts).loop = .never) : ((init status).run acts).isOpen = false := by
  induction acts using List.reverseRecOn with
  | nil => cases h
  | append_singleton acts a ih =>
    rw [run_snoc] at h ⊢
    generalize (init status).run acts = c at *
    by_cases hc : a = .close
    · subst hc; rfl
    · refine (next_step c a).2.2 (ih ?_)
      revert h
      have hreq : ∀ f w, (c.request f w).loop = .never → c.loop = .never := by
        intro f w
        unfold request
        split <;> exact fun h => h
      cases a with
      | close => exact absurd rfl hc
      | register events w => exact hreq _ _
      | query params => exact hreq _ _
      | receive msg =>
        simp only [step, receive]
        split
        · next hl =>
          unfold process
          split
          · exact nofun
          · exact nofun
          · show c.loop = .never → _; exact fun h => h
          · exact nofun
        · exact fun h => h
      | callbackDone ok =>
        simp only [step, callbackDone]
        split
        · split
          · unfold afterCallback
            split
            · unfold acknowledge
              split <;> exact nofun
            · exact nofun
          · exact nofun
        · exact fun h => h
      | _ =>
        simp only [step, start, sendDone, resume, cancel, stop, setCall]
        repeat' split
        all_goals first | exact fun h => h | exact fun h => by cases h

/-- A callback of a notification that is to be acknowledged goes on, ends with an acknowledgment, or the loop ends. -/
theorem calling_ack {c : ReqClient} (a : ReqAct) {conv : Nat} {es : List Event} (h : c.loop = .calling (.notify conv es false)) :
    (c.step a).loop = .calling (.notify conv es false) ∨ (c.step a).sent = c.sent ++ [.ack conv] ∨ (c.step a).loop = .ended := by
  have hreq : ∀ f w, (c.request f w).loop = .calling (.notify conv es false) := by
    intro f w
    unfold request
    split <;> exact h
  cases a with
  | start => left; simp only [step, start, h]
  | register events w => exact .inl (hreq _ _)
  | query params => exact .inl (hreq _ _)
  | sendDone j =>
    left
    simp only [step, sendDone]
    split
    · split
      · split <;> exact h
      · exact h
    · exact h
  | resume j => left; simp only [step, resume]; split <;> exact h
  | cancel j => left; simp only [step, cancel]; split <;> exact h
  | receive m => left; simp only [step, receive, h]
  | callbackDone ok =>
    right
    simp only [step, callbackDone, h]
    split
    · simp only [afterCallback]
      unfold acknowledge
      split
      · exact .inl rfl
      · exact .inr rfl
    · exact .inr rfl
  | close => left; simp only [step, close, h]
  | stop =>
    simp only [step, stop, h]
    split
    · exact .inl h
    · exact .inr (.inr rfl)

end ReqClient
end HatEvent
