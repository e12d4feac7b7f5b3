import Verif.Proof.LinkRun
import Verif.Spec.ReqClient

/-! # Responses of the eventer server -/

namespace HatEvent
open Spec
namespace EvServer

theorem answersOf_append (l l' : List ServerMsg) : answersOf (l ++ l') = answersOf l ++ answersOf l' := by simp [answersOf]

/-- The requests of a connection are answered one after another. -/
def AnsOk (c : Conn) : Prop :=
  match c.phase with
  | .busy _ msg => ∃ h, c.handled = h ++ [msg] ∧ (answersOf c.sent).map Prod.fst = h.filterMap asksFor
  | .ended => (answersOf c.sent).map Prod.fst <+: c.handled.filterMap asksFor
  | _ => (answersOf c.sent).map Prod.fst = c.handled.filterMap asksFor

theorem ansOk_prefix {c : Conn} (h : AnsOk c) : (answersOf c.sent).map Prod.fst <+: c.handled.filterMap asksFor := by
  unfold AnsOk at h
  split at h
  · obtain ⟨l, h1, h2⟩ := h
    rw [h1, h2, List.filterMap_append]
    exact List.prefix_append _ _
  · exact h
  · rw [h]; exact List.prefix_rfl

theorem ansOk_ended {c : Conn} (h : AnsOk c) : AnsOk { c with phase := .ended, lost := true } := by
  exact ansOk_prefix (c := c) h

/-- A message that is not a response. -/
theorem ansOk_post {c : Conn} {m : ServerMsg} (h : AnsOk c) (hm : answersOf [m] = []) : AnsOk { c with sent := c.sent ++ [m] } := by
  unfold AnsOk at h ⊢
  simp only [answersOf_append, hm, List.append_nil]
  exact h

theorem ansOk_endLoop {s : EvServer} {id i : Nat} (h : AnsOk (s.conns i)) : AnsOk ((s.endLoop id).conns i) := by
  rw [endLoop_conns]
  split
  · exact ansOk_ended h
  · exact h

theorem ansOk_reject {s : EvServer} {id i : Nat} (h : AnsOk (s.conns i)) (hb : i = id → ∀ info m, (s.conns i).phase ≠ .busy info m)
    (he : i = id → (s.conns i).phase ≠ .ended) : AnsOk ((s.reject id).conns i) := by
  rw [reject_conns]
  split
  · next hi =>
    split
    · exact ansOk_ended h
    · unfold AnsOk at h ⊢
      split at h
      · next hp => exact absurd hp (hb hi _ _)
      · next hp => exact absurd hp (he hi)
      · simp only [answersOf_append]
        simpa [answersOf] using h
  · exact h

theorem ansOk_step {s : EvServer} (a : EvAct) (h : ∀ i, AnsOk (s.conns i)) (hnew : (s.conns s.nextConn).phase = .absent) (i : Nat) :
    AnsOk ((s.step a).conns i) := by
  have hi := h i
  cases a with
  | accept =>
    show AnsOk ((s.setConn s.nextConn fun c => { c with phase := .waiting }).conns i)
    rw [setConn_conns]
    split
    · next he =>
      subst he
      unfold AnsOk at hi
      rw [hnew] at hi
      exact hi
    · exact hi
  | lose id =>
    show AnsOk ((s.setConn id fun c => { c with lost := true }).conns i)
    rw [setConn_conns]
    split
    · exact hi
    · exact hi
  | receive id msg =>
    simp only [step, receive]
    split
    · next hp =>
      split
      · next req =>
        unfold initConn
        have hrej : AnsOk ((s.reject id).conns i) :=
          ansOk_reject hi (by rintro rfl info m; rw [hp]; simp) (by rintro rfl; rw [hp]; simp)
        split
        · exact hrej
        · split
          · rw [setConn_conns]
            split
            · next he =>
              subst he
              unfold AnsOk at hi
              rw [hp] at hi
              exact hi
            · exact hi
          · exact hrej
      · exact ansOk_endLoop hi
    · next info hp =>
      have hh : AnsOk ((s.handle id info msg).conns i) := by
        unfold handle
        rw [setConn_conns]
        split
        · next he =>
          subst he
          unfold AnsOk at hi
          rw [hp] at hi
          exact ⟨_, rfl, hi⟩
        · exact hi
      unfold process
      split
      · rw [acknowledge_conns]
        split
        · exact hi
        · exact hi
      · exact hh
      · exact hh
      · exact ansOk_endLoop hi
      · exact ansOk_endLoop hi
    · exact hi
  | connected id ok =>
    simp only [step, connected]
    split
    · next info hp =>
      split
      · split
        · exact ansOk_endLoop hi
        · rw [establish_conns]
          split
          · next he =>
            subst he
            unfold AnsOk at hi
            rw [hp] at hi
            unfold AnsOk
            simp only [answersOf_append]
            simpa [answersOf] using hi
          · exact hi
      · exact ansOk_reject hi (by rintro rfl info m; rw [hp]; simp) (by rintro rfl; rw [hp]; simp)
    · exact hi
  | reply id result =>
    simp only [step, reply]
    split
    · next info msg hp =>
      have hresp : ∀ (m : ServerMsg) conv x, answersOf [m] = [(conv, x)] → asksFor msg = some conv → AnsOk ((s.respond id info m).conns i) := by
        intro m conv x hm hc
        rw [respond_conns]
        split
        · next he =>
          subst he
          split
          · exact ansOk_ended hi
          · unfold AnsOk at hi
            rw [hp] at hi
            obtain ⟨l, h1, h2⟩ := hi
            unfold AnsOk
            simp only [answersOf_append, List.map_append, h1, h2, List.filterMap_append, hm]
            simp [hc]
        · exact hi
      split
      · exact ansOk_endLoop hi
      · next conv evs last evs' =>
        split
        · next hlast =>
          rw [setConn_conns]
          split
          · next he =>
            subst he
            unfold AnsOk at hi
            rw [hp] at hi
            obtain ⟨l, h1, h2⟩ := hi
            unfold AnsOk
            simp only [h1, h2, List.filterMap_append]
            simp [asksFor, hlast]
          · exact hi
        · next hlast => exact hresp _ conv _ rfl (by simp [asksFor, hlast])
      · next conv params r => exact hresp _ conv _ rfl rfl
      · exact hi
    · exact hi
  | giveUp id =>
    simp only [step, giveUp]
    split
    · split
      · exact ansOk_endLoop hi
      · exact hi
    · split
      · exact ansOk_endLoop hi
      · exact hi
    · exact ansOk_endLoop hi
    · exact hi
  | setStatus status =>
    simp only [step, setStatus]
    split <;> exact hi
  | statusStep task =>
    simp only [step, statusStep]
    split
    · exact hi
    · split
      · exact hi
      · unfold post
        rw [setConn_conns]
        split
        · exact ansOk_post hi rfl
        · exact hi
  | notify ev p w => exact hi
  | send c j =>
    simp only [step, send]
    split
    · split
      · split
        · exact hi
        · show AnsOk ((s.post j _).conns i)
          unfold post
          rw [setConn_conns]
          split
          · exact ansOk_post hi rfl
          · exact hi
      · exact hi
    · exact hi
  | await_ c j =>
    simp only [step, awaitAck]
    split <;> exact hi

theorem ansOk_run (useC : Bool) (token : Option String) (acts : List EvAct) (i : Nat) : AnsOk (((init useC token).run acts).conns i) := by
  induction acts using List.reverseRecOn generalizing i with
  | nil => rfl
  | append_singleton acts a ih => rw [run_snoc]; exact ansOk_step a ih (fresh_run useC token acts _ (Nat.le_refl _)) i

/-- How responses and handled requests of a connection change. -/
inductive Change (s : EvServer) (id : Nat) : EvAct → Conn → Prop
  | same (a : EvAct) (c : Conn) : answersOf c.sent = answersOf (s.conns id).sent → c.handled = (s.conns id).handled → Change s id a c
  | handle (msg : ClientMsg) (c : Conn) : (∀ r, msg ≠ .init r) → answersOf c.sent = answersOf (s.conns id).sent → c.handled = (s.conns id).handled ++ [msg] →
      Change s id (.receive id msg) c
  | answer (result : Handled) (c : Conn) (info : ConnInfo) (msg : ClientMsg) (conv : Nat) (x : Answer) :
      (s.conns id).phase = .busy info msg → asksFor msg = some conv → answerOf result = some x → Suits msg x →
      answersOf c.sent = answersOf (s.conns id).sent ++ [(conv, x)] → c.handled = (s.conns id).handled → Change s id (.reply id result) c

theorem change_endLoop (s : EvServer) (a : EvAct) (i id : Nat) : Change s id a ((s.endLoop i).conns id) := by
  rw [endLoop_conns]
  split <;> exact .same _ _ rfl rfl

theorem change_reject (s : EvServer) (a : EvAct) (i id : Nat) : Change s id a ((s.reject i).conns id) := by
  rw [reject_conns]
  split
  · split
    · exact .same _ _ rfl rfl
    · exact .same _ _ (by simp [answersOf_append, answersOf]) rfl
  · exact .same _ _ rfl rfl

theorem change_post (s : EvServer) (a : EvAct) (i id : Nat) {m : ServerMsg} (hm : answersOf [m] = []) : Change s id a ((s.post i m).conns id) := by
  unfold post
  rw [setConn_conns]
  split
  · exact .same _ _ (by simp [answersOf_append, hm]) rfl
  · exact .same _ _ rfl rfl

theorem change_step (s : EvServer) (a : EvAct) (id : Nat) : Change s id a ((s.step a).conns id) := by
  have hsame : Change s id a (s.conns id) := .same _ _ rfl rfl
  have hset : ∀ (j : Nat) (f : Conn → Conn), (∀ c, (f c).sent = c.sent ∧ (f c).handled = c.handled) → Change s id a ((s.setConn j f).conns id) := by
    intro j f hf
    rw [setConn_conns]
    split
    · exact .same _ _ (by rw [(hf _).1]) (hf _).2
    · exact hsame
  cases a with
  | accept => exact hset s.nextConn (fun c => { c with phase := .waiting }) fun _ => ⟨rfl, rfl⟩
  | lose i => exact hset i (fun c => { c with lost := true }) fun _ => ⟨rfl, rfl⟩
  | receive i msg =>
    simp only [step, receive]
    split
    · split
      · unfold initConn
        split
        · exact change_reject s _ i id
        · split
          · exact hset i _ fun _ => ⟨rfl, rfl⟩
          · exact change_reject s _ i id
      · exact change_endLoop s _ i id
    · next info hp =>
      have hh : (∀ r, msg ≠ .init r) → Change s id (.receive i msg) ((s.handle i info msg).conns id) := by
        intro hne
        unfold handle
        rw [setConn_conns]
        split
        · next he => subst he; exact .handle _ _ hne rfl rfl
        · exact hsame
      unfold process
      split
      · rw [acknowledge_conns]
        split <;> exact .same _ _ rfl rfl
      · exact hh (by simp)
      · exact hh (by simp)
      · exact change_endLoop s _ i id
      · exact change_endLoop s _ i id
    · exact hsame
  | connected i ok =>
    simp only [step, connected]
    split
    · split
      · split
        · exact change_endLoop s _ i id
        · rw [establish_conns]
          split
          · exact .same _ _ (by simp [answersOf_append, answersOf]) rfl
          · exact hsame
      · exact change_reject s _ i id
    · exact hsame
  | reply i result =>
    simp only [step, reply]
    split
    · next info msg hp =>
      have hresp : ∀ (m : ServerMsg) conv x, answersOf [m] = [(conv, x)] → asksFor msg = some conv → answerOf result = some x → Suits msg x →
          Change s id (.reply i result) ((s.respond i info m).conns id) := by
        intro m conv x hm hc ha hu
        rw [respond_conns]
        split
        · next he =>
          subst he
          split
          · exact .same _ _ rfl rfl
          · exact .answer result _ info msg conv x hp hc ha hu (by simp [answersOf_append, hm]) rfl
        · exact hsame
      split
      · exact change_endLoop s _ i id
      · next conv evs last evs' =>
        split
        · exact hset i _ fun _ => ⟨rfl, rfl⟩
        · next hlast => exact hresp _ conv _ rfl (by simp [asksFor, hlast]) rfl (.register _)
      · next conv params r => exact hresp _ conv _ rfl rfl rfl (.query _)
      · exact hsame
    · exact hsame
  | giveUp i =>
    simp only [step, giveUp]
    split
    · split
      · exact change_endLoop s _ i id
      · exact hsame
    · split
      · exact change_endLoop s _ i id
      · exact hsame
    · exact change_endLoop s _ i id
    · exact hsame
  | setStatus status =>
    simp only [step, setStatus]
    split <;> exact hsame
  | statusStep task =>
    simp only [step, statusStep]
    split
    · exact hsame
    · split
      · exact hsame
      · exact change_post s _ _ id rfl
  | notify ev p w => exact hsame
  | send c j =>
    simp only [step, send]
    split
    · split
      · split
        · exact hsame
        · exact change_post s _ _ id rfl
      · exact hsame
    · exact hsame
  | await_ c j =>
    simp only [step, awaitAck]
    split <;> exact hsame

/-- Each response comes from a callback that handled its request. -/
theorem answer_from (useC : Bool) (token : Option String) (acts : List EvAct) (id : Nat) {conv : Nat} {x : Answer}
    (h : (conv, x) ∈ answersOf (((init useC token).run acts).conns id).sent) :
    ∃ pre result post info msg, acts = pre ++ .reply id result :: post ∧ (((init useC token).run pre).conns id).phase = .busy info msg ∧
      asksFor msg = some conv ∧ answerOf result = some x ∧ Suits msg x := by
  induction acts using List.reverseRecOn with
  | nil => cases h
  | append_singleton acts a ih =>
    rw [run_snoc] at h
    have hold : (conv, x) ∈ answersOf (((init useC token).run acts).conns id).sent →
        ∃ pre result post info msg, acts ++ [a] = pre ++ .reply id result :: post ∧ (((init useC token).run pre).conns id).phase = .busy info msg ∧
          asksFor msg = some conv ∧ answerOf result = some x ∧ Suits msg x := by
      intro h
      obtain ⟨pre, result, post, info, msg, h1, h2⟩ := ih h
      exact ⟨pre, result, post ++ [a], info, msg, by rw [h1]; simp, h2⟩
    have hch := change_step ((init useC token).run acts) a id
    generalize hc : ((init useC token).run acts).step a = s' at h hch
    generalize hcc : s'.conns id = c at h hch
    cases hch with
    | same _ _ h1 h2 => rw [h1] at h; exact hold h
    | handle msg _ h0 h1 h2 => rw [h1] at h; exact hold h
    | answer result _ info msg conv' x' h1 h2 h3 h6 h4 h5 =>
      rw [h4, List.mem_append, List.mem_singleton] at h
      rcases h with h | h
      · exact hold h
      · obtain ⟨rfl, rfl⟩ := Prod.mk.injEq .. ▸ h
        exact ⟨acts, result, [], info, msg, rfl, h1, h2, h3, h6⟩

/-- Handled requests were received. -/
theorem handled_from (useC : Bool) (token : Option String) (acts : List EvAct) (id : Nat) :
    (((init useC token).run acts).conns id).handled.Sublist (received id acts) := by
  induction acts using List.reverseRecOn with
  | nil => exact List.Sublist.refl _
  | append_singleton acts a ih =>
    rw [run_snoc]
    have hch := change_step ((init useC token).run acts) a id
    have he : received id (acts ++ [a]) = received id acts ++ received id [a] := by simp [received]
    rw [he]
    generalize hc : ((init useC token).run acts).step a = s' at hch
    generalize hcc : s'.conns id = c at hch
    cases hch with
    | same _ _ h1 h2 => rw [h2]; exact ih.trans (List.sublist_append_left _ _)
    | handle msg _ h0 h1 h2 =>
      rw [h2]
      refine ih.append ?_
      cases msg with
      | init r => exact absurd rfl (h0 r)
      | _ => simp [received]
    | answer result _ info msg conv' x' h1 h2 h3 h6 h4 h5 => rw [h5]; exact ih.trans (List.sublist_append_left _ _)

/-- A request that is being handled was received. -/
theorem busy_handled {useC : Bool} {token : Option String} {acts : List EvAct} {id : Nat} {info : ConnInfo} {msg : ClientMsg}
    (h : (((init useC token).run acts).conns id).phase = .busy info msg) : msg ∈ received id acts := by
  have ha := ansOk_run useC token acts id
  unfold AnsOk at ha
  rw [h] at ha
  obtain ⟨l, h1, _⟩ := ha
  refine (handled_from useC token acts id).subset ?_
  rw [h1]
  simp

end EvServer

namespace Link
open EvServer

theorem run_append (s : Link) (a b : List LinkAct) : s.run (a ++ b) = (s.run a).run b := by simp [run]

/-- The client goes on, and gets only messages of the server. -/
theorem evolve (after : List LinkAct) {s : Link} {c : ReqClient} (hc : s.client = some c) :
    ∃ more, (s.run after).client = some (c.run more) ∧ (s.run after).id = s.id ∧
      ∀ p, .receive p ∈ more → ∃ msg last, p = msg.toPeer last ∧ msg ∈ ((s.run after).server.conns s.id).sent := by
  induction after using List.reverseRecOn with
  | nil => exact ⟨[], hc, rfl, fun p h => by cases h⟩
  | append_singleton after a ih =>
    obtain ⟨more, h1, h2, h3⟩ := ih
    rw [run_snoc]
    cases a with
    | server act =>
      refine ⟨more, h1, h2, fun p hp => ?_⟩
      obtain ⟨msg, last, h4, h5⟩ := h3 p hp
      exact ⟨msg, last, h4, ((later_step (s.run after).server act).sent s.id).subset h5⟩
    | connect =>
      have he : (s.run after).step .connect = s.run after := by
        simp only [step, connect, h1]
      rw [he]
      exact ⟨more, h1, h2, h3⟩
    | client act =>
      by_cases hr : ∃ m, act = .receive m
      · obtain ⟨m, rfl⟩ := hr
        exact ⟨more, h1, h2, h3⟩
      · have he : (s.run after).step (.client act) = { s.run after with client := (s.run after).client.map (·.step act) } := by
          cases act <;> first | rfl | exact absurd ⟨_, rfl⟩ hr
        rw [he]
        refine ⟨more ++ [act], ?_, h2, fun p hp => ?_⟩
        · simp only [h1, Option.map_some, ReqClient.run_snoc]
        · rw [List.mem_append, List.mem_singleton] at hp
          rcases hp with hp | hp
          · exact h3 p hp
          · exact absurd ⟨p, hp.symm⟩ hr
    | deliver last =>
      simp only [step, deliver, h1]
      split
      · next c' msg hc' hm =>
        cases hc'
        split
        · refine ⟨more ++ [.receive (msg.toPeer last)], by rw [ReqClient.run_snoc]; rfl, h2, fun p hp => ?_⟩
          rw [List.mem_append, List.mem_singleton] at hp
          rcases hp with hp | hp
          · exact h3 p hp
          · cases hp
            refine ⟨msg, last, rfl, ?_⟩
            rw [← h2]
            exact List.mem_of_getElem? hm
        · exact ⟨more, h1, h2, h3⟩
      · exact ⟨more, h1, h2, h3⟩

/-- The client is one after `connect`. -/
theorem reached (id : Nat) (useC : Bool) (token : Option String) (acts : List LinkAct) {c : ReqClient}
    (hc : ((init id useC token).run acts).client = some c) : ∃ status cacts, c = (ReqClient.init status).run cacts := by
  induction acts using List.reverseRecOn generalizing c with
  | nil => cases hc
  | append_singleton acts a ih =>
    rw [run_snoc] at hc
    cases h : ((init id useC token).run acts).client with
    | some c0 =>
      obtain ⟨status, cacts, rfl⟩ := ih h
      obtain ⟨more, h1, _⟩ := evolve [a] h
      change (((init id useC token).run acts).step a).client = _ at h1
      rw [hc] at h1
      refine ⟨status, cacts ++ more, ?_⟩
      rw [ReqClient.run_append]
      exact Option.some.inj h1
    | none =>
      cases a with
      | server act => rw [show (((init id useC token).run acts).step (.server act)).client = ((init id useC token).run acts).client from rfl, h] at hc; cases hc
      | connect =>
        simp only [step, connect, h] at hc
        split at hc
        · next st _ _ => exact ⟨_, [], (Option.some.inj hc).symm⟩
        · rw [h] at hc; cases hc
      | client act =>
        cases act <;> simp [step, clientStep, h] at hc
      | deliver last =>
        simp only [step, deliver, h] at hc
        cases hc

end Link
end HatEvent

namespace HatEvent

theorem ReqClient.sent_step (s : ReqClient) (a : ReqAct) : s.sent <+: (s.step a).sent := by
  have hp := List.prefix_append s.sent
  cases a with
  | start => simp only [step, start]; split <;> exact List.prefix_rfl
  | register events w => simp only [step, request]; split <;> first | exact hp _ | exact List.prefix_rfl
  | query p => simp only [step, request]; split <;> first | exact hp _ | exact List.prefix_rfl
  | sendDone k =>
    simp only [step, sendDone]
    split
    · split
      · split <;> exact List.prefix_rfl
      · exact List.prefix_rfl
    · exact List.prefix_rfl
  | resume k => simp only [step, resume]; split <;> exact List.prefix_rfl
  | cancel k => simp only [step, cancel]; split <;> exact List.prefix_rfl
  | receive m =>
    simp only [step, receive]
    split
    · unfold process
      split <;> exact List.prefix_rfl
    · exact List.prefix_rfl
  | callbackDone ok =>
    simp only [step, callbackDone]
    split
    · split
      · unfold afterCallback
        split
        · unfold acknowledge
          split <;> first | exact hp _ | exact List.prefix_rfl
        · exact List.prefix_rfl
      · exact List.prefix_rfl
    · exact List.prefix_rfl
  | close => exact List.prefix_rfl
  | stop =>
    simp only [step, stop]
    split
    · exact List.prefix_rfl
    · split <;> exact List.prefix_rfl

theorem ReqClient.sent_run (s : ReqClient) (acts : List ReqAct) : s.sent <+: (s.run acts).sent := by
  induction acts using List.reverseRecOn with
  | nil => exact List.prefix_rfl
  | append_singleton acts a ih => rw [ReqClient.run_snoc]; exact ih.trans (sent_step _ a)

theorem nodup_filterMap_inj {α β : Type} {f : α → Option β} {l : List α} (h : (l.filterMap f).Nodup) {a b : α} (ha : a ∈ l) (hb : b ∈ l)
    {c : β} (h1 : f a = some c) (h2 : f b = some c) : a = b := by
  induction l with
  | nil => cases ha
  | cons x l ih =>
    have hno : ∀ y ∈ l, f x = some c → f y = some c → False := by
      intro y hy hx hyc
      rw [List.filterMap_cons, hx] at h
      exact (List.nodup_cons.1 h).1 (List.mem_filterMap.2 ⟨y, hy, hyc⟩)
    have hl : (l.filterMap f).Nodup := by
      rw [List.filterMap_cons] at h
      split at h
      · exact h
      · exact (List.nodup_cons.1 h).2
    rcases List.mem_cons.1 ha with rfl | ha'
    · rcases List.mem_cons.1 hb with rfl | hb'
      · rfl
      · exact (hno b hb' h1 h2).elim
    · rcases List.mem_cons.1 hb with rfl | hb'
      · exact (hno a ha' h2 h1).elim
      · exact ih hl ha' hb'

end HatEvent
