import Verif.Proof.ReqClient

/-!
# Eventer client (C43, C61)
-/

namespace HatEvent
open Spec

/-! ## C43 -/

/-- **C43** A call ends at most once: how it ended never changes. -/
theorem C43_once (status : Status) (acts more : List ReqAct) {k : Nat} {e : CallEnd}
    (h : ((ReqClient.init status).run acts).calls k = .finished e) :
    ((ReqClient.init status).run (acts ++ more)).calls k = .finished e := by
  rw [ReqClient.run_append]
  exact ReqClient.finished_run more (ReqClient.unmade_run status acts) h

/-- **C43** A call made on an open client is sent with a conversation of its own. -/
theorem C43_conversation (status : Status) (acts : List ReqAct) :
    (((ReqClient.init status).run acts).sent.filterMap requestConv).Nodup ∧
      ∀ m ∈ ((ReqClient.init status).run acts).sent, requestConv m ≠ some ((ReqClient.init status).run acts).nextConv := by
  obtain ⟨h1, h2⟩ := ReqClient.convsOk_run status acts
  refine ⟨h1, ?_⟩
  intro m hm h
  exact Nat.lt_irrefl _ (h2 m hm _ h)

/-- **C43** If a call gets a response, a message with its own conversation and this response was received after the
call was made, whatever other calls, cancellations and messages there are. -/
theorem C43_own (status : Status) (before after : List ReqAct) {r : ReqAct} (hr : Asks r)
    (ho : ((ReqClient.init status).run before).isOpen = true) :
    let s := (ReqClient.init status).run before
    (∃ m, (s.step r).sent = s.sent ++ [m] ∧ requestConv m = some s.nextConv) ∧
    ∀ x, ((ReqClient.init status).run (before ++ r :: after)).calls s.nextCall = .finished (.answered x) →
      .receive (.answer s.nextConv x) ∈ after := by
  intro s
  refine ⟨?_, ?_⟩
  · cases hr <;> refine ⟨_, by simp only [ReqClient.step, ReqClient.request, s, ho, if_true]; rfl, rfl⟩
  · intro x hx
    have hcall : s.nextCall < (s.step r).nextCall ∧ (s.step r).calls s.nextCall = .sending s.nextConv true := by
      cases hr <;> simp [ReqClient.step, ReqClient.request, s, ho, ReqClient.setCall]
    have hown := (ReqClient.own_run (conv := s.nextConv) hcall.1 (.inl ⟨true, hcall.2⟩) after).2
    have hs : (ReqClient.init status).run (before ++ r :: after) = (s.step r).run after := by
      rw [ReqClient.run_append]; rfl
    rw [hs] at hx
    rw [hx] at hown
    rcases hown with ⟨w, h⟩ | h | ⟨e, h | h, h2⟩
    · cases h
    · cases h
    · cases h
    · cases h; exact h2 x rfl

/-- **C43** A response with the conversation of a call that waits for it ends the call with this response, unless the call is cancelled;
other calls are not changed by it. -/
theorem C43_answered (status : Status) (before after : List ReqAct) {k conv : Nat} {x : Answer}
    (hw : ((ReqClient.init status).run before).calls k = .waiting conv)
    (hl : ((ReqClient.init status).run before).loop = .receiving) (hc : .cancel k ∉ after) :
    ((ReqClient.init status).run (before ++ .receive (.answer conv x) :: after ++ [.resume k])).calls k =
      .finished (.answered x) ∧
    ∀ j, ((ReqClient.init status).run before).calls j ≠ .waiting conv →
      ((ReqClient.init status).run (before ++ [.receive (.answer conv x)])).calls j =
        ((ReqClient.init status).run before).calls j := by
  have hu := ReqClient.unmade_run status before
  rw [ReqClient.run_snoc, ReqClient.run_append, ReqClient.run_cons, ReqClient.run_snoc]
  generalize (ReqClient.init status).run before = s at *
  constructor
  · have h1 : (s.step (.receive (.answer conv x))).calls k = .resolved conv (.answered x) := by
      simp only [ReqClient.step, ReqClient.receive, hl, ReqClient.process, ReqClient.answerCall, hw, if_true]
    rcases ReqClient.resolved_run after (ReqClient.unmade_step _ hu) (.inl h1) hc with h | h
    · simp only [ReqClient.step, ReqClient.resume, h, ReqClient.setCall, if_true] at *
    · exact ReqClient.finished_step _ (by
        clear * - hu
        generalize hs : s.step (.receive (.answer conv x)) = s1
        have h1 : s1.Unmade := hs ▸ ReqClient.unmade_step _ hu
        clear hs
        induction after generalizing s1 with
        | nil => exact h1
        | cons a after ih => exact ih _ (ReqClient.unmade_step a h1)) h
  · intro j hj
    simp only [ReqClient.step, ReqClient.receive, hl, ReqClient.process]
    unfold ReqClient.answerCall
    split
    · next c h =>
      rw [if_neg]
      · exact h.symm
      · rintro rfl; exact hj h
    · rfl

/-- **C43** When the receive loop has ended, every call that is still running ends as soon as it gets its turn. -/
theorem C43_closed (status : Status) (acts : List ReqAct)
    (hl : ((ReqClient.init status).run acts).loop = .ended) {k : Nat}
    (hk : ((ReqClient.init status).run acts).calls k ≠ .absent) :
    ∃ e, ((ReqClient.init status).run (acts ++ [.sendDone k, .resume k])).calls k = .finished e := by
  obtain ⟨ho, hq⟩ := ReqClient.quiet_run status acts hl
  rw [ReqClient.run_append]
  generalize (ReqClient.init status).run acts = s at *
  show ∃ e, ((s.step (.sendDone k)).step (.resume k)).calls k = .finished e
  cases hp : s.calls k with
  | absent => exact absurd hp hk
  | sending conv w =>
    cases w <;> simp [ReqClient.step, ReqClient.sendDone, hp, ho, ReqClient.setCall, ReqClient.resume]
  | waiting conv => exact absurd hp (hq k conv)
  | resolved conv e => simp [ReqClient.step, ReqClient.sendDone, hp, ReqClient.setCall, ReqClient.resume]
  | finished e => simp [ReqClient.step, ReqClient.sendDone, hp, ReqClient.resume]

/-- Two queries are answered in the other order. -/
def exAnswers : List ReqAct :=
  [.start, .query (.server ⟨1, false, none, none⟩), .register [] true, .sendDone 0, .sendDone 1]

/-- A response. -/
def exAnswer : Answer := .events none

example : ((ReqClient.init .standby).run exAnswers).calls 1 = .waiting 1 ∧
    ((ReqClient.init .standby).run exAnswers).loop = .receiving ∧
    ((ReqClient.init .standby).run (exAnswers ++ .receive (.answer 1 exAnswer) :: [.receive (.answer 0 (.result ⟨[], false⟩))] ++
      [.resume 1])).calls 1 = .finished (.answered exAnswer) ∧
    ((ReqClient.init .standby).run (exAnswers ++ .receive (.answer 1 exAnswer) :: [.receive (.answer 0 (.result ⟨[], false⟩))] ++
      [.resume 0])).calls 0 = .finished (.answered (.result ⟨[], false⟩)) := ⟨rfl, rfl, rfl, rfl⟩

example : Asks (.register [] true) ∧ ((ReqClient.init .standby).run [.start]).isOpen = true :=
  ⟨.register [], rfl⟩

example : ((ReqClient.init .standby).run (exAnswers ++ [.close, .stop])).loop = .ended ∧
    ((ReqClient.init .standby).run (exAnswers ++ [.close, .stop] ++ [.sendDone 0, .resume 0])).calls 0 =
      .finished .connectionError := ⟨rfl, rfl⟩

/-- **C43** is false if `send_msg` returns later than the response is received: the response finds no future
(`client.py:243-245`) and is dropped, so that the call waits until the client is closed. -/
theorem C43_overtaken_refuted :
    ¬ ∀ (status : Status) (before between : List ReqAct) (r : ReqAct) (x : Answer), Asks r →
      let s := (ReqClient.init status).run before
      s.isOpen = true →
      ((ReqClient.init status).run (before ++ r :: between)).loop = .receiving → .cancel s.nextCall ∉ between →
      ∃ e, ((ReqClient.init status).run (before ++ r :: between ++
        [.receive (.answer s.nextConv x), .sendDone s.nextCall, .resume s.nextCall])).calls s.nextCall = .finished e := by
  intro h
  obtain ⟨e, h⟩ := h .standby [.start] [] (.register [] true) exAnswer (.register []) rfl rfl (by simp)
  cases h

/-- **C43** is false if the connection is closed before the receive loop starts: nothing fails the futures. -/
theorem C43_unstarted_refuted :
    ¬ ∀ (status : Status) (acts : List ReqAct) (k : Nat), ((ReqClient.init status).run acts).calls k ≠ .absent →
      ((ReqClient.init status).run acts).isOpen = false →
      ∃ e, ((ReqClient.init status).run (acts ++ [.start, .stop, .sendDone k, .resume k])).calls k = .finished e := by
  intro h
  obtain ⟨e, h⟩ := h .standby [.register [] true, .sendDone 0, .close] 0 (by
    intro h; cases h) rfl
  cases h

/-! ## C61 -/

/-- **C61** The client acknowledges a notification only after it was received and the events callback has finished. -/
theorem C61_acknowledged (status : Status) (acts : List ReqAct) (conv : Nat)
    (h : .ack conv ∈ ((ReqClient.init status).run acts).sent) :
    ∃ pre mid post events, acts = pre ++ .receive (.notify conv events false) :: mid ++ .callbackDone true :: post :=
  (ReqClient.acksOk_run status acts).seen conv h

example : .ack 7 ∈ ((ReqClient.init .standby).run
    [.start, .receive (.notify 7 [] false), .register [] false, .callbackDone true]).sent := by
  show ClientMsg.ack 7 ∈ [ClientMsg.register 0 [] true, ClientMsg.ack 7]
  simp

end HatEvent
