import Verif.Model.Wire
import Verif.Proof.Answers

/-! # A client and a server with the messages of both directions -/

namespace HatEvent
open Spec EvServer

/-- A request, as opposed to an acknowledgment. -/
def ClientMsg.isReq : ClientMsg → Bool
  | .register _ _ _ => true
  | .query _ _ => true
  | _ => false

/-- What a client sends after the initialization. -/
inductive ClientMsg.Later : ClientMsg → Prop
  | ack (conv : Nat) : Later (.ack conv)
  | register (conv : Nat) (events : List RegisterEvent) (last : Bool) : Later (.register conv events last)
  | query (conv : Nat) (params : QueryParams) : Later (.query conv params)

namespace ReqClient

theorem sent_later_step {s : ReqClient} (a : ReqAct) (h : ∀ m ∈ s.sent, m.Later) : ∀ m ∈ (s.step a).sent, m.Later := by
  have hreq : ∀ f w, (∀ c, (f c : ClientMsg).Later) → ∀ m ∈ (s.request f w).sent, m.Later := by
    intro f w hf m hm
    unfold request at hm
    split at hm
    · rcases List.mem_append.1 hm with hm | hm
      · exact h m hm
      · rw [List.mem_singleton.1 hm]; exact hf _
    · exact h m hm
  cases a with
  | start => simp only [step, start]; split <;> exact h
  | register events w => exact hreq _ _ fun c => .register c _ _
  | query params => exact hreq _ _ fun c => .query c _
  | sendDone j =>
    simp only [step, sendDone]
    split
    · split
      · split <;> exact h
      · exact h
    · exact h
  | resume j => simp only [step, resume]; split <;> exact h
  | cancel j => simp only [step, cancel]; split <;> exact h
  | receive msg =>
    simp only [step, receive]
    split
    · unfold process
      split <;> exact h
    · exact h
  | callbackDone ok =>
    simp only [step, callbackDone]
    split
    · split
      · unfold afterCallback
        split
        · unfold acknowledge
          split
          · intro m hm
            rcases List.mem_append.1 hm with hm | hm
            · exact h m hm
            · rw [List.mem_singleton.1 hm]; exact .ack _
          · exact h
        · exact h
      · exact h
    · exact h
  | close => exact h
  | stop =>
    simp only [step, stop]
    split
    · exact h
    · split <;> exact h

theorem sent_later (status : Status) (acts : List ReqAct) : ∀ m ∈ ((init status).run acts).sent, m.Later := by
  induction acts using List.reverseRecOn with
  | nil => intro m hm; cases hm
  | append_singleton acts a ih => rw [run_snoc]; exact sent_later_step a ih

/-- A loop that has not started belongs to an open client. -/
theorem spawned_step {s : ReqClient} (a : ReqAct) (h : s.loop = .spawned → s.isOpen = true) :
    (s.step a).loop = .spawned → (s.step a).isOpen = true := by
  have hreq : ∀ f w, (s.request f w).loop = .spawned → (s.request f w).isOpen = true := by
    intro f w
    unfold request
    split <;> exact h
  cases a with
  | start =>
    simp only [step, start]
    split
    · nofun
    · exact h
  | register events w => exact hreq _ _
  | query params => exact hreq _ _
  | sendDone j =>
    simp only [step, sendDone]
    split
    · split
      · split <;> exact h
      · exact h
    · exact h
  | resume j => simp only [step, resume]; split <;> exact h
  | cancel j => simp only [step, cancel]; split <;> exact h
  | receive msg =>
    simp only [step, receive]
    split
    · unfold process
      split
      · nofun
      · nofun
      · exact h
      · nofun
    · exact h
  | callbackDone ok =>
    simp only [step, callbackDone]
    split
    · split
      · unfold afterCallback
        split
        · unfold acknowledge
          split <;> nofun
        · nofun
      · nofun
    · exact h
  | close =>
    simp only [step, close]
    split
    · nofun
    · next hl => exact fun h' => absurd h' (fun h' => hl h')
  | stop =>
    simp only [step, stop]
    split
    · exact h
    · split
      · nofun
      · nofun
      · exact h

end ReqClient

namespace EvServer

/-- The loop of a connection runs, or it has ended and closed the connection. -/
def Past (c : Conn) : Prop := (∃ info, c.phase = .ready info) ∨ (∃ info msg, c.phase = .busy info msg) ∨ c.phase = .ended ∧ c.lost = true

theorem past_endLoop {s : EvServer} {i id : Nat} (h : Past (s.conns id)) : Past ((s.endLoop i).conns id) := by
  rw [endLoop_conns]
  split
  · exact .inr (.inr ⟨rfl, rfl⟩)
  · exact h

theorem past_step {s : EvServer} (a : EvAct) {id : Nat} (h : Past (s.conns id)) (hf : (s.conns s.nextConn).phase = .absent) :
    Past ((s.step a).conns id) := by
  have hset : ∀ (i : Nat) (f : Conn → Conn), (∀ c, (f c).phase = c.phase) → (∀ c : Conn, c.lost = true → (f c).lost = true) →
      Past ((s.setConn i f).conns id) := by
    intro i f h1 h2
    rw [setConn_conns]
    split
    · unfold Past
      rw [h1]
      rcases h with h | h | ⟨h, h'⟩
      · exact .inl h
      · exact .inr (.inl h)
      · exact .inr (.inr ⟨h, h2 _ h'⟩)
    · exact h
  cases a with
  | accept =>
    have hne : id ≠ s.nextConn := by
      rintro rfl
      rcases h with ⟨info, h⟩ | ⟨info, m, h⟩ | ⟨h, _⟩ <;> rw [hf] at h <;> cases h
    show Past ((s.setConn s.nextConn fun c => { c with phase := .waiting }).conns id)
    rw [setConn_other _ hne]
    exact h
  | lose i => exact hset i (fun c => { c with lost := true }) (fun _ => rfl) fun _ _ => rfl
  | receive i msg =>
    simp only [step, receive]
    split
    · next hp =>
      have hne : id ≠ i := by
        rintro rfl
        rcases h with ⟨info, h⟩ | ⟨info, m, h⟩ | ⟨h, _⟩ <;> rw [hp] at h <;> cases h
      have hrej : Past ((s.reject i).conns id) := by
        rw [reject_conns, if_neg hne]; exact h
      split
      · unfold initConn
        split
        · exact hrej
        · split
          · rw [setConn_other _ hne]; exact h
          · exact hrej
      · exact past_endLoop h
    · next info hp =>
      have hh : Past ((s.handle i info msg).conns id) := by
        unfold handle
        rw [setConn_conns]
        split
        · exact .inr (.inl ⟨_, _, rfl⟩)
        · exact h
      unfold process
      split
      · rw [acknowledge_conns]
        split
        · next e => subst e; exact h
        · exact h
      · exact hh
      · exact hh
      · exact past_endLoop h
      · exact past_endLoop h
    · exact h
  | connected i ok =>
    simp only [step, connected]
    split
    · next info hp =>
      have hne : id ≠ i := by
        rintro rfl
        rcases h with ⟨info, h⟩ | ⟨info, m, h⟩ | ⟨h, _⟩ <;> rw [hp] at h <;> cases h
      split
      · split
        · exact past_endLoop h
        · rw [establish_conns, if_neg hne]; exact h
      · rw [reject_conns, if_neg hne]; exact h
    · exact h
  | reply i result =>
    simp only [step, reply]
    split
    · next info msg hp =>
      have hresp : ∀ m, Past ((s.respond i info m).conns id) := by
        intro m
        rw [respond_conns]
        split
        · split
          · exact .inr (.inr ⟨rfl, rfl⟩)
          · exact .inl ⟨_, rfl⟩
        · exact h
      split
      · exact past_endLoop h
      · split
        · rw [setConn_conns]
          split
          · exact .inl ⟨_, rfl⟩
          · exact h
        · exact hresp _
      · exact hresp _
      · exact h
    · exact h
  | giveUp i =>
    simp only [step, giveUp]
    split
    · split
      · exact past_endLoop h
      · exact h
    · split
      · exact past_endLoop h
      · exact h
    · exact past_endLoop h
    · exact h
  | setStatus status =>
    simp only [step, setStatus]
    split <;> exact h
  | statusStep task =>
    simp only [step, statusStep]
    split
    · exact h
    · split
      · exact h
      · exact hset _ (fun c => { c with sent := c.sent ++ [_] }) (fun _ => rfl) fun _ h => h
  | notify ev p w => exact h
  | send c j =>
    simp only [step, send]
    split
    · split
      · split
        · exact h
        · exact hset _ (fun c => { c with sent := c.sent ++ [_] }) (fun _ => rfl) fun _ h => h
      · exact h
    · exact h
  | await_ c j =>
    simp only [step, awaitAck]
    split <;> exact h

theorem greeted_step {s : EvServer} (a : EvAct) {id : Nat} (h : ∀ st, .initOk st ∈ (s.conns id).sent → Past (s.conns id))
    (hf : (s.conns s.nextConn).phase = .absent) : ∀ st, .initOk st ∈ ((s.step a).conns id).sent → Past ((s.step a).conns id) := by
  have hold : ∀ {st}, .initOk st ∈ (s.conns id).sent → Past ((s.step a).conns id) := fun hm => past_step a (h _ hm) hf
  have key : (∀ st, .initOk st ∈ ((s.step a).conns id).sent → .initOk st ∈ (s.conns id).sent) ∨ Past ((s.step a).conns id) := by
    have hset : ∀ (i : Nat) (f : Conn → Conn), (∀ c, (f c).sent = c.sent) →
        ∀ st, .initOk st ∈ ((s.setConn i f).conns id).sent → .initOk st ∈ (s.conns id).sent := by
      intro i f h1 st hm
      rw [setConn_conns] at hm
      split at hm
      · rwa [h1] at hm
      · exact hm
    have hend : ∀ (i st), .initOk st ∈ ((s.endLoop i).conns id).sent → .initOk st ∈ (s.conns id).sent := by
      intro i st hm
      rw [endLoop_conns] at hm
      split at hm <;> exact hm
    have hrej : ∀ (i st), .initOk st ∈ ((s.reject i).conns id).sent → .initOk st ∈ (s.conns id).sent := by
      intro i st hm
      rw [reject_conns] at hm
      split at hm
      · split at hm
        · exact hm
        · rcases List.mem_append.1 hm with hm | hm
          · exact hm
          · cases List.mem_singleton.1 hm
      · exact hm
    have hpost : ∀ (i : Nat) (m : ServerMsg), (∀ st, m ≠ .initOk st) → ∀ st, .initOk st ∈ ((s.post i m).conns id).sent →
        .initOk st ∈ (s.conns id).sent := by
      intro i m hne st hm
      rw [post_sent] at hm
      split at hm
      · rcases List.mem_append.1 hm with hm | hm
        · exact hm
        · exact absurd (List.mem_singleton.1 hm).symm (hne st)
      · exact hm
    have hresp : ∀ (i : Nat) (info : ConnInfo) (m : ServerMsg), (∀ st, m ≠ .initOk st) → ∀ st, .initOk st ∈ ((s.respond i info m).conns id).sent →
        .initOk st ∈ (s.conns id).sent := by
      intro i info m hne st hm
      rw [respond_conns] at hm
      split at hm
      · split at hm
        · exact hm
        · rcases List.mem_append.1 hm with hm | hm
          · exact hm
          · exact absurd (List.mem_singleton.1 hm).symm (hne st)
      · exact hm
    cases a with
    | accept => exact .inl (hset s.nextConn (fun c => { c with phase := .waiting }) fun _ => rfl)
    | lose i => exact .inl (hset i (fun c => { c with lost := true }) fun _ => rfl)
    | receive i msg =>
      left
      simp only [step, receive]
      split
      · split
        · unfold initConn
          split
          · exact hrej i
          · split
            · exact hset i _ fun _ => rfl
            · exact hrej i
        · exact hend i
      · unfold process
        split
        · intro st hm
          rw [acknowledge_conns] at hm
          split at hm <;> exact hm
        · exact hset i _ fun _ => rfl
        · exact hset i _ fun _ => rfl
        · exact hend i
        · exact hend i
      · exact fun _ h => h
    | connected i ok =>
      simp only [step, connected]
      split
      · split
        · split
          · exact .inl (hend i)
          · rw [establish_conns]
            split
            · exact .inr (.inl ⟨_, rfl⟩)
            · exact .inl fun _ h => h
        · exact .inl (hrej i)
      · exact .inl fun _ h => h
    | reply i result =>
      left
      simp only [step, reply]
      split
      · split
        · exact hend i
        · split
          · exact hset i _ fun _ => rfl
          · exact hresp _ _ _ (by simp)
        · exact hresp _ _ _ (by simp)
        · exact fun _ h => h
      · exact fun _ h => h
    | giveUp i =>
      left
      simp only [step, giveUp]
      split
      · split
        · exact hend i
        · exact fun _ h => h
      · split
        · exact hend i
        · exact fun _ h => h
      · exact hend i
      · exact fun _ h => h
    | setStatus status =>
      left
      simp only [step, setStatus]
      split <;> exact fun _ h => h
    | statusStep task =>
      left
      simp only [step, statusStep]
      split
      · exact fun _ h => h
      · split
        · exact fun _ h => h
        · exact hpost _ _ (by simp)
    | notify ev p w => exact .inl fun _ h => h
    | send c j =>
      left
      simp only [step, send]
      split
      · split
        · split
          · exact fun _ h => h
          · exact hpost _ _ (by simp)
        · exact fun _ h => h
      · exact fun _ h => h
    | await_ c j =>
      left
      simp only [step, awaitAck]
      split <;> exact fun _ h => h
  intro st hm
  rcases key with key | key
  · exact hold (key st hm)
  · exact key

theorem greeted_run (useC : Bool) (token : Option String) (acts : List EvAct) (id : Nat) :
    ∀ st, .initOk st ∈ (((init useC token).run acts).conns id).sent → Past (((init useC token).run acts).conns id) := by
  induction acts using List.reverseRecOn with
  | nil => intro st hm; cases hm
  | append_singleton acts a ih => rw [run_snoc]; exact greeted_step a ih (fresh_run useC token acts _ (Nat.le_refl _))

end EvServer

namespace Link

theorem requests_step (s : Link) (a : LinkAct) : Link.requests s <+: Link.requests (s.step a) := by
  have hr : Link.requests s <+: Link.requests s := List.prefix_rfl
  cases a with
  | server act => exact hr
  | connect =>
    simp only [step, connect]
    split
    · next h _ => simp [Spec.Link.requests, h]
    · exact hr
  | client act =>
    cases hc : s.client with
    | none =>
      simp only [Spec.Link.requests, hc, Option.map_none, Option.getD_none]
      exact List.nil_prefix
    | some c =>
      by_cases hm : ∃ m, act = .receive m
      · obtain ⟨m, rfl⟩ := hm
        exact hr
      · have he : s.step (.client act) = { s with client := s.client.map (·.step act) } := by
          cases act <;> first | rfl | exact absurd ⟨_, rfl⟩ hm
        rw [he]
        simp only [Spec.Link.requests, hc, Option.map_some, Option.getD_some]
        exact ReqClient.sent_step c act
  | deliver last =>
    simp only [step, deliver]
    split
    · next c msg hc hm =>
      split
      · simp only [Spec.Link.requests, hc, Option.map_some, Option.getD_some]
        exact ReqClient.sent_step c (.receive _)
      · exact hr
    · exact hr

end Link
end HatEvent
