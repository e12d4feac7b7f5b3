import Verif.Proof.WireNotify

/-! # Acknowledgments from end to end -/

namespace HatEvent
open Spec EvServer

/-- The conversation of a notification. -/
def noteConv : ServerMsg → Option Nat
  | .events _ conv _ => some conv
  | _ => none

namespace EvServer

/-- What a connection is sent by an action. -/
inductive Posts (s s' : EvServer) (id : Nat) : Prop
  | nothing (h : (s'.conns id).sent = (s.conns id).sent) (hv : s.nextConv ≤ s'.nextConv)
  | other (m : ServerMsg) (h : (s'.conns id).sent = (s.conns id).sent ++ [m]) (hm : noteConv m = none) (hv : s.nextConv ≤ s'.nextConv)
  | note (call : Nat) (es : List Event) (h : (s'.conns id).sent = (s.conns id).sent ++ [.events call s.nextConv es]) (hv : s.nextConv < s'.nextConv)

theorem posts_step (s : EvServer) (a : EvAct) (id : Nat) : Posts s (s.step a) id := by
  have hset : ∀ i f, (∀ c : Conn, (f c).sent = c.sent) → Posts s (s.setConn i f) id := by
    intro i f hf
    refine .nothing ?_ (Nat.le_refl _)
    rw [setConn_conns]
    split
    · exact hf _
    · rfl
  have hend : ∀ i, Posts s (s.endLoop i) id := by
    intro i
    refine .nothing ?_ (Nat.le_refl _)
    rw [endLoop_conns]
    split <;> rfl
  have hrej : ∀ i, Posts s (s.reject i) id := by
    intro i
    unfold reject
    split
    · exact hend i
    · by_cases hi : id = i
      · subst hi
        refine .other .initError ?_ rfl (Nat.le_refl _)
        rw [setConn_self]
        simp only [post, setConn_self]
      · refine .nothing ?_ (Nat.le_refl _)
        rw [setConn_other _ hi]
        simp only [post, setConn_other _ hi]
  have hresp : ∀ i info m, noteConv m = none → Posts s (s.respond i info m) id := by
    intro i info m hm
    unfold respond
    split
    · exact hend i
    · by_cases hi : id = i
      · subst hi
        refine .other m ?_ hm (Nat.le_refl _)
        rw [setConn_self]
        simp only [post, setConn_self]
      · refine .nothing ?_ (Nat.le_refl _)
        rw [setConn_other _ hi]
        simp only [post, setConn_other _ hi]
  have hsame : Posts s s id := .nothing rfl (Nat.le_refl _)
  cases a with
  | accept =>
    refine .nothing ?_ (Nat.le_refl _)
    show ((s.setConn s.nextConn fun c => { c with phase := .waiting }).conns id).sent = _
    rw [setConn_conns]
    split <;> rfl
  | lose i => exact hset i (fun c => { c with lost := true }) fun _ => rfl
  | receive i msg =>
    simp only [step, receive]
    split
    · split
      · unfold initConn
        split
        · exact hrej i
        · split
          · exact hset i _ (by intro _; rfl)
          · exact hrej i
      · exact hend i
    · unfold process
      split
      · refine .nothing ?_ (Nat.le_refl _)
        rw [acknowledge_conns]
        split <;> rfl
      · exact hset i _ (by intro _; rfl)
      · exact hset i _ (by intro _; rfl)
      · exact hend i
      · exact hend i
    · exact hsame
  | connected i ok =>
    simp only [step, connected]
    split
    · next info hp =>
      split
      · split
        · exact hend i
        · by_cases hi : id = i
          · subst hi
            refine .other (.initOk s.status) ?_ rfl (Nat.le_refl _)
            rw [establish_conns, if_pos rfl]
          · refine .nothing ?_ (Nat.le_refl _)
            rw [establish_conns, if_neg hi]
      · exact hrej i
    · exact hsame
  | reply i r =>
    simp only [step, reply]
    split
    · split
      · exact hend i
      · split
        · exact hset i _ (by intro _; rfl)
        · exact hresp _ _ _ rfl
      · exact hresp _ _ _ rfl
      · exact hsame
    · exact hsame
  | giveUp i =>
    simp only [step, giveUp]
    split
    · split
      · exact hend i
      · exact hsame
    · split
      · exact hend i
      · exact hsame
    · exact hend i
    · exact hsame
  | setStatus st =>
    simp only [step, setStatus]
    split
    · exact hsame
    · exact .nothing rfl (Nat.le_refl _)
  | statusStep task =>
    simp only [step, statusStep]
    split
    · exact hsame
    · next i rest ht =>
      split
      · exact .nothing rfl (Nat.le_refl _)
      · by_cases hi : id = i
        · exact .other (.status s.status) (by rw [post_sent, if_pos hi]) rfl (Nat.le_refl _)
        · exact .nothing (by rw [post_sent, if_neg hi]) (Nat.le_refl _)
  | notify ev p w => exact .nothing rfl (Nat.le_refl _)
  | send c i =>
    simp only [step, send]
    split
    · next t hf hu =>
      split
      · split
        · exact .nothing rfl (Nat.le_refl _)
        · by_cases hi : id = i
          · refine .note c t.2 ?_ (Nat.lt_succ_self _)
            show ((s.post i _).conns id).sent = _
            rw [post_sent, if_pos hi]
          · refine .nothing ?_ (Nat.le_succ _)
            show ((s.post i _).conns id).sent = _
            rw [post_sent, if_neg hi]
      · exact hsame
    · exact hsame
  | await_ c i =>
    simp only [step, awaitAck]
    split
    · exact .nothing rfl (Nat.le_refl _)
    · exact hsame

/-- Notifications of a connection have different conversations. -/
structure NotesFresh (s : EvServer) (id : Nat) : Prop where
  nodup : ((s.conns id).sent.filterMap noteConv).Nodup
  old : ∀ v ∈ (s.conns id).sent.filterMap noteConv, v < s.nextConv

theorem notesFresh_run (useC : Bool) (token : Option String) (acts : List EvAct) (id : Nat) : NotesFresh ((init useC token).run acts) id := by
  induction acts using List.reverseRecOn with
  | nil => exact ⟨List.nodup_nil, fun v hv => by cases hv⟩
  | append_singleton acts a ih =>
    rw [run_snoc]
    cases posts_step ((init useC token).run acts) a id with
    | nothing h hv => exact ⟨by rw [h]; exact ih.nodup, fun v hm => by rw [h] at hm; exact Nat.lt_of_lt_of_le (ih.old v hm) hv⟩
    | other m h hm hv =>
      have e : (((init useC token).run acts).step a |>.conns id).sent.filterMap noteConv = (((init useC token).run acts).conns id).sent.filterMap noteConv := by
        rw [h, List.filterMap_append]
        simp [hm]
      exact ⟨by rw [e]; exact ih.nodup, fun v hm => by rw [e] at hm; exact Nat.lt_of_lt_of_le (ih.old v hm) hv⟩
    | note call es h hv =>
      have e : (((init useC token).run acts).step a |>.conns id).sent.filterMap noteConv =
          (((init useC token).run acts).conns id).sent.filterMap noteConv ++ [((init useC token).run acts).nextConv] := by
        rw [h, List.filterMap_append]
        simp [noteConv]
      refine ⟨?_, fun v hm => ?_⟩
      · rw [e]
        refine List.Nodup.append ih.nodup (List.nodup_singleton _) ?_
        intro v h1 h2
        rw [List.mem_singleton] at h2
        have := ih.old v h1
        omega
      · rw [e, List.mem_append, List.mem_singleton] at hm
        rcases hm with hm | hm
        · exact Nat.lt_trans (ih.old v hm) hv
        · omega

/-- Acknowledgments of a connection were received on it. -/
theorem acks_step (s : EvServer) (a : EvAct) (id v : Nat) (h : v ∈ ((s.step a).conns id).acks) :
    v ∈ (s.conns id).acks ∨ (a = .receive id (.ack v) ∧ ∃ info, (s.conns id).phase = .ready info) := by
  revert h
  have hset : ∀ i f, (∀ c : Conn, (f c).acks = c.acks) → v ∈ ((s.setConn i f).conns id).acks → v ∈ (s.conns id).acks := by
    intro i f hf
    rw [setConn_conns]
    split
    · rw [hf]; exact fun h => h
    · exact fun h => h
  have hend : ∀ i, v ∈ ((s.endLoop i).conns id).acks → v ∈ (s.conns id).acks := by
    intro i
    rw [endLoop_conns]
    split <;> exact fun h => h
  have hpost : ∀ i m, ((s.post i m).conns id).acks = (s.conns id).acks := by
    intro i m
    simp only [post]
    rw [setConn_conns]
    split <;> rfl
  have hpset : ∀ i m f, (∀ c : Conn, (f c).acks = c.acks) → v ∈ (((s.post i m).setConn i f).conns id).acks → v ∈ (s.conns id).acks := by
    intro i m f hf
    rw [setConn_conns]
    split
    · rw [hf, hpost]; exact fun h => h
    · rw [hpost]; exact fun h => h
  have hrej : ∀ i, v ∈ ((s.reject i).conns id).acks → v ∈ (s.conns id).acks := by
    intro i
    unfold reject
    split
    · exact hend i
    · exact hpset _ _ _ fun _ => rfl
  have hresp : ∀ i info m, v ∈ ((s.respond i info m).conns id).acks → v ∈ (s.conns id).acks := by
    intro i info m
    unfold respond
    split
    · exact hend i
    · exact hpset _ _ _ fun _ => rfl
  cases a with
  | accept => exact fun h => .inl (hset s.nextConn (fun c => { c with phase := .waiting }) (fun _ => rfl) h)
  | lose i => exact fun h => .inl (hset i (fun c => { c with lost := true }) (fun _ => rfl) h)
  | receive i msg =>
    simp only [step, receive]
    split
    · split
      · unfold initConn
        split
        · exact fun h => .inl (hrej _ h)
        · split
          · exact fun h => .inl (hset i _ (by intro _; rfl) h)
          · exact fun h => .inl (hrej _ h)
      · exact fun h => .inl (hend _ h)
    · next info hp =>
      unfold process
      split
      · next conv =>
        rw [acknowledge_conns]
        split
        · next hi =>
          subst hi
          intro h
          simp only [List.mem_append, List.mem_singleton] at h
          rcases h with h | rfl
          · exact .inl h
          · exact .inr ⟨rfl, info, hp⟩
        · exact fun h => .inl h
      · exact fun h => .inl (hset i _ (by intro _; rfl) h)
      · exact fun h => .inl (hset i _ (by intro _; rfl) h)
      · exact fun h => .inl (hend _ h)
      · exact fun h => .inl (hend _ h)
    · exact fun h => .inl h
  | connected i ok =>
    simp only [step, connected]
    split
    · split
      · split
        · exact fun h => .inl (hend _ h)
        · intro h
          rw [establish_conns] at h
          split at h <;> exact .inl h
      · exact fun h => .inl (hrej _ h)
    · exact fun h => .inl h
  | reply i r =>
    simp only [step, reply]
    split
    · split
      · exact fun h => .inl (hend _ h)
      · split
        · exact fun h => .inl (hset i _ (by intro _; rfl) h)
        · exact fun h => .inl (hresp _ _ _ h)
      · exact fun h => .inl (hresp _ _ _ h)
      · exact fun h => .inl h
    · exact fun h => .inl h
  | giveUp i =>
    simp only [step, giveUp]
    split
    · split
      · exact fun h => .inl (hend _ h)
      · exact fun h => .inl h
    · split
      · exact fun h => .inl (hend _ h)
      · exact fun h => .inl h
    · exact fun h => .inl (hend _ h)
    · exact fun h => .inl h
  | setStatus st =>
    simp only [step, setStatus]
    split <;> exact fun h => .inl h
  | statusStep task =>
    simp only [step, statusStep]
    split
    · exact fun h => .inl h
    · split
      · exact fun h => .inl h
      · intro h
        left
        rwa [show ∀ (s' : EvServer) i m, s'.conns = s.conns → ((s'.post i m).conns id).acks = (s.conns id).acks from fun s' i m e => by
          simp only [post]
          rw [setConn_conns, e]
          split <;> rfl] at h
        rfl
  | notify ev p w => exact fun h => .inl h
  | send c i =>
    simp only [step, send]
    split
    · split
      · split
        · exact fun h => .inl h
        · intro h
          left
          change v ∈ ((s.post i _).conns id).acks at h
          rwa [hpost] at h
      · exact fun h => .inl h
    · exact fun h => .inl h
  | await_ c i =>
    simp only [step, awaitAck]
    split <;> exact fun h => .inl h

end EvServer

namespace ReqClient

/-- Where a new acknowledgment comes from. -/
theorem ack_from (c : ReqClient) (a : ReqAct) (v : Nat) (h : .ack v ∈ (c.step a).sent) :
    .ack v ∈ c.sent ∨ ∃ es, c.loop = .calling (.notify v es false) := by
  revert h
  have hreq : ∀ (f : Nat → ClientMsg) w, (∀ n, f n ≠ .ack v) → .ack v ∈ (c.request f w).sent → .ack v ∈ c.sent := by
    intro f w hf
    unfold request
    split
    · intro h
      rcases List.mem_append.1 h with h | h
      · exact h
      · exact absurd (List.mem_singleton.1 h).symm (hf _)
    · exact fun h => h
  cases a with
  | register events w => exact fun h => .inl (hreq _ _ (by simp) h)
  | query params => exact fun h => .inl (hreq _ _ (by simp) h)
  | receive msg =>
    simp only [step, receive]
    split
    · unfold process
      split <;> exact fun h => .inl h
    · exact fun h => .inl h
  | callbackDone ok =>
    simp only [step, callbackDone]
    split
    · next msg hl =>
      split
      · unfold afterCallback
        split
        · next conv es =>
          unfold acknowledge
          split
          · intro h
            rcases List.mem_append.1 h with h | h
            · exact .inl h
            · cases List.mem_singleton.1 h
              exact .inr ⟨es, hl⟩
          · exact fun h => .inl h
        · exact fun h => .inl h
      · exact fun h => .inl h
    · exact fun h => .inl h
  | _ =>
    simp only [step, start, sendDone, resume, cancel, stop, close, setCall]
    repeat' split
    all_goals exact fun h => .inl h

/-- Where a callback comes from. -/
theorem calling_from (c : ReqClient) (a : ReqAct) (msg : PeerMsg) (h : (c.step a).loop = .calling msg) :
    c.loop = .calling msg ∨ a = .receive msg := by
  revert h
  have hreq : ∀ (f : Nat → ClientMsg) w, (c.request f w).loop = .calling msg → c.loop = .calling msg := by
    intro f w
    unfold request
    split <;> exact fun h => h
  cases a with
  | register events w => exact fun h => .inl (hreq _ _ h)
  | query params => exact fun h => .inl (hreq _ _ h)
  | receive m =>
    simp only [step, receive]
    split
    · unfold process
      split
      · intro h; cases h; exact .inr rfl
      · intro h; cases h; exact .inr rfl
      · exact fun h => .inl h
      · exact fun h => by cases h
    · exact fun h => .inl h
  | callbackDone ok =>
    simp only [step, callbackDone]
    split
    · split
      · unfold afterCallback
        split
        · unfold acknowledge
          split <;> exact fun h => by cases h
        · exact fun h => by cases h
      · exact fun h => by cases h
    · exact fun h => .inl h
  | _ =>
    simp only [step, start, sendDone, resume, cancel, stop, close, setCall]
    repeat' split
    all_goals first | exact fun h => .inl h | exact fun h => by cases h

end ReqClient

/-- What acknowledgments tell. -/
structure AcksTell (s : Wire) : Prop where
  received : ∀ v ∈ s.conn.acks, .ack v ∈ Link.requests s.link
  read : ∀ c, s.link.client = some c → ∀ v, (.ack v ∈ c.sent ∨ ∃ es, c.loop = .calling (.notify v es false)) →
    ∃ call es, .events call v es ∈ s.conn.sent.take s.link.read

/-- A client that is not connected yet. -/
theorem Wire.client_none {s : Wire} (h : s.link.client = none) (a : WireAct) :
    (s.step a).link.client = none ∨ ∃ status, (s.step a).link.client = some (ReqClient.init status) := by
  cases a with
  | server act =>
    simp only [step, acts]
    split <;> exact .inl h
  | connect =>
    show s.link.connect.client = none ∨ ∃ status, s.link.connect.client = some (ReqClient.init status)
    unfold Link.connect
    split
    · exact .inr ⟨_, rfl⟩
    · exact .inl h
  | client act => left; cases act <;> simp [step, acts, Link.run, Link.step, Link.clientStep, h]
  | arrive =>
    simp only [step, acts]
    split <;> exact .inl h
  | deliver =>
    left
    show (s.link.deliver _).client = none
    simp [Link.deliver, h]
  | notice =>
    simp only [step, acts]
    split
    · left; simp [Link.run, Link.step, Link.clientStep, h]
    · exact .inl h

theorem acksTell_step {s : Wire} (a : WireAct) (h : AcksTell s) : AcksTell (s.step a) := by
  constructor
  · intro v hv
    have hkeep : v ∈ s.conn.acks → .ack v ∈ Link.requests (s.step a).link := fun h' => (Wire.requests_step s a).subset (h.received v h')
    by_cases ha : a = .arrive
    · subst ha
      cases hr : s.request with
      | none =>
        refine hkeep ?_
        simpa only [Wire.conn, Wire.step, Wire.acts, hr, Link.run, List.foldl_nil] using hv
      | some msg =>
        have e : (s.step .arrive).conn = (s.link.server.step (.receive s.link.id msg)).conns s.link.id := by
          simp only [Wire.conn, Wire.step, Wire.acts, hr]; rfl
        rw [e] at hv
        rcases acks_step _ _ _ _ hv with h' | ⟨h', _⟩
        · exact hkeep h'
        · cases h'
          have := List.mem_of_getElem? (Wire.request_some hr).2
          exact (Wire.requests_step s .arrive).subset this
    · refine hkeep ?_
      unfold Wire.conn at hv
      rw [Wire.id_step] at hv
      rcases Wire.server_step s a with e | ⟨act, e, hno, _⟩
      · rw [e] at hv; exact hv
      · rw [e] at hv
        rcases acks_step _ _ _ _ hv with h' | ⟨h', info, hp⟩
        · exact h'
        · exact absurd h' (hno ha (by unfold Wire.conn; rw [hp]; exact nofun) _)
  · intro c' hc' v hv
    cases hc : s.link.client with
    | none =>
      rcases Wire.client_none hc a with h' | ⟨status, h'⟩
      · rw [h'] at hc'; cases hc'
      · rw [h'] at hc'
        cases hc'
        rcases hv with hv | ⟨es, hv⟩ <;> cases hv
    | some c =>
      have hn := Wire.client_step hc a
      rw [hn] at hc'
      obtain rfl := Option.some.inj hc'
      have hsub : ∀ k, s.link.read ≤ k → s.conn.sent.take s.link.read ⊆ (s.step a).conn.sent.take k := by
        intro k hk m hm
        obtain ⟨r, hr⟩ := Wire.sent_step s a
        rw [← hr, List.take_append]
        exact List.mem_append_left _ ((List.take_prefix_take_left hk).subset hm)
      have hle : s.link.read ≤ (s.step a).link.read := by
        rcases Wire.read_step hc a with ⟨_, _, e⟩ | ⟨_, e⟩ <;> omega
      have hold : (.ack v ∈ c.sent ∨ ∃ es, c.loop = .calling (.notify v es false)) →
          ∃ call es, .events call v es ∈ (s.step a).conn.sent.take (s.step a).link.read := by
        intro h'
        obtain ⟨call, es, hm⟩ := h.read c hc v h'
        exact ⟨call, es, hsub _ hle hm⟩
      rcases Wire.clientActs_cases s a with e | ⟨act, e⟩
      · rw [e] at hv; exact hold hv
      · rw [e] at hv
        rcases hv with hv | ⟨es, hv⟩
        · exact hold (ReqClient.ack_from c act v hv)
        · rcases ReqClient.calling_from c act _ hv with h' | rfl
          · exact hold (.inr ⟨es, h'⟩)
          · obtain ⟨ha, c0, msg, _, hm, _, hp⟩ := Wire.clientActs_receive e
            rcases Wire.read_step hc a with ⟨_, _, er⟩ | ⟨hno, _⟩
            · cases msg with
              | events call conv es' =>
                simp only [ServerMsg.toPeer, PeerMsg.notify.injEq] at hp
                obtain ⟨rfl, _, _⟩ := hp
                refine ⟨call, es', ?_⟩
                rw [er]
                obtain ⟨r, hr⟩ := Wire.sent_step s a
                rw [← hr, List.take_append]
                refine List.mem_append_left _ ?_
                exact List.mem_of_getElem? (i := s.link.read) (by rw [List.getElem?_take_of_lt (by omega)]; exact hm)
              | _ => cases hp
            · exact absurd e (hno _)

theorem acksTell_run (id : Nat) (useC : Bool) (token : Option String) (acts : List WireAct) : AcksTell ((Wire.init id useC token).run acts) := by
  induction acts using List.reverseRecOn with
  | nil => exact ⟨(fun v hv => by cases hv), (fun c hc => by cases hc)⟩
  | append_singleton acts a ih =>
    rw [Wire.run_snoc]
    exact acksTell_step a ih

/-- The client has a history in which it receives only what the server has sent. -/
theorem wire_reached (id : Nat) (useC : Bool) (token : Option String) (acts : List WireAct) {c : ReqClient}
    (hc : ((Wire.init id useC token).run acts).link.client = some c) :
    ∃ status cacts, c = (ReqClient.init status).run cacts ∧ ∀ v es b, .receive (.notify v es b) ∈ cacts →
      ∃ call, .events call v es ∈ ((Wire.init id useC token).run acts).conn.sent := by
  induction acts using List.reverseRecOn generalizing c with
  | nil => cases hc
  | append_singleton acts a ih =>
    rw [Wire.run_snoc] at hc ⊢
    generalize (Wire.init id useC token).run acts = s at *
    cases h0 : s.link.client with
    | none =>
      rcases Wire.client_none h0 a with h' | ⟨status, h'⟩
      · rw [h'] at hc; cases hc
      · rw [h'] at hc
        cases hc
        exact ⟨status, [], rfl, fun v es b hm => by cases hm⟩
    | some c0 =>
      rw [Wire.client_step h0 a] at hc
      obtain rfl := Option.some.inj hc
      obtain ⟨status, cacts, rfl, h⟩ := ih h0
      refine ⟨status, cacts ++ s.clientActs a, by rw [ReqClient.run_append], fun v es b hm => ?_⟩
      rcases List.mem_append.1 hm with hm | hm
      · obtain ⟨call, h'⟩ := h v es b hm
        exact ⟨call, (Wire.sent_step s a).subset h'⟩
      · rcases Wire.clientActs_cases s a with e | ⟨act, e⟩
        · rw [e] at hm; cases hm
        · rw [e, List.mem_singleton] at hm
          subst hm
          obtain ⟨_, _, msg, _, hmsg, _, hp⟩ := Wire.clientActs_receive e
          cases msg with
          | events call conv es' =>
            simp only [ServerMsg.toPeer, PeerMsg.notify.injEq] at hp
            obtain ⟨rfl, rfl, _⟩ := hp
            exact ⟨call, (Wire.sent_step s a).subset (List.mem_of_getElem? hmsg)⟩
          | _ => cases hp

end HatEvent
