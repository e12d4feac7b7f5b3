import Verif.Proof.WireRun
import Verif.Spec.Wire
import Verif.Proof.Schedule

/-! # Steps of a client and a server -/

namespace HatEvent
open Spec EvServer

/-- Something that goes on until it leads to something else, which a certain action does. -/
theorem until_done {α : Type} {acts : Nat → α} {A : α → Prop} {P Q : Nat → Prop} {m : Nat} (hP : P m)
    (hstep : ∀ p, m ≤ p → P p → P (p + 1) ∨ Q (p + 1)) (hoft : ∃ p, m ≤ p ∧ A (acts p))
    (hdoes : ∀ p, m ≤ p → P p → A (acts p) → Q (p + 1)) : ∃ p, m ≤ p ∧ Q p := by
  obtain ⟨n, hn, ha⟩ := hoft
  have key : ∀ p, m ≤ p → P p ∨ ∃ q, m ≤ q ∧ Q q := by
    intro p hp
    induction p, hp using Nat.le_induction with
    | base => exact .inl hP
    | succ p hp ih =>
      rcases ih with h | h
      · rcases hstep p hp h with h | h
        · exact .inl h
        · exact .inr ⟨p + 1, by omega, h⟩
      · exact .inr h
  rcases key n hn with h | h
  · exact ⟨n + 1, by omega, hdoes n hn h ha⟩
  · exact h

namespace ReqClient

theorem ended_step {s : ReqClient} (a : ReqAct) (h : s.loop = .ended) : (s.step a).loop = .ended := by
  have hreq : ∀ f w, (s.request f w).loop = .ended := by
    intro f w
    unfold request
    split <;> exact h
  cases a with
  | start => simp only [step, start, h]
  | register events w => exact hreq _ _
  | query params => exact hreq _ _
  | sendDone j =>
    simp only [step, sendDone]
    split
    · split
      · split <;> exact h
      · exact h
    · exact h
  | resume j => simp only [step, resume]; split <;> exact h
  | cancel j => simp only [step, cancel]; split <;> exact h
  | receive msg => simp only [step, receive, h]
  | callbackDone ok => simp only [step, callbackDone, h]
  | close => simp only [step, close, h]
  | stop =>
    simp only [step, stop, h]
    split <;> exact h

/-- A waiting receive loop goes on waiting until it gets a message or ends. -/
theorem receiving_step {s : ReqClient} (a : ReqAct) (h : s.loop = .receiving) (ha : ∀ m, a ≠ .receive m) :
    (s.step a).loop = .receiving ∨ (s.step a).loop = .ended := by
  have hreq : ∀ f w, (s.request f w).loop = .receiving := by
    intro f w
    unfold request
    split <;> exact h
  cases a with
  | start => left; simp only [step, start, h]
  | register events w => exact .inl (hreq _ _)
  | query params => exact .inl (hreq _ _)
  | sendDone j =>
    left
    simp only [step, sendDone]
    split
    · split
      · split <;> exact h
      · exact h
    · exact h
  | resume j => left; simp only [step, resume]; split <;> exact h
  | cancel j => left; simp only [step, cancel]; split <;> exact h
  | receive msg => exact absurd rfl (ha msg)
  | callbackDone ok => left; simp only [step, callbackDone, h]
  | close => left; simp only [step, close, h]
  | stop =>
    simp only [step, stop, h]
    split
    · exact .inl h
    · exact .inr rfl

/-- A callback goes on until it is done or the loop ends. -/
theorem calling_step {s : ReqClient} (a : ReqAct) {msg : PeerMsg} (h : s.loop = .calling msg) :
    (s.step a).loop = .calling msg ∨ (s.step a).loop = .receiving ∨ (s.step a).loop = .ended := by
  have hreq : ∀ f w, (s.request f w).loop = .calling msg := by
    intro f w
    unfold request
    split <;> exact h
  cases a with
  | start => left; simp only [step, start, h]
  | register events w => exact .inl (hreq _ _)
  | query params => exact .inl (hreq _ _)
  | sendDone j =>
    left
    simp only [step, sendDone]
    split
    · split
      · split <;> exact h
      · exact h
    · exact h
  | resume j => left; simp only [step, resume]; split <;> exact h
  | cancel j => left; simp only [step, cancel]; split <;> exact h
  | receive m => left; simp only [step, receive, h]
  | callbackDone ok =>
    right
    simp only [step, callbackDone, h]
    split
    · unfold afterCallback
      split
      · unfold acknowledge
        split
        · exact .inl rfl
        · exact .inr rfl
      · exact .inl rfl
    · exact .inr rfl
  | close => left; simp only [step, close, h]
  | stop =>
    simp only [step, stop, h]
    split
    · exact .inl h
    · exact .inr (.inr rfl)

theorem calling_done {s : ReqClient} {msg : PeerMsg} (h : s.loop = .calling msg) (ok : Bool) :
    (s.step (.callbackDone ok)).loop = .receiving ∨ (s.step (.callbackDone ok)).loop = .ended := by
  simp only [step, callbackDone, h]
  split
  · unfold afterCallback
    split
    · unfold acknowledge
      split
      · exact .inl rfl
      · exact .inr rfl
    · exact .inl rfl
  · exact .inr rfl

theorem spawned_stays {s : ReqClient} (a : ReqAct) (h : s.loop = .spawned) :
    (s.step a).loop = .spawned ∨ (s.step a).loop = .receiving ∨ (s.step a).loop = .never := by
  have hreq : ∀ f w, (s.request f w).loop = .spawned := by
    intro f w
    unfold request
    split <;> exact h
  cases a with
  | start => right; left; simp only [step, start, h]
  | register events w => exact .inl (hreq _ _)
  | query params => exact .inl (hreq _ _)
  | sendDone j =>
    left
    simp only [step, sendDone]
    split
    · split
      · split <;> exact h
      · exact h
    · exact h
  | resume j => left; simp only [step, resume]; split <;> exact h
  | cancel j => left; simp only [step, cancel]; split <;> exact h
  | receive m => left; simp only [step, receive, h]
  | callbackDone ok => left; simp only [step, callbackDone, h]
  | close => right; right; simp only [step, close, h]
  | stop =>
    left
    simp only [step, stop, h]
    split <;> exact h

/-- A call that goes on. -/
inductive Going (conv : Nat) : CallPhase → Prop
  | sending : Going conv (.sending conv true)
  | waiting : Going conv (.waiting conv)
  | resolved (e : CallEnd) : Going conv (.resolved conv e)

theorem going_step {s : ReqClient} (a : ReqAct) {k conv : Nat} (hk : k < s.nextCall) (h : Going conv (s.calls k)) :
    Going conv ((s.step a).calls k) ∨ ∃ e, (s.step a).calls k = .finished e := by
  have hm := moves_step s a k
  generalize (s.step a).calls k = p at hm
  cases hm with
  | stay => exact .inl h
  | made h1 p w ha hp => omega
  | wait c h1 ho =>
    rw [h1] at h
    cases h
    exact .inl .waiting
  | fail c h1 ho => exact .inr ⟨_, rfl⟩
  | sent c h1 => exact .inr ⟨_, rfl⟩
  | resume c e h1 => exact .inr ⟨_, rfl⟩
  | cancel h1 h2 => exact .inr ⟨_, rfl⟩
  | answer c x h1 =>
    rw [h1] at h
    cases h
    exact .inl (.resolved _)
  | close a c h1 h2 =>
    rw [h1] at h
    cases h
    exact .inl (.resolved _)

end ReqClient

namespace EvServer

theorem lost_mono (s : EvServer) (a : EvAct) (id : Nat) (h : (s.conns id).lost = true) : ((s.step a).conns id).lost = true := by
  by_cases hl : a = .lose id
  · subst hl
    show ((s.setConn id fun c => { c with lost := true }).conns id).lost = true
    rw [setConn_self]
  by_cases ha : a.about = some id
  · cases a with
    | receive i msg => exact (calm_receive s i msg).lost id h
    | connected i ok =>
      simp only [step, connected]
      split
      · split
        · split
          · exact (calm_endLoop s i).lost id h
          · rw [establish_conns]
            split <;> exact h
        · exact (calm_reject s i).lost id h
      · exact h
    | reply i r => exact (calm_reply s i r).lost id h
    | giveUp i => exact (calm_giveUp s i).lost id h
    | _ => cases ha
  · rw [lost_other ha hl]; exact h

theorem ready_step {s : EvServer} {a : EvAct} {id : Nat} {info : ConnInfo} (h : (s.conns id).phase = .ready info)
    (ha : ∀ msg, a ≠ .receive id msg) (hf : (s.conns s.nextConn).phase = .absent) :
    ((s.step a).conns id).phase = .ready info ∨ (((s.step a).conns id).phase = .ended ∧ ((s.step a).conns id).lost = true) := by
  by_cases hab : a.about = some id
  · cases a with
    | receive i msg =>
      cases hab
      exact absurd rfl (ha msg)
    | connected i ok =>
      cases hab
      left
      simp only [step, connected, h]
    | reply i r =>
      cases hab
      left
      simp only [step, reply, h]
    | giveUp i =>
      cases hab
      simp only [step, giveUp, h]
      split
      · right; rw [endLoop_conns, if_pos rfl]; exact ⟨rfl, rfl⟩
      · exact .inl h
    | _ => cases hab
  · left
    rw [phase_other hab]
    · exact h
    · rintro rfl rfl
      rw [hf] at h
      cases h

theorem busy_step {s : EvServer} {a : EvAct} {id : Nat} {info : ConnInfo} {msg : ClientMsg} (h : (s.conns id).phase = .busy info msg)
    (hf : (s.conns s.nextConn).phase = .absent) :
    ((s.step a).conns id).phase = .busy info msg ∨ ((s.step a).conns id).phase = .ready info ∨ (((s.step a).conns id).phase = .ended ∧ ((s.step a).conns id).lost = true) := by
  by_cases hab : a.about = some id
  · cases a with
    | receive i msg =>
      cases hab
      left
      simp only [step, receive, h]
    | connected i ok =>
      cases hab
      left
      simp only [step, connected, h]
    | reply i r =>
      cases hab
      have hend : ((s.endLoop id).conns id).phase = .ended ∧ ((s.endLoop id).conns id).lost = true := by rw [endLoop_conns, if_pos rfl]; exact ⟨rfl, rfl⟩
      have hresp : ∀ m, ((s.respond id info m).conns id).phase = .ready info ∨ (((s.respond id info m).conns id).phase = .ended ∧ ((s.respond id info m).conns id).lost = true) := by
        intro m
        rw [respond_conns, if_pos rfl]
        split
        · exact .inr ⟨rfl, rfl⟩
        · exact .inl rfl
      simp only [step, reply, h]
      split
      · exact .inr (.inr hend)
      · split
        · right; left; rw [setConn_self]
        · exact .inr (hresp _)
      · exact .inr (hresp _)
      · exact .inl h
    | giveUp i =>
      cases hab
      left
      simp only [step, giveUp, h]
    | _ => cases hab
  · left
    rw [phase_other hab]
    · exact h
    · rintro rfl rfl
      rw [hf] at h
      cases h

theorem busy_reply {s : EvServer} {id : Nat} {info : ConnInfo} {msg : ClientMsg} {r : Handled} (h : (s.conns id).phase = .busy info msg)
    (hr : ReplyFits msg r) : ((s.step (.reply id r)).conns id).phase = .ready info ∨ (((s.step (.reply id r)).conns id).phase = .ended ∧ ((s.step (.reply id r)).conns id).lost = true) := by
  have hend : ((s.endLoop id).conns id).phase = .ended ∧ ((s.endLoop id).conns id).lost = true := by rw [endLoop_conns, if_pos rfl]; exact ⟨rfl, rfl⟩
  have hresp : ∀ m, ((s.respond id info m).conns id).phase = .ready info ∨ (((s.respond id info m).conns id).phase = .ended ∧ ((s.respond id info m).conns id).lost = true) := by
    intro m
    rw [respond_conns, if_pos rfl]
    split
    · exact .inr ⟨rfl, rfl⟩
    · exact .inl rfl
  simp only [step, reply, h]
  cases hr with
  | raised msg => exact .inr hend
  | register conv evs last r =>
    dsimp only
    split
    · left; rw [setConn_self]
    · exact hresp _
  | query conv params r => exact hresp _

end EvServer

namespace Wire

/-- What happens to the client. -/
def clientActs (s : Wire) : WireAct → List ReqAct
  | .client (.receive _) => []
  | .client act => [act]
  | .deliver =>
    match s.link.client, s.conn.sent[s.link.read]? with
    | some c, some msg =>
      match c.loop with
      | .receiving => [.receive (msg.toPeer s.lastFlag)]
      | _ => []
    | _, _ => []
  | .notice => if s.closed then [.close] else []
  | _ => []

theorem client_step {s : Wire} {c : ReqClient} (hc : s.link.client = some c) (a : WireAct) :
    (s.step a).link.client = some (c.run (s.clientActs a)) := by
  cases a with
  | server act =>
    simp only [step, acts, clientActs]
    split <;> exact hc
  | connect =>
    simp only [step, acts, clientActs, Link.run, List.foldl_cons, List.foldl_nil, Link.step, Link.connect, hc]
    rfl
  | client act =>
    cases act <;> simp [step, acts, clientActs, Link.run, Link.step, Link.clientStep, hc, ReqClient.run]
  | arrive =>
    simp only [step, acts, clientActs]
    split <;> exact hc
  | deliver =>
    simp only [step, acts, clientActs, Link.run, List.foldl_cons, List.foldl_nil, Link.step, Link.deliver, hc, conn]
    cases hm : (s.link.server.conns s.link.id).sent[s.link.read]? with
    | none => exact hc
    | some msg => cases hl : c.loop <;> simp [hl, hc, ReqClient.run, ReqClient.step]
  | notice =>
    simp only [step, acts, clientActs]
    split
    · simp [Link.run, Link.step, Link.clientStep, hc, ReqClient.run]
    · exact hc

/-- At most one thing happens to the client. -/
theorem clientActs_cases (s : Wire) (a : WireAct) : s.clientActs a = [] ∨ ∃ act, s.clientActs a = [act] := by
  cases a with
  | client act => cases act <;> simp [clientActs]
  | deliver =>
    simp only [clientActs]
    split
    · split <;> simp
    · simp
  | notice =>
    simp only [clientActs]
    split <;> simp
  | _ => exact .inl rfl

/-- The client gets a message only by `deliver`. -/
theorem clientActs_receive {s : Wire} {a : WireAct} {m : PeerMsg} (h : s.clientActs a = [.receive m]) :
    a = .deliver ∧ ∃ c msg, s.link.client = some c ∧ s.conn.sent[s.link.read]? = some msg ∧ c.loop = .receiving ∧ m = msg.toPeer s.lastFlag := by
  cases a with
  | client act => cases act <;> simp [clientActs] at h
  | deliver =>
    refine ⟨rfl, ?_⟩
    simp only [clientActs] at h
    split at h
    · next c msg hc hm =>
      split at h
      · next hl =>
        refine ⟨c, msg, hc, hm, hl, ?_⟩
        simpa using h.symm
      · cases h
    · cases h
  | notice =>
    simp only [clientActs] at h
    split at h <;> simp at h
  | _ => cases h

theorem read_step {s : Wire} {c : ReqClient} (hc : s.link.client = some c) (a : WireAct) :
    (∃ m, s.clientActs a = [.receive m] ∧ (s.step a).link.read = s.link.read + 1) ∨
      ((∀ m, s.clientActs a ≠ [.receive m]) ∧ (s.step a).link.read = s.link.read) := by
  by_cases hd : a = .deliver
  · subst hd
    simp only [step, acts, clientActs, Link.run, List.foldl_cons, List.foldl_nil, Link.step, Link.deliver, hc, conn]
    cases hm : (s.link.server.conns s.link.id).sent[s.link.read]? with
    | none => right; simp
    | some msg => cases hl : c.loop <;> simp [hl]
  · refine .inr ⟨fun m h => hd (clientActs_receive h).1, ?_⟩
    cases a with
    | server act =>
      simp only [step, acts]
      split <;> rfl
    | connect =>
      show s.link.connect.read = _
      simp only [Link.connect, hc]
    | client act => cases act <;> rfl
    | arrive =>
      simp only [step, acts]
      split <;> rfl
    | deliver => exact absurd rfl hd
    | notice =>
      simp only [step, acts]
      split <;> rfl

/-- What happens to the server. -/
theorem server_step (s : Wire) (a : WireAct) : (s.step a).link.server = s.link.server ∨
    ∃ act, (s.step a).link.server = s.link.server.step act ∧ (a ≠ .arrive → s.conn.phase ≠ .waiting → ∀ msg, act ≠ .receive s.link.id msg) ∧
      (a = .server act ∨ (∃ msg, act = .receive s.link.id msg) ∨ act = .lose s.link.id) := by
  cases a with
  | server act =>
    simp only [step, acts]
    split
    · next hp =>
      refine .inr ⟨act, rfl, fun _ hw msg he => ?_, .inl rfl⟩
      subst he
      simp only [permits, if_true] at hp
      split at hp
      · exact hw (by assumption)
      · cases hp
    · exact .inl rfl
  | connect =>
    left
    show (s.link.connect).server = _
    unfold Link.connect
    split <;> rfl
  | client act => left; cases act <;> rfl
  | arrive =>
    simp only [step, acts]
    split
    · exact .inr ⟨.receive s.link.id _, rfl, fun h => (h rfl).elim, .inr (.inl ⟨_, rfl⟩)⟩
    · exact .inl rfl
  | deliver =>
    left
    show (s.link.deliver s.lastFlag).server = _
    unfold Link.deliver
    split
    · split <;> rfl
    · rfl
  | notice =>
    simp only [step, acts]
    split
    · exact .inr ⟨.lose s.link.id, rfl, fun _ _ _ h => (by cases h), .inr (.inr rfl)⟩
    · exact .inl rfl

theorem id_step (s : Wire) (a : WireAct) : (s.step a).link.id = s.link.id := by
  have : ∀ (l : List LinkAct) (x : Link), (x.run l).id = x.id := by
    intro l
    induction l with
    | nil => intro x; rfl
    | cons b l ih => intro x; exact (ih _).trans (Link.id_step x b)
  exact this _ _

theorem sent_step (s : Wire) (a : WireAct) : s.conn.sent <+: (s.step a).conn.sent := by
  unfold conn
  rw [id_step]
  rcases server_step s a with h | ⟨act, h, _⟩
  · rw [h]; exact List.prefix_rfl
  · rw [h]; exact (later_step _ act).sent _

theorem lost_step {s : Wire} (a : WireAct) (h : s.conn.lost = true) : (s.step a).conn.lost = true := by
  unfold conn
  rw [id_step]
  rcases server_step s a with h' | ⟨act, h', _⟩
  · rw [h']; exact h
  · rw [h']; exact lost_mono _ act _ h

theorem requests_step (s : Wire) (a : WireAct) : Link.requests s.link <+: Link.requests (s.step a).link := by
  have : ∀ (l : List LinkAct) (x : Link), Link.requests x <+: Link.requests (x.run l) := by
    intro l
    induction l with
    | nil => intro x; exact List.prefix_rfl
    | cons b l ih => intro x; exact (Link.requests_step x b).trans (ih _)
  exact this _ _

theorem taken_step (s : Wire) (a : WireAct) : s.taken ≤ (s.step a).taken := by
  simp only [step]
  split
  · split <;> omega
  · exact Nat.le_refl _

end Wire

end HatEvent
