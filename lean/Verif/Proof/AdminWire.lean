import Verif.Spec.AdminWire
import Verif.Proof.AdminServer
import Verif.Proof.Answers
import Verif.Proof.WireLive
import Verif.Props.AdminClient
import Mathlib.Data.Nat.Init

/-! # An adminer client and its server, step by step -/

namespace HatEvent
open Spec

namespace AdminServer

theorem sent_mono (s : AdminServer) (a : AdminServerAct) (id : Nat) : (s.conns id).sent <+: ((s.step a).conns id).sent := by
  have hset : ∀ i f, (∀ c : AdminConn, (f c).sent = c.sent) → (s.conns id).sent <+: ((s.setConn i f).conns id).sent := by
    intro i f hf
    rw [setConn_conns]
    split
    · rw [hf]; exact List.prefix_rfl
    · exact List.prefix_rfl
  cases a with
  | accept => exact hset s.next (fun c => { c with running := true }) fun _ => rfl
  | lose i => exact hset i (fun c => { c with lost := true }) fun _ => rfl
  | giveUp i =>
    simp only [step, giveUp]
    split
    · exact hset i (fun c => { c with running := false, lost := true }) fun _ => rfl
    · exact List.prefix_rfl
  | receive i req ok =>
    have hresp : ∀ (t : AdminServer) res, (t.conns id).sent = (s.conns id).sent → (s.conns id).sent <+: ((t.respond i res).conns id).sent := by
      intro t res ht
      rw [respond_conns]
      split
      · split
        · show _ <+: (t.conns id).sent
          rw [ht]; exact List.prefix_rfl
        · show _ <+: (t.conns id).sent ++ [res]
          rw [ht]; exact List.prefix_append _ _
      · rw [ht]; exact List.prefix_rfl
    have htake : ∀ r, ((s.take i r).conns id).sent = (s.conns id).sent := by
      intro r
      unfold take
      rw [setConn_conns]
      split <;> rfl
    simp only [step, receive]
    split
    · cases req with
      | get conv => exact hresp _ _ (htake _)
      | set conv conf => exact hresp _ _ (by rw [store_conns]; exact htake _)
      | other => exact hset i (fun c => { c with running := false, lost := true }) fun _ => rfl
    · exact List.prefix_rfl

theorem lost_stays {s : AdminServer} (a : AdminServerAct) {id : Nat} (h : (s.conns id).lost = true) : ((s.step a).conns id).lost = true := by
  have hset : ∀ i f, (∀ c : AdminConn, c.lost = true → (f c).lost = true) → ((s.setConn i f).conns id).lost = true := by
    intro i f hf
    rw [setConn_conns]
    split
    · exact hf _ h
    · exact h
  cases a with
  | accept => exact hset s.next (fun c => { c with running := true }) fun _ h => h
  | lose i => exact hset i (fun c => { c with lost := true }) fun _ _ => rfl
  | giveUp i =>
    simp only [step, giveUp]
    split
    · exact hset i (fun c => { c with running := false, lost := true }) fun _ _ => rfl
    · exact h
  | receive i req ok =>
    have hresp : ∀ (t : AdminServer) res, (t.conns id).lost = true → ((t.respond i res).conns id).lost = true := by
      intro t res ht
      rw [respond_conns]
      split
      · split
        · rfl
        · exact ht
      · exact ht
    have htake : ∀ r, ((s.take i r).conns id).lost = true := fun r =>
      hset i (fun c => { c with handled := c.handled ++ [r] }) fun _ h => h
    simp only [step, receive]
    split
    · cases req with
      | get conv => exact hresp _ _ (htake _)
      | set conv conf => exact hresp _ _ (by rw [store_conns]; exact htake _)
      | other => exact hset i (fun c => { c with running := false, lost := true }) fun _ _ => rfl
    · exact h

theorem next_mono (s : AdminServer) (a : AdminServerAct) : s.next ≤ (s.step a).next := by
  cases a with
  | accept => exact Nat.le_succ _
  | lose i => exact Nat.le_refl _
  | giveUp i =>
    simp only [step, giveUp]
    split <;> exact Nat.le_refl _
  | receive i req ok =>
    have hresp : ∀ (t : AdminServer) res, (t.respond i res).next = t.next := by
      intro t res; unfold respond; split <;> rfl
    have hstore : ∀ (t : AdminServer) c b, (t.store c b).next = t.next := by
      intro t c b; unfold store; split <;> rfl
    simp only [step, receive]
    split
    · cases req with
      | get conv => simp only [hresp]; exact Nat.le_refl _
      | set conv conf => simp only [hresp, hstore]; exact Nat.le_refl _
      | other => exact Nat.le_refl _
    · exact Nat.le_refl _

/-- The loop of an accepted connection runs until the connection is closed. -/
def Served (s : AdminServer) (id : Nat) : Prop := id < s.next → (s.conns id).running = true ∨ (s.conns id).lost = true

theorem served_step {s : AdminServer} (a : AdminServerAct) {id : Nat} (h : Served s id) : Served (s.step a) id := by
  have hset : ∀ i f, (∀ c : AdminConn, (c.running = true ∨ c.lost = true) → ((f c).running = true ∨ (f c).lost = true)) → Served (s.setConn i f) id := by
    intro i f hf hn
    rw [setConn_conns]
    split
    · exact hf _ (h hn)
    · exact h hn
  cases a with
  | accept =>
    intro hn
    have hn : id < s.next + 1 := hn
    show ((s.setConn s.next fun c => { c with running := true }).conns id).running = true ∨
      ((s.setConn s.next fun c => { c with running := true }).conns id).lost = true
    rw [setConn_conns]
    split
    · exact .inl rfl
    · exact h (by omega)
  | lose i => exact hset i (fun c => { c with lost := true }) fun _ _ => .inr rfl
  | giveUp i =>
    simp only [step, giveUp]
    split
    · exact hset i (fun c => { c with running := false, lost := true }) fun _ _ => .inr rfl
    · exact h
  | receive i req ok =>
    have hresp : ∀ (t : AdminServer) res, Served t id → Served (t.respond i res) id := by
      intro t res ht hn
      have hn : id < t.next := by
        unfold respond at hn
        split at hn <;> exact hn
      rw [respond_conns]
      split
      · split
        · exact .inr rfl
        · exact ht hn
      · exact ht hn
    have htake : ∀ r, Served (s.take i r) id := fun r =>
      hset i (fun c => { c with handled := c.handled ++ [r] }) fun _ h => h
    have hstore : ∀ (t : AdminServer) c b, Served t id → Served (t.store c b) id := by
      intro t c b ht; unfold store; split <;> exact ht
    simp only [step, receive]
    split
    · cases req with
      | get conv => exact hresp _ _ (htake _)
      | set conv conf => exact hresp _ _ (hstore _ _ _ (htake _))
      | other => exact hset i (fun c => { c with running := false, lost := true }) fun _ _ => .inr rfl
    · exact h

/-- Responses come from requests of the connection. -/
theorem quiet_sent {s : AdminServer} {a : AdminServerAct} {id : Nat} (h : ∀ req ok, a ≠ .receive id req ok) : ((s.step a).conns id).sent = (s.conns id).sent := by
  have hset : ∀ i f, (∀ c : AdminConn, (f c).sent = c.sent) → ((s.setConn i f).conns id).sent = (s.conns id).sent := by
    intro i f hf
    rw [setConn_conns]
    split
    · rw [hf]
    · rfl
  cases a with
  | accept => exact hset s.next (fun c => { c with running := true }) fun _ => rfl
  | lose i => exact hset i (fun c => { c with lost := true }) fun _ => rfl
  | giveUp i =>
    simp only [step, giveUp]
    split
    · exact hset i (fun c => { c with running := false, lost := true }) fun _ => rfl
    · rfl
  | receive i req ok =>
    have hi : id ≠ i := fun e => h req ok (by rw [e])
    have : (AdminServerAct.receive i req ok).about s.next ≠ id := Ne.symm hi
    rw [other_step this]

/-- The response for a request, with the configuration before and after. -/
inductive Answers (conf conf' : Json) (ok : Bool) : AdminReq → AdminRes → Prop
  | got (v : Nat) : Answers conf conf' ok (.get v) (.got v (some conf))
  | done (v : Nat) (c : Json) (h : ok = true → conf' = c) (h' : ok = false → conf' = conf) : Answers conf conf' ok (.set v c) (.done v ok)

theorem receive_sent {s : AdminServer} {req : AdminReq} {ok : Bool} {id : Nat} (hr : (s.conns id).running = true) :
    ((s.step (.receive id req ok)).conns id).sent = (s.conns id).sent ∧ ((s.conns id).lost = true ∨ req = .other) ∨
    (s.conns id).lost = false ∧ ∃ res, ((s.step (.receive id req ok)).conns id).sent = (s.conns id).sent ++ [res] ∧ Answers s.conf (s.step (.receive id req ok)).conf ok req res := by
  cases hl : (s.conns id).lost with
  | true =>
    left
    refine ⟨?_, .inl rfl⟩
    have htake : ∀ r, ((s.take id r).conns id) = { s.conns id with handled := (s.conns id).handled ++ [r] } := fun r => if_pos rfl
    show ((s.receive id req ok).conns id).sent = _
    unfold receive
    rw [if_pos hr]
    cases req with
    | get v => simp only; rw [respond_conns, if_pos rfl, htake, if_pos hl]
    | set v c => simp only; rw [respond_conns, if_pos rfl, store_conns, htake, if_pos hl]
    | other => simp only [endLoop, setConn_conns, if_true]
  | false =>
    have htake : ∀ r, ((s.take id r).conns id) = { s.conns id with handled := (s.conns id).handled ++ [r] } := fun r => if_pos rfl
    cases req with
    | get v =>
      right
      refine ⟨rfl, .got v (some s.conf), ?_, .got v⟩
      show ((s.receive id (.get v) ok).conns id).sent = _
      unfold receive
      rw [if_pos hr]
      simp only
      rw [respond_conns, if_pos rfl, htake, if_neg (by simp [hl])]
    | set v c =>
      right
      refine ⟨rfl, .done v ok, ?_, .done v c (fun h => ?_) (fun h => ?_)⟩
      · show ((s.receive id (.set v c) ok).conns id).sent = _
        unfold receive
        rw [if_pos hr]
        simp only
        rw [respond_conns, if_pos rfl, store_conns, htake, if_neg (by simp [hl])]
      · subst h; exact conf_set hr
      · subst h; exact conf_step (by rintro ⟨_, _, _, h, _⟩; cases h)
    | other =>
      left
      refine ⟨?_, .inr rfl⟩
      show ((s.receive id .other ok).conns id).sent = _
      unfold receive
      rw [if_pos hr]
      simp only [endLoop, setConn_conns, if_true]

end AdminServer

namespace AdminClient

theorem closed_stays {s : AdminClient} (a : AdminAct) (h : s.isOpen = false) : (s.step a).isOpen = false := by
  cases a <;> simp only [step, start, request, sendDone, resume, cancel, receive, stop, setCall, endLoop] <;> (repeat' split) <;> first | exact h | rfl

/-- What may happen to a call. -/
inductive Goes (s : AdminClient) (a : AdminAct) (k : Nat) : AdminPhase → Prop
  | stay : Goes s a k (s.calls k)
  | made (kind : AdminKind) (ha : a = .request kind) (hk : k = s.next) (ho : s.isOpen = true) : Goes s a k (.sending kind)
  | refused (kind : AdminKind) (ha : a = .request kind) (hk : k = s.next) (ho : s.isOpen = false) : Goes s a k (.finished .connectionError)
  | waits (kind : AdminKind) (ha : a = .sendDone k) (h : s.calls k = .sending kind) (ho : s.isOpen = true) : Goes s a k (.waiting kind)
  | late (kind : AdminKind) (ha : a = .sendDone k) (h : s.calls k = .sending kind) (ho : s.isOpen = false) : Goes s a k (.finished .connectionError)
  | resumed (r : AdminEnd) (h : s.calls k = .resolved r) : Goes s a k (.finished r)
  | cancelled (ha : a = .cancel k) (h1 : s.calls k ≠ .absent) (h2 : ∀ r, s.calls k ≠ .finished r) : Goes s a k (.finished .cancelled)
  | answered (kind : AdminKind) (msg : AdminMsg) (ha : a = .receive msg) (hk : k = msg.conv) (h : s.calls k = .waiting kind) (hkind : kind = msg.kind) :
      Goes s a k (.resolved (result msg.data))
  | failed (kind : AdminKind) (h : s.calls k = .waiting kind) (ho : (s.step a).isOpen = false) : Goes s a k (.resolved .connectionError)

theorem goes_step (s : AdminClient) (a : AdminAct) (k : Nat) : Goes s a k ((s.step a).calls k) := by
  have hset : ∀ j p, (k = j → Goes s a k p) → Goes s a k ((s.setCall j p).calls k) := by
    intro j p h
    show Goes s a k (if k = j then p else s.calls k)
    split
    · next e => exact h e
    · exact .stay
  have hend : (s.step a).isOpen = false → Goes s a k (s.endLoop.calls k) := by
    intro h
    show Goes s a k (failCall (s.calls k))
    unfold failCall
    split
    · next kind hk => exact .failed kind hk h
    · exact .stay
  cases a with
  | start =>
    simp only [step, start]
    split <;> exact .stay
  | request kind =>
    simp only [step, request]
    refine hset s.next _ fun hk => ?_
    split
    · next ho => exact .made kind rfl hk ho
    · next ho => exact .refused kind rfl hk (by simpa using ho)
  | sendDone j =>
    simp only [step, sendDone]
    split
    · next kind hp =>
      refine hset j _ fun hk => ?_
      subst hk
      split
      · next ho => exact .waits kind rfl hp ho
      · next ho => exact .late kind rfl hp (by simpa using ho)
    · exact .stay
  | resume j =>
    simp only [step, resume]
    split
    · next r hp => exact hset j _ fun hk => by subst hk; exact .resumed r hp
    · exact .stay
  | cancel j =>
    simp only [step, cancel]
    split
    · exact .stay
    · exact .stay
    · next h1 h2 => exact hset j _ fun hk => by subst hk; exact .cancelled rfl h1 h2
  | receive msg =>
    have hstop : s.step (.receive msg) = s.endLoop → Goes s (.receive msg) k ((s.step (.receive msg)).calls k) := fun e => by
      have h := hend (by rw [e]; rfl)
      rw [e]
      exact h
    by_cases he : (s.ended || !s.started) = true
    · simp only [step, receive, he, if_true]; exact .stay
    · have e : s.step (.receive msg) = match s.calls msg.conv with
          | .waiting kind => if kind = msg.kind then s.setCall msg.conv (.resolved (result msg.data)) else s.endLoop
          | _ => s.endLoop := by
        simp only [step, receive]
        rw [if_neg he]
        rfl
      cases hp : s.calls msg.conv with
      | waiting kind =>
        rw [hp] at e
        by_cases hk : kind = msg.kind
        · simp only [hk, if_true] at e
          rw [e]
          exact hset _ _ fun e' => by subst e'; exact .answered kind msg rfl rfl hp hk
        · simp only [if_neg hk] at e
          exact hstop e
      | _ => rw [hp] at e; exact hstop e
  | close => exact .stay
  | stop =>
    by_cases ho : s.isOpen = true
    · simp only [step, stop, ho, if_true]; exact .stay
    · by_cases he : (s.ended || !s.started) = true
      · simp only [step, stop, ho, he, if_true]; exact .stay
      · have e : s.step .stop = s.endLoop := by
          simp only [step, stop]
          rw [if_neg ho, if_neg he]
        have h := hend (by rw [e]; rfl)
        rw [e]
        exact h

theorem next_mono (s : AdminClient) (a : AdminAct) : s.next ≤ (s.step a).next := by
  cases a <;> simp only [step, start, request, sendDone, resume, cancel, receive, stop, setCall, endLoop] <;> (repeat' split) <;> first | exact Nat.le_refl _ | exact Nat.le_succ _

end AdminClient

namespace AdminWire

theorem run_snoc (s : AdminWire) (acts : List AdminWireAct) (a : AdminWireAct) : s.run (acts ++ [a]) = (s.run acts).step a := by simp [run]

/-- What happens to the server. -/
theorem server_step (s : AdminWire) (a : AdminWireAct) : (s.step a).server = s.server ∨
    ∃ act, (s.step a).server = s.server.step act ∧
      ((∃ ok req, a = .arrive ok ∧ s.request = some req ∧ act = .receive s.id req ok) ∨ ∀ req ok, act ≠ .receive s.id req ok) := by
  cases a with
  | ask q => exact .inl rfl
  | client act => left; cases act <;> rfl
  | arrive ok =>
    simp only [step, arrive]
    split
    · next req h => exact .inr ⟨_, rfl, .inl ⟨ok, req, rfl, h, rfl⟩⟩
    · exact .inl rfl
  | deliver =>
    left
    simp only [step, deliver]
    split
    · split <;> rfl
    · rfl
  | notice =>
    simp only [step]
    split
    · exact .inr ⟨.lose s.id, rfl, .inr nofun⟩
    · exact .inl rfl
  | server act =>
    cases act with
    | receive i req ok =>
      simp only [step]
      split
      · exact .inl rfl
      · next hi => exact .inr ⟨.receive i req ok, rfl, .inr fun req' ok' h => hi (by injection h)⟩
    | accept => exact .inr ⟨.accept, rfl, .inr (fun _ _ hh => AdminServerAct.noConfusion hh)⟩
    | lose i => exact .inr ⟨.lose i, rfl, .inr (fun _ _ hh => AdminServerAct.noConfusion hh)⟩
    | giveUp i => exact .inr ⟨.giveUp i, rfl, .inr (fun _ _ hh => AdminServerAct.noConfusion hh)⟩

/-- What happens to the client. -/
theorem client_step (s : AdminWire) (a : AdminWireAct) : (s.step a).client = s.client ∧ (∀ q, a ≠ .ask q) ∨
    ∃ act, (s.step a).client = s.client.step act ∧
      ((∃ q, a = .ask q ∧ act = .request q.kind) ∨
        (∃ res, a = .deliver ∧ s.conn.sent[s.read]? = some res ∧ s.client.started = true ∧ s.client.ended = false ∧ act = .receive res.toMsg) ∨
        (a = .client act ∧ (∀ kind, act ≠ .request kind) ∧ ∀ msg, act ≠ .receive msg) ∨
        (a = .notice ∧ act = .close)) := by
  cases a with
  | ask q => exact .inr ⟨_, rfl, .inl ⟨q, rfl, rfl⟩⟩
  | client act =>
    cases act with
    | request kind => exact .inl ⟨rfl, nofun⟩
    | receive msg => exact .inl ⟨rfl, nofun⟩
    | _ => exact .inr ⟨_, rfl, .inr (.inr (.inl ⟨rfl, nofun, nofun⟩))⟩
  | arrive ok =>
    left
    refine ⟨?_, nofun⟩
    simp only [step, arrive]
    split <;> rfl
  | deliver =>
    simp only [step, deliver]
    split
    · next res h =>
      split
      · next hs =>
        simp only [Bool.and_eq_true, Bool.not_eq_true'] at hs
        exact .inr ⟨_, rfl, .inr (.inl ⟨res, trivial, h, hs.1, hs.2, rfl⟩)⟩
      · exact .inl ⟨rfl, nofun⟩
    · exact .inl ⟨rfl, nofun⟩
  | notice =>
    simp only [step]
    split
    · exact .inr ⟨.close, rfl, .inr (.inr (.inr ⟨trivial, rfl⟩))⟩
    · exact .inl ⟨rfl, nofun⟩
  | server act =>
    left
    refine ⟨?_, nofun⟩
    cases act with
    | receive i req ok =>
      simp only [step]
      split <;> rfl
    | _ => rfl

theorem id_step (s : AdminWire) (a : AdminWireAct) : (s.step a).id = s.id := by
  cases a with
  | client act => cases act <;> rfl
  | server act =>
    cases act with
    | receive i req ok =>
      simp only [step]
      split <;> rfl
    | _ => rfl
  | ask q => rfl
  | arrive ok => simp only [step, arrive]; split <;> rfl
  | deliver =>
    simp only [step, deliver]
    split
    · split <;> rfl
    · rfl
  | notice => simp only [step]; split <;> rfl

/-- What happens to the messages of the client. -/
theorem asked_step (s : AdminWire) (a : AdminWireAct) : (s.step a).asked = s.asked ∨
    ∃ q, a = .ask q ∧ s.client.isOpen = true ∧ (s.step a).asked = s.asked ++ [q.toReq s.client.next] := by
  cases a with
  | client act => left; cases act <;> rfl
  | server act =>
    left
    cases act with
    | receive i req ok =>
      simp only [step]
      split <;> rfl
    | _ => rfl
  | ask q =>
    simp only [step, ask]
    cases ho : s.client.isOpen with
    | true => exact .inr ⟨q, rfl, rfl, rfl⟩
    | false => exact .inl rfl
  | arrive ok => left; simp only [step, arrive]; split <;> rfl
  | deliver =>
    left
    simp only [step, deliver]
    split
    · split <;> rfl
    · rfl
  | notice => left; simp only [step]; split <;> rfl

theorem asked_prefix (s : AdminWire) (a : AdminWireAct) : s.asked <+: (s.step a).asked := by
  rcases asked_step s a with e | ⟨q, _, _, e⟩
  · rw [e]; exact List.prefix_rfl
  · rw [e]; exact List.prefix_append _ _

theorem sent_prefix (s : AdminWire) (a : AdminWireAct) : s.conn.sent <+: (s.step a).conn.sent := by
  unfold conn
  rw [id_step]
  rcases server_step s a with e | ⟨act, e, _⟩
  · rw [e]; exact List.prefix_rfl
  · rw [e]; exact AdminServer.sent_mono _ _ _

theorem lost_step {s : AdminWire} (a : AdminWireAct) (h : s.conn.lost = true) : (s.step a).conn.lost = true := by
  unfold conn
  rw [id_step]
  rcases server_step s a with e | ⟨act, e, _⟩
  · rw [e]; exact h
  · rw [e]; exact AdminServer.lost_stays act h

theorem closed_step {s : AdminWire} (a : AdminWireAct) (h : s.client.isOpen = false) : (s.step a).client.isOpen = false := by
  rcases client_step s a with ⟨e, _⟩ | ⟨act, e, _⟩
  · rw [e]; exact h
  · rw [e]; exact AdminClient.closed_stays act h

theorem taken_step (s : AdminWire) (a : AdminWireAct) :
    (s.step a).taken = s.taken ∨ ∃ ok req, a = .arrive ok ∧ s.request = some req ∧ (s.step a).taken = s.taken + 1 := by
  cases a with
  | client act => left; cases act <;> rfl
  | server act =>
    left
    cases act with
    | receive i req ok =>
      simp only [step]
      split <;> rfl
    | _ => rfl
  | ask q => exact .inl rfl
  | arrive ok =>
    simp only [step, arrive]
    split
    · next req h => exact .inr ⟨ok, req, rfl, h, rfl⟩
    · exact .inl rfl
  | deliver =>
    left
    simp only [step, deliver]
    split
    · split <;> rfl
    · rfl
  | notice => left; simp only [step]; split <;> rfl

theorem read_step (s : AdminWire) (a : AdminWireAct) :
    (s.step a).read = s.read ∨ ∃ res, a = .deliver ∧ s.conn.sent[s.read]? = some res ∧ (s.step a).read = s.read + 1 := by
  cases a with
  | client act => left; cases act <;> rfl
  | server act =>
    left
    cases act with
    | receive i req ok =>
      simp only [step]
      split <;> rfl
    | _ => rfl
  | ask q => exact .inl rfl
  | arrive ok => left; simp only [step, arrive]; split <;> rfl
  | deliver =>
    simp only [step, deliver]
    split
    · next res h =>
      split
      · exact .inr ⟨res, trivial, h, rfl⟩
      · exact .inl rfl
    · exact .inl rfl
  | notice => left; simp only [step]; split <;> rfl

end AdminWire

/-- The conversation of a request. -/
def reqConv : AdminReq → Option Nat
  | .get v => some v
  | .set v _ => some v
  | .other => none

theorem toReq_conv (q : AdminQuery) (k : Nat) : reqConv (q.toReq k) = some k := by cases q <;> rfl

section
variable {id : Nat} {conf : Json} {acts : Nat → AdminWireAct}

theorem adminAt_succ (n : Nat) : adminAt id conf acts (n + 1) = (adminAt id conf acts n).step (acts n) := by
  unfold adminAt
  rw [upTo_succ, AdminWire.run_snoc]

theorem adminAt_id (n : Nat) : (adminAt id conf acts n).id = id := by
  induction n with
  | zero => rfl
  | succ n ih => rw [adminAt_succ, AdminWire.id_step, ih]

/-- Conversations of the messages of the client. -/
theorem asked_fresh (n : Nat) : ((adminAt id conf acts n).asked.filterMap reqConv).Nodup ∧
    ∀ v ∈ (adminAt id conf acts n).asked.filterMap reqConv, v < (adminAt id conf acts n).client.next := by
  induction n with
  | zero => exact ⟨List.nodup_nil, fun v hv => by cases hv⟩
  | succ n ih =>
    rw [adminAt_succ]
    have hnext : (adminAt id conf acts n).client.next ≤ ((adminAt id conf acts n).step (acts n)).client.next := by
      rcases AdminWire.client_step (adminAt id conf acts n) (acts n) with ⟨e, _⟩ | ⟨act, e, _⟩
      · rw [e]
      · rw [e]; exact AdminClient.next_mono _ _
    rcases AdminWire.asked_step (adminAt id conf acts n) (acts n) with e | ⟨q, ha, ho, e⟩
    · rw [e]
      exact ⟨ih.1, fun v hv => Nat.lt_of_lt_of_le (ih.2 v hv) hnext⟩
    · have hn : ((adminAt id conf acts n).step (acts n)).client.next = (adminAt id conf acts n).client.next + 1 := by rw [ha]; rfl
      rw [e, List.filterMap_append, hn]
      simp only [List.filterMap_cons, toReq_conv, List.filterMap_nil]
      refine ⟨?_, fun v hv => ?_⟩
      · refine List.Nodup.append ih.1 (List.nodup_singleton _) fun v h1 h2 => ?_
        rw [List.mem_singleton] at h2
        have := ih.2 v h1
        omega
      · rcases List.mem_append.1 hv with hv | hv
        · exact Nat.lt_succ_of_lt (ih.2 v hv)
        · rw [List.mem_singleton] at hv; omega

theorem asked_mono {m n : Nat} (h : m ≤ n) : (adminAt id conf acts m).asked <+: (adminAt id conf acts n).asked := by
  induction n, h using Nat.le_induction with
  | base => exact List.prefix_rfl
  | succ n _ ih => rw [adminAt_succ]; exact ih.trans (AdminWire.asked_prefix _ _)

theorem request_mem {s : AdminWire} {req : AdminReq} (h : s.request = some req) : req ∈ s.asked ∧ s.conn.running = true ∧ s.asked[s.taken]? = some req := by
  unfold AdminWire.request at h
  split at h
  · next hr => exact ⟨List.mem_of_getElem? h, hr, h⟩
  · cases h

/-- Where the responses of the server come from. -/
theorem answers_from (n : Nat) {res : AdminRes} (h : res ∈ (adminAt id conf acts n).conn.sent) :
    ∃ j ok req, j < n ∧ acts j = .arrive ok ∧ (adminAt id conf acts j).request = some req ∧
      AdminServer.Answers (adminAt id conf acts j).server.conf (adminAt id conf acts (j + 1)).server.conf ok req res := by
  induction n with
  | zero => cases h
  | succ n ih =>
    have hold : res ∈ (adminAt id conf acts n).conn.sent → _ := fun h' => ih h'
    have hlift : (∃ j ok req, j < n ∧ acts j = .arrive ok ∧ (adminAt id conf acts j).request = some req ∧
      AdminServer.Answers (adminAt id conf acts j).server.conf (adminAt id conf acts (j + 1)).server.conf ok req res) →
      ∃ j ok req, j < n + 1 ∧ acts j = .arrive ok ∧ (adminAt id conf acts j).request = some req ∧
      AdminServer.Answers (adminAt id conf acts j).server.conf (adminAt id conf acts (j + 1)).server.conf ok req res := by
      rintro ⟨j, ok, req, h1, h2⟩
      exact ⟨j, ok, req, by omega, h2⟩
    have hconn : (adminAt id conf acts (n + 1)).conn = (adminAt id conf acts (n + 1)).server.conns (adminAt id conf acts n).id := by
      unfold AdminWire.conn
      rw [adminAt_id, adminAt_id]
    rw [hconn] at h
    have hs := AdminWire.server_step (adminAt id conf acts n) (acts n)
    rw [← adminAt_succ] at hs
    rcases hs with e | ⟨act, e, hc⟩
    · rw [e] at h; exact hlift (hold h)
    · rcases hc with ⟨ok, req, ha, hr, rfl⟩ | hno
      · have hrun := (request_mem hr).2.1
        rw [e] at h
        rcases AdminServer.receive_sent (req := req) (ok := ok) hrun with ⟨e', _⟩ | ⟨_, r, e', hans⟩
        · rw [e'] at h; exact hlift (hold h)
        · rw [e'] at h
          rcases List.mem_append.1 h with h | h
          · exact hlift (hold h)
          · rw [List.mem_singleton] at h
            subst h
            exact ⟨n, ok, req, Nat.lt_succ_self _, ha, hr, by rw [e]; exact hans⟩
      · rw [e, AdminServer.quiet_sent hno] at h
        exact hlift (hold h)

end

end HatEvent
