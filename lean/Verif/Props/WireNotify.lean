import Verif.Proof.WireAcks
import Verif.Props.Wire

/-!
# Calls of `notify_events` with acknowledgment (C97)

A client that has acknowledged a notification has processed it, and a call of `notify_events` with acknowledgment returns.  The schedules of the latter theorems do not end.
-/

namespace HatEvent
open Spec EvServer

/-! ### Acknowledged notifications are processed -/

/-- **C97** When the server has received the acknowledgment of a notification, the client has got exactly its events, and the events callback has ended for them. -/
theorem C97_processed (id : Nat) (useC : Bool) (token : Option String) (acts : List WireAct) {call conv : Nat} {es : List Event}
    (hs : .events call conv es ∈ ((Wire.init id useC token).run acts).conn.sent) (ha : conv ∈ ((Wire.init id useC token).run acts).conn.acks) :
    ∃ c, ((Wire.init id useC token).run acts).link.client = some c ∧ es ∈ c.notified ∧
      ∃ status pre mid post, c = (ReqClient.init status).run (pre ++ .receive (.notify conv es false) :: mid ++ .callbackDone true :: post) := by
  obtain ⟨l, hok⟩ := Wire.ok_run id useC token acts
  have htell := acksTell_run id useC token acts
  have hseen := Link.seen_run id useC token l
  have hreached := fun c => wire_reached id useC token acts (c := c)
  rw [← hok.link] at hseen
  generalize (Wire.init id useC token).run acts = s at *
  have hr := htell.received conv ha
  have hfresh : (s.conn.sent.filterMap noteConv).Nodup := by
    have hsrv := (Link.server_run id useC token l).2
    rw [← hok.link] at hsrv
    unfold Wire.conn
    rw [hsrv]
    exact (notesFresh_run useC token _ _).nodup
  have hsame : ∀ call' es', .events call' conv es' ∈ s.conn.sent → (ServerMsg.events call' conv es') = .events call conv es :=
    fun call' es' h => nodup_filterMap_inj hfresh h hs rfl rfl
  cases hc : s.link.client with
  | none =>
    unfold Spec.Link.requests at hr
    rw [hc] at hr
    cases hr
  | some c =>
    rw [requests_some hc] at hr
    refine ⟨c, rfl, ?_, ?_⟩
    · obtain ⟨call', es', hm⟩ := htell.read c hc conv (.inl hr)
      unfold Link.Seen at hseen
      rw [hc] at hseen
      rw [hseen.2.2.1]
      rw [hsame call' es' (List.mem_of_mem_take hm)] at hm
      exact List.mem_filterMap.2 ⟨_, hm, rfl⟩
    · obtain ⟨status, cacts, rfl, h⟩ := hreached c hc
      obtain ⟨pre, mid, post, es', rfl⟩ := C61_acknowledged status cacts conv hr
      obtain ⟨call', hm⟩ := h conv es' false (by simp)
      obtain ⟨_, _, rfl⟩ := ServerMsg.events.inj (hsame call' es' hm)
      exact ⟨status, pre, mid, post, rfl⟩

/-- A client with a notification. -/
def exNote : WireAct := .server (.notify [exNotified ["a", "b"] 1] false true)

/-- A notification that is acknowledged. -/
def exNoteAcked : List WireAct :=
  exWireStart ++ [exNote, .server (.send 0 0), .server (.await_ 0 0), .deliver, .client (.callbackDone true), .arrive]

example : .events 0 0 [exNotified ["a", "b"] 1] ∈ ((Wire.init 0 false none).run exNoteAcked).conn.sent ∧
    0 ∈ ((Wire.init 0 false none).run exNoteAcked).conn.acks :=
  ⟨.tail _ (.head _), .head _⟩

/-- What happens to the server. -/
theorem wire_server_run (s : Wire) (acts : List WireAct) : ∃ l, (s.run acts).link.server = s.link.server.run l := by
  induction acts using List.reverseRecOn with
  | nil => exact ⟨[], rfl⟩
  | append_singleton acts a ih =>
    obtain ⟨l, hl⟩ := ih
    rw [Wire.run_snoc]
    rcases Wire.server_step (s.run acts) a with e | ⟨act, e, _⟩
    · exact ⟨l, by rw [e, hl]⟩
    · exact ⟨l ++ [act], by rw [e, hl, EvServer.run_snoc]⟩

/-- **C97** When `notify_events` with acknowledgment has returned, a client it was meant for has got its events, if no connection loop has ended in the meantime and the
connection of the client is not lost. -/
theorem C97_told_partial (id : Nat) (useC : Bool) (token : Option String) (before after : List WireAct) (events : List Event) (persisted : Bool)
    {s t : Wire} (hs : s = (Wire.init id useC token).run before)
    (ht : t = (Wire.init id useC token).run (before ++ .server (.notify events persisted true) :: after))
    (hend : ∀ i, (t.link.server.conns i).phase = .ended → (s.link.server.conns i).phase = .ended)
    (hr : (t.link.server.calls s.link.server.nextCall).returned) (hl : t.conn.lost = false)
    {es : List Event} (hm : (id, es) ∈ (t.link.server.calls s.link.server.nextCall).targets) :
    ∃ c, t.link.client = some c ∧ es ∈ c.notified := by
  obtain ⟨b, hb⟩ := wire_server_run (Wire.init id useC token) before
  change _ = (EvServer.init useC token).run b at hb
  obtain ⟨a, ha⟩ := wire_server_run (((Wire.init id useC token).run before).step (.server (.notify events persisted true))) after
  have ht' : t.link.server = (EvServer.init useC token).run (b ++ .notify events persisted true :: a) := by
    rw [ht, Wire.run_append]
    refine ha.trans ?_
    rw [EvServer.run_append]
    show (((Wire.init id useC token).run before).link.server.step (.notify events persisted true)).run a = _
    rw [hb]
    rfl
  rw [← hs] at hb
  have hid : t.link.id = id := by
    obtain ⟨l, hok⟩ := Wire.ok_run id useC token (before ++ .server (.notify events persisted true) :: after)
    rw [ht]; exact hok.id_eq
  have key := C42_partial useC token b a events persisted (id := id) (es := es) (by rw [← ht', ← hb]; exact hend) (by rw [← ht', ← hb]; exact hr)
    (by rw [← ht', ← hb]; exact hm)
  rw [← ht', ← hb] at key
  unfold Wire.conn at hl
  rw [hid] at hl
  rcases key with h | ⟨conv, h1, h2⟩
  · rw [hl] at h; cases h
  · have hc : t.conn = t.link.server.conns id := by unfold Wire.conn; rw [hid]
    rw [← hc] at h1 h2
    rw [ht] at h1 h2 ⊢
    obtain ⟨c, h3, h4, _⟩ := C97_processed id useC token _ h1 h2
    exact ⟨c, h3, h4⟩

example :
    let s := (Wire.init 0 false none).run exWireStart
    let t := (Wire.init 0 false none).run exNoteAcked
    exNoteAcked = exWireStart ++ exNote :: [.server (.send 0 0), .server (.await_ 0 0), .deliver, .client (.callbackDone true), .arrive] ∧
      (∀ i, (t.link.server.conns i).phase = .ended → (s.link.server.conns i).phase = .ended) ∧
      (t.link.server.calls s.link.server.nextCall).returned ∧ t.conn.lost = false ∧
      (0, [exNotified ["a", "b"] 1]) ∈ (t.link.server.calls s.link.server.nextCall).targets := by
  refine ⟨rfl, fun i h => ?_, fun t ht => ?_, rfl, .head _⟩
  · match i with
    | 0 => cases h
    | i + 1 => cases h
  · obtain rfl := List.mem_singleton.1 ht
    rfl

/-! ### Calls return -/

/-- **C97** A call of `notify_events` with acknowledgment ends for each client it is meant for. -/
theorem C97_ends_partial (id : Nat) (useC : Bool) (token : Option String) (acts : Nat → WireAct) (n : Nat) {events : List Event} {persisted : Bool}
    (ha : acts n = .server (.notify events persisted true)) {call : Nat} (hcall : call = (wireAt id useC token acts n).link.server.nextCall)
    {es : List Event} (ht : (id, es) ∈ ((wireAt id useC token acts (n + 1)).link.server.calls call).targets)
    (hg : WireGoesOn (wireAt id useC token acts) acts) (hn : NoteGoesOn acts call id) (hi : AckInTime (wireAt id useC token acts) acts call id) :
    ∃ m, n < m ∧ ∀ p, m ≤ p → ((wireAt id useC token acts p).link.server.calls call).state id = .done := by
  subst hcall
  have e : (wireAt id useC token acts (n + 1)).link.server = (wireAt id useC token acts n).link.server.notify events persisted true := by
    rw [wireAt_succ, ha]; rfl
  have hmade : (wireAt id useC token acts n).link.server.nextCall < (wireAt id useC token acts (n + 1)).link.server.nextCall := by
    rw [e]; exact Nat.lt_succ_self _
  have hmono : ∀ p, n + 1 ≤ p → (wireAt id useC token acts n).link.server.nextCall < (wireAt id useC token acts p).link.server.nextCall := by
    intro p hp
    induction p, hp using Nat.le_induction with
    | base => exact hmade
    | succ p _ ih =>
      rcases wireAt_move (id := id) (useC := useC) (token := token) (acts := acts) p with e' | ⟨act, e', _⟩
      · rw [e']; exact ih
      · rw [e']; exact (targets_step act ih).1
  have hdone : ∃ m, n + 1 ≤ m ∧ ((wireAt id useC token acts m).link.server.calls (wireAt id useC token acts n).link.server.nextCall).state id = .done := by
    by_contra hno
    refine NoteStuck.false_ (id := id) (useC := useC) (token := token) (acts := acts) (call := (wireAt id useC token acts n).link.server.nextCall) (N := n + 1)
      ⟨hg, hn, hi, hmade, by rw [e]; simp [notify], ⟨es, ht⟩, by rw [e]; simp [notify], ?_, fun m hm hd => hno ⟨m, hm, hd⟩⟩
    rw [e] at ht ⊢
    simp only [notify, if_true] at ht
    obtain ⟨info, hinfo⟩ := target_known ht
    obtain ⟨l, hl⟩ := wireAt_server (id := id) (useC := useC) (token := token) (acts := acts) n
    have hok := infosOk_run useC token l
    rw [← hl] at hok
    rcases hok.serving _ hinfo with h | ⟨msg, h⟩
    · exact .inl ⟨_, h⟩
    · exact .inr (.inl ⟨_, _, h⟩)
  obtain ⟨m, hm, hd⟩ := hdone
  refine ⟨m, by omega, fun p hp => ?_⟩
  induction p, hp using Nat.le_induction with
  | base => exact hd
  | succ p hp ih =>
    rcases wireAt_move (id := id) (useC := useC) (token := token) (acts := acts) p with e' | ⟨act, e', _⟩
    · rw [e']; exact ih
    · rw [e']
      have hg' := goes_step (wireAt id useC token acts p).link.server act (id := id) (hmono p (by omega))
      generalize ((wireAt id useC token acts p).link.server.step act |>.calls _).state id = d at hg'
      cases hg' with
      | stay => exact ih
      | sent _ _ h => rw [ih] at h; cases h
      | waits _ _ h => rw [ih] at h; cases h
      | done => rfl

/-- **C97** A call of `notify_events` with acknowledgment returns: each client it is meant for is seen as one side of a connection with the same server. -/
theorem C97_returns_partial (useC : Bool) (token : Option String) (S : Nat → EvServer) (n : Nat) (events : List Event) (persisted : Bool) {call : Nat}
    (hcall : call = (S n).nextCall)
    (hw : ∀ id es, (id, es) ∈ ((S (n + 1)).calls call).targets → ∃ acts, (∀ m, (wireAt id useC token acts m).link.server = S m) ∧
      acts n = .server (.notify events persisted true) ∧ WireGoesOn (wireAt id useC token acts) acts ∧ NoteGoesOn acts call id ∧
      AckInTime (wireAt id useC token acts) acts call id) :
    ∃ m, n < m ∧ ((S m).calls call).returned := by
  have hall : ∀ l : List (Nat × List Event), (∀ t ∈ l, t ∈ ((S (n + 1)).calls call).targets) →
      ∃ m, n < m ∧ ∀ t ∈ l, ∀ p, m ≤ p → ((S p).calls call).state t.1 = .done := by
    intro l hl
    induction l with
    | nil => exact ⟨n + 1, Nat.lt_succ_self _, fun t ht => by cases ht⟩
    | cons t l ih =>
      obtain ⟨m, hm, h⟩ := ih fun t' ht' => hl t' (.tail _ ht')
      obtain ⟨acts, hS, ha, hg, hn, hi⟩ := hw t.1 t.2 (hl t (.head _))
      obtain ⟨m', hm', h'⟩ := C97_ends_partial t.1 useC token acts n ha (call := call) (by rw [hS]; exact hcall) (es := t.2)
        (by rw [hS]; exact hl t (.head _)) hg hn hi
      refine ⟨max m m', by omega, fun t' ht' p hp => ?_⟩
      rcases List.mem_cons.1 ht' with rfl | ht'
      · rw [← hS]; exact h' p (by omega)
      · exact h t' ht' p (by omega)
  obtain ⟨m, hm, h⟩ := hall _ fun t ht => ht
  cases hne : ((S (n + 1)).calls call).targets with
  | nil =>
    refine ⟨n + 1, Nat.lt_succ_self _, fun t ht => ?_⟩
    rw [hne] at ht
    cases ht
  | cons t l =>
    obtain ⟨acts, hS, ha, _⟩ := hw t.1 t.2 (by rw [hne]; exact .head _)
    have htar : ∀ p, n + 1 ≤ p → call < (S p).nextCall ∧ ((S p).calls call).targets = ((S (n + 1)).calls call).targets := by
      intro p hp
      induction p, hp using Nat.le_induction with
      | base =>
        refine ⟨?_, rfl⟩
        rw [← hS (n + 1), wireAt_succ, ha, hcall, ← hS n]
        exact Nat.lt_succ_self _
      | succ p hp ih =>
        rcases wireAt_move (id := t.1) (useC := useC) (token := token) (acts := acts) p with e | ⟨act, e, _⟩
        · rw [hS, hS] at e; rw [e]; exact ih
        · rw [hS, hS] at e
          rw [e]
          obtain ⟨h1, h2, _⟩ := targets_step act ih.1
          exact ⟨h1, h2.trans ih.2⟩
    refine ⟨m, hm, fun t' ht' => ?_⟩
    rw [(htar m hm).2] at ht'
    exact h t' ht' m (Nat.le_refl _)

/-! ### Schedules -/

/-- What happens again and again. -/
def exNoteCycle : List WireAct :=
  [.arrive, .deliver, .notice, .client .start, .client .stop, .client (.callbackDone true), .connect, .server (.reply 0 .raised), .server (.reply 1 .raised),
    .server (.send 0 0), .server (.send 0 1), .server (.await_ 0 0), .server (.await_ 0 1), .server (.giveUp 0), .server (.giveUp 1)]

theorem exNoteCycle_ne : exNoteCycle ≠ [] := List.cons_ne_nil _ _

/-- Schedules with these actions go on. -/
theorem exNote_goesOn (id : Nat) (hid : id = 0 ∨ id = 1) (pre : List WireAct) :
    WireGoesOn (wireAt id false none (exForever pre exNoteCycle exNoteCycle_ne)) (exForever pre exNoteCycle exNoteCycle_ne) ∧
      NoteGoesOn (exForever pre exNoteCycle exNoteCycle_ne) 0 id := by
  have often : ∀ a ∈ exNoteCycle, Often (exForever pre exNoteCycle exNoteCycle_ne) a := fun a h => exForever_often h
  refine ⟨⟨often _ (by simp [exNoteCycle]), often _ (by simp [exNoteCycle]), often _ (by simp [exNoteCycle]), often _ (by simp [exNoteCycle]),
    often _ (by simp [exNoteCycle]), fun n => ?_, fun n info msg _ => ?_⟩, ?_, ?_, ?_, often _ (by simp [exNoteCycle])⟩
  · obtain ⟨m, h1, h2⟩ := often (.client (.callbackDone true)) (by simp [exNoteCycle]) n
    exact ⟨m, h1, true, h2⟩
  · obtain ⟨m, h1, h2⟩ := often (.server (.reply id .raised)) (by rcases hid with rfl | rfl <;> simp [exNoteCycle]) n
    exact ⟨m, h1, .raised, by rw [wireAt_id]; exact h2, .raised msg⟩
  all_goals exact often _ (by rcases hid with rfl | rfl <;> simp [exNoteCycle])

/-- The states of these schedules. -/
theorem exNote_at (id : Nat) (pre : List WireAct)
    (hfix : ∀ a ∈ exNoteCycle, ((Wire.init id false none).run pre).step a = (Wire.init id false none).run pre) (n : Nat) :
    wireAt id false none (exForever pre exNoteCycle exNoteCycle_ne) n = (Wire.init id false none).run (pre.take n) := by
  obtain ⟨h, h1, h2, h3⟩ := exForever_states (pre := pre) (cycle := exNoteCycle) (hc := exNoteCycle_ne) (step := Wire.step) (s := Wire.init id false none) hfix n
  unfold wireAt
  rw [show (Wire.init id false none).run (upTo (exForever pre exNoteCycle exNoteCycle_ne) n) = (Wire.init id false none).run h from h2,
    List.prefix_iff_eq_take.1 h1, h3]
  rcases Nat.le_total n pre.length with hn | hn
  · rw [Nat.min_eq_left hn]
  · rw [Nat.min_eq_right hn, List.take_of_length_le (Nat.le_refl _), List.take_of_length_le hn]

/-- Nothing is left to do. -/
structure ExNoteIdle (s : Wire) (c : ReqClient) : Prop where
  client : s.link.client = some c
  request : s.request = none
  unread : s.conn.sent[s.link.read]? = none
  closed : s.closed = false
  isOpen : c.isOpen = true
  loop : c.loop = .receiving
  phase : ∀ i, i = 0 ∨ i = 1 → ((∃ info, (s.link.server.conns i).phase = .ready info) ∨ (s.link.server.conns i).phase = .absent) ∧
    (s.link.server.conns i).lost = false
  call : ∀ i, i = 0 ∨ i = 1 → (∃ conv, (s.link.server.calls 0).state i = .waiting conv) ∨ (s.link.server.calls 0).state i = .done ∨
    (s.link.server.calls 0).state i = .unsent ∧ (s.link.server.calls 0).targets.find? (fun t => t.1 = i) = none

theorem ExNoteIdle.fix {s : Wire} {c : ReqClient} (h : ExNoteIdle s c) : ∀ a ∈ exNoteCycle, s.step a = s := by
  have hlink : ∀ a : ReqAct, (∀ m, a ≠ .receive m) → c.step a = c → s.step (.client a) = s := by
    intro a ha hc
    have : s.link.clientStep a = s.link := by
      cases a with
      | receive m => exact absurd rfl (ha m)
      | _ =>
        simp only [Link.clientStep, h.client, Option.map_some, hc]
        rw [← h.client]
    simp only [Wire.step, Wire.acts, Link.run, List.foldl_cons, List.foldl_nil, Link.step, this]
  have hserver : ∀ a : EvAct, (∀ i m, a ≠ .receive i m) → s.link.server.step a = s.link.server → s.step (.server a) = s := by
    intro a ha hc
    have hp : s.permits a = true := by
      cases a with
      | receive i m => exact absurd rfl (ha i m)
      | _ => rfl
    simp only [Wire.step, Wire.acts, hp, if_true, Link.run, List.foldl_cons, List.foldl_nil, Link.step, hc]
  have hreply : ∀ i, i = 0 ∨ i = 1 → s.step (.server (.reply i .raised)) = s := by
    intro i hi
    refine hserver _ (fun _ _ hh => EvAct.noConfusion hh) ?_
    rcases (h.phase i hi).1 with ⟨info, hp⟩ | hp <;> simp only [EvServer.step, EvServer.reply, hp]
  have hgive : ∀ i, i = 0 ∨ i = 1 → s.step (.server (.giveUp i)) = s := by
    intro i hi
    refine hserver _ (fun _ _ hh => EvAct.noConfusion hh) ?_
    obtain ⟨⟨info, hp⟩ | hp, hl⟩ := h.phase i hi
    · simp [EvServer.step, EvServer.giveUp, hp, hl]
    · simp [EvServer.step, EvServer.giveUp, hp]
  have hsend : ∀ i, i = 0 ∨ i = 1 → s.step (.server (.send 0 i)) = s := by
    intro i hi
    refine hserver _ (fun _ _ hh => EvAct.noConfusion hh) ?_
    simp only [EvServer.step, EvServer.send]
    rcases h.call i hi with ⟨conv, e⟩ | e | ⟨_, e⟩
    · rw [e]; split <;> first | rfl | (next hh => cases hh)
    · rw [e]; split <;> first | rfl | (next hh => cases hh)
    · rw [e]
  have hawait : ∀ i, i = 0 ∨ i = 1 → s.step (.server (.await_ 0 i)) = s := by
    intro i hi
    refine hserver _ (fun _ _ hh => EvAct.noConfusion hh) ?_
    simp only [EvServer.step, EvServer.awaitAck]
    rcases h.call i hi with ⟨conv, e⟩ | e | ⟨e, _⟩ <;> rw [e]
  intro a ha
  simp only [exNoteCycle, List.mem_cons, List.not_mem_nil, or_false] at ha
  rcases ha with rfl | rfl | rfl | rfl | rfl | rfl | rfl | rfl | rfl | rfl | rfl | rfl | rfl | rfl | rfl
  · simp only [Wire.step, Wire.acts, h.request]
    rfl
  · have : s.link.deliver s.lastFlag = s.link := by
      have hu := h.unread
      unfold Wire.conn at hu
      simp only [Link.deliver, h.client, hu]
    simp only [Wire.step, Wire.acts, Link.run, List.foldl_cons, List.foldl_nil, Link.step, this]
  · simp only [Wire.step, Wire.acts, h.closed]
    rfl
  · exact hlink _ nofun (by simp [ReqClient.step, ReqClient.start, h.loop])
  · exact hlink _ nofun (by simp [ReqClient.step, ReqClient.stop, h.isOpen])
  · exact hlink _ nofun (by simp [ReqClient.step, ReqClient.callbackDone, h.loop])
  · have : s.link.connect = s.link := by simp only [Link.connect, h.client]
    simp only [Wire.step, Wire.acts, Link.run, List.foldl_cons, List.foldl_nil, Link.step, this]
  · exact hreply 0 (.inl rfl)
  · exact hreply 1 (.inr rfl)
  · exact hsend 0 (.inl rfl)
  · exact hsend 1 (.inr rfl)
  · exact hawait 0 (.inl rfl)
  · exact hawait 1 (.inr rfl)
  · exact hgive 0 (.inl rfl)
  · exact hgive 1 (.inr rfl)

theorem exNoteAcked_idle : ∃ c, ExNoteIdle ((Wire.init 0 false none).run exNoteAcked) c := by
  refine ⟨_, rfl, rfl, rfl, rfl, rfl, rfl, ?_, ?_⟩
  · rintro i (rfl | rfl)
    · exact ⟨.inl ⟨_, rfl⟩, rfl⟩
    · exact ⟨.inr rfl, rfl⟩
  · rintro i (rfl | rfl)
    · exact .inr (.inl rfl)
    · exact .inr (.inr ⟨rfl, rfl⟩)

theorem exNoteAcked_sent {n conv : Nat} (h : (((Wire.init 0 false none).run (exNoteAcked.take n)).link.server.calls 0).state 0 = .sent conv) : n = 7 := by
  match n with
  | 0 | 1 | 2 | 3 | 4 | 5 | 6 | 8 | 9 | 10 => cases h
  | 7 => rfl
  | n + 11 =>
    rw [List.take_of_length_le (by simp [exNoteAcked, exWireStart, exConnect])] at h
    cases h

/-- The hypotheses of `C97_ends_partial`, with the time of the call. -/
example :
    let acts := exForever exNoteAcked exNoteCycle exNoteCycle_ne
    acts 5 = .server (.notify [exNotified ["a", "b"] 1] false true) ∧ 0 = (wireAt 0 false none acts 5).link.server.nextCall ∧
      (0, [exNotified ["a", "b"] 1]) ∈ ((wireAt 0 false none acts 6).link.server.calls 0).targets ∧
      WireGoesOn (wireAt 0 false none acts) acts ∧ NoteGoesOn acts 0 0 ∧ AckInTime (wireAt 0 false none acts) acts 0 0 := by
  intro acts
  refine ⟨rfl, rfl, .head _, (exNote_goesOn 0 (.inl rfl) _).1, (exNote_goesOn 0 (.inl rfl) _).2, fun n conv h => ?_⟩
  have e := exNote_at 0 _ exNoteAcked_idle.choose_spec.fix n
  change wireAt 0 false none acts n = _ at e
  rw [e] at h ⊢
  obtain rfl := exNoteAcked_sent h
  have ha : acts 7 = .server (.await_ 0 0) := rfl
  rw [ha]
  exact ⟨fun hh => LoopPhase.noConfusion hh, fun hh => WireAct.noConfusion hh⟩

/-- Two clients connect and are notified. -/
def exNoteTwo : List WireAct :=
  (exConnect 0 (exReq false none) ++ exConnect 1 (exReq false none)).map .server ++ [.connect, .client .start, exNote, .server (.send 0 0), .server (.send 0 1),
    .server (.await_ 0 0), .server (.await_ 0 1), .deliver, .client (.callbackDone true)]

/-- The acknowledgments, seen by the first client. -/
def exNoteFirst : List WireAct := exNoteTwo ++ [.arrive, .server (.receive 1 (.ack 1))]

/-- The acknowledgments, seen by the second client. -/
def exNoteSecond : List WireAct := exNoteTwo ++ [.server (.receive 0 (.ack 0)), .arrive]

theorem exNoteFirst_idle : ∃ c, ExNoteIdle ((Wire.init 0 false none).run exNoteFirst) c := by
  refine ⟨_, rfl, rfl, rfl, rfl, rfl, rfl, ?_, ?_⟩
  · rintro i (rfl | rfl) <;> exact ⟨.inl ⟨_, rfl⟩, rfl⟩
  · rintro i (rfl | rfl) <;> exact .inr (.inl rfl)

theorem exNoteSecond_idle : ∃ c, ExNoteIdle ((Wire.init 1 false none).run exNoteSecond) c := by
  refine ⟨_, rfl, rfl, rfl, rfl, rfl, rfl, ?_, ?_⟩
  · rintro i (rfl | rfl) <;> exact ⟨.inl ⟨_, rfl⟩, rfl⟩
  · rintro i (rfl | rfl) <;> exact .inr (.inl rfl)

theorem exNote_same (n : Nat) :
    ((Wire.init 1 false none).run (exNoteSecond.take n)).link.server = ((Wire.init 0 false none).run (exNoteFirst.take n)).link.server := by
  match n with
  | 0 | 1 | 2 | 3 | 4 | 5 | 6 | 7 | 8 | 9 | 10 | 11 | 12 | 13 | 14 | 15 | 16 => rfl
  | n + 17 =>
    rw [List.take_of_length_le (by simp [exNoteSecond, exNoteTwo, exConnect]), List.take_of_length_le (by simp [exNoteFirst, exNoteTwo, exConnect])]
    rfl

theorem exNoteFirst_sent {n conv : Nat} (h : (((Wire.init 0 false none).run (exNoteFirst.take n)).link.server.calls 0).state 0 = .sent conv) :
    n = 10 ∨ n = 11 := by
  match n with
  | 0 | 1 | 2 | 3 | 4 | 5 | 6 | 7 | 8 | 9 | 12 | 13 | 14 | 15 | 16 => cases h
  | 10 => exact .inl rfl
  | 11 => exact .inr rfl
  | n + 17 =>
    rw [List.take_of_length_le (by simp [exNoteFirst, exNoteTwo, exConnect])] at h
    cases h

theorem exNoteSecond_sent {n conv : Nat} (h : (((Wire.init 1 false none).run (exNoteSecond.take n)).link.server.calls 0).state 1 = .sent conv) :
    n = 11 ∨ n = 12 := by
  match n with
  | 0 | 1 | 2 | 3 | 4 | 5 | 6 | 7 | 8 | 9 | 10 | 13 | 14 | 15 | 16 => cases h
  | 11 => exact .inl rfl
  | 12 => exact .inr rfl
  | n + 17 =>
    rw [List.take_of_length_le (by simp [exNoteSecond, exNoteTwo, exConnect])] at h
    cases h

/-- The hypotheses of `C97_returns_partial`, with two clients. -/
example :
    let S := fun m => (wireAt 0 false none (exForever exNoteFirst exNoteCycle exNoteCycle_ne) m).link.server
    0 = (S 8).nextCall ∧ ((S 9).calls 0).targets = [(0, [exNotified ["a", "b"] 1]), (1, [exNotified ["a", "b"] 1])] ∧
      ∀ id es, (id, es) ∈ ((S 9).calls 0).targets → ∃ acts, (∀ m, (wireAt id false none acts m).link.server = S m) ∧
        acts 8 = .server (.notify [exNotified ["a", "b"] 1] false true) ∧ WireGoesOn (wireAt id false none acts) acts ∧ NoteGoesOn acts 0 id ∧
        AckInTime (wireAt id false none acts) acts 0 id := by
  intro S
  have ht : ((S 9).calls 0).targets = [(0, [exNotified ["a", "b"] 1]), (1, [exNotified ["a", "b"] 1])] := rfl
  refine ⟨rfl, ht, fun id es hm => ?_⟩
  rw [ht] at hm
  have h0 := exNote_at 0 _ exNoteFirst_idle.choose_spec.fix
  have h1 := exNote_at 1 _ exNoteSecond_idle.choose_spec.fix
  simp only [List.mem_cons, Prod.mk.injEq, List.not_mem_nil, or_false] at hm
  rcases hm with ⟨rfl, -⟩ | ⟨rfl, -⟩
  · refine ⟨exForever exNoteFirst exNoteCycle exNoteCycle_ne, fun m => rfl, rfl, (exNote_goesOn 0 (.inl rfl) _).1, (exNote_goesOn 0 (.inl rfl) _).2, fun n conv h => ?_⟩
    rw [h0] at h ⊢
    rcases exNoteFirst_sent h with rfl | rfl
    · have ha : exForever exNoteFirst exNoteCycle exNoteCycle_ne 10 = .server (.send 0 1) := rfl
      rw [ha]
      exact ⟨fun hh => LoopPhase.noConfusion hh, fun hh => WireAct.noConfusion hh⟩
    · have ha : exForever exNoteFirst exNoteCycle exNoteCycle_ne 11 = .server (.await_ 0 0) := rfl
      rw [ha]
      exact ⟨fun hh => LoopPhase.noConfusion hh, fun hh => WireAct.noConfusion hh⟩
  · refine ⟨exForever exNoteSecond exNoteCycle exNoteCycle_ne, fun m => ?_, rfl, (exNote_goesOn 1 (.inr rfl) _).1, (exNote_goesOn 1 (.inr rfl) _).2, fun n conv h => ?_⟩
    · show _ = (wireAt 0 false none _ m).link.server
      rw [h1, h0]
      exact exNote_same m
    · rw [h1] at h ⊢
      rcases exNoteSecond_sent h with rfl | rfl
      · have ha : exForever exNoteSecond exNoteCycle exNoteCycle_ne 11 = .server (.await_ 0 0) := rfl
        rw [ha]
        exact ⟨fun hh => LoopPhase.noConfusion hh, fun hh => WireAct.noConfusion hh⟩
      · have ha : exForever exNoteSecond exNoteCycle exNoteCycle_ne 12 = .server (.await_ 0 1) := rfl
        rw [ha]
        exact ⟨fun hh => LoopPhase.noConfusion hh, fun hh => WireAct.noConfusion hh⟩

/-- The acknowledgment is received before the future is created. -/
def exNoteEarly : List WireAct :=
  exWireStart ++ [exNote, .server (.send 0 0), .deliver, .client (.callbackDone true), .arrive, .server (.await_ 0 0)]

theorem exNoteEarly_idle : ∃ c, ExNoteIdle ((Wire.init 0 false none).run exNoteEarly) c := by
  refine ⟨_, rfl, rfl, rfl, rfl, rfl, rfl, ?_, ?_⟩
  · rintro i (rfl | rfl)
    · exact ⟨.inl ⟨_, rfl⟩, rfl⟩
    · exact ⟨.inr rfl, rfl⟩
  · rintro i (rfl | rfl)
    · exact .inl ⟨_, rfl⟩
    · exact .inr (.inr ⟨rfl, rfl⟩)

/-- **C97** is false if the acknowledgment may be received before its future is created: the call waits for ever although the client has acknowledged the events, the
connection stays open and everything goes on. -/
theorem C97_early_refuted :
    ¬ ∀ (id : Nat) (useC : Bool) (token : Option String) (acts : Nat → WireAct) (n : Nat) (events : List Event) (persisted : Bool) (es : List Event),
      acts n = .server (.notify events persisted true) →
      (id, es) ∈ ((wireAt id useC token acts (n + 1)).link.server.calls (wireAt id useC token acts n).link.server.nextCall).targets →
      WireGoesOn (wireAt id useC token acts) acts → NoteGoesOn acts (wireAt id useC token acts n).link.server.nextCall id →
      (∀ m, (wireAt id useC token acts m).conn.lost = false) →
      ∃ m, n < m ∧ ((wireAt id useC token acts m).link.server.calls (wireAt id useC token acts n).link.server.nextCall).state id = .done := by
  intro h
  have hat := exNote_at 0 _ exNoteEarly_idle.choose_spec.fix
  obtain ⟨m, h1, h2⟩ := h 0 false none (exForever exNoteEarly exNoteCycle exNoteCycle_ne) 5 [exNotified ["a", "b"] 1] false [exNotified ["a", "b"] 1] rfl (.head _)
    (exNote_goesOn 0 (.inl rfl) _).1 (exNote_goesOn 0 (.inl rfl) _).2 (fun n => by
      rw [hat]
      match n with
      | 0 | 1 | 2 | 3 | 4 | 5 | 6 | 7 | 8 | 9 | 10 => rfl
      | n + 11 =>
        rw [List.take_of_length_le (by simp [exNoteEarly, exWireStart, exConnect])]
        rfl)
  change ((wireAt 0 false none (exForever exNoteEarly exNoteCycle exNoteCycle_ne) m).link.server.calls 0).state 0 = .done at h2
  rw [hat] at h2
  match m with
  | 0 | 1 | 2 | 3 | 4 | 5 => omega
  | 6 | 7 | 8 | 9 | 10 => cases h2
  | n + 11 =>
    rw [List.take_of_length_le (by simp [exNoteEarly, exWireStart, exConnect])] at h2
    cases h2

/-- The client closes the connection and the loop of the server ends before the future is created. -/
def exNoteLost : List WireAct :=
  exWireStart ++ [exNote, .server (.send 0 0), .client .close, .notice, .server (.giveUp 0), .server (.await_ 0 0)]

/-- **C97** is false if the connection loop may end between the sending and the creation of the future: nobody fails the future. -/
theorem C97_lost_refuted :
    ¬ ∀ (id : Nat) (useC : Bool) (token : Option String) (acts : Nat → WireAct) (n : Nat) (events : List Event) (persisted : Bool) (es : List Event),
      acts n = .server (.notify events persisted true) →
      (id, es) ∈ ((wireAt id useC token acts (n + 1)).link.server.calls (wireAt id useC token acts n).link.server.nextCall).targets →
      WireGoesOn (wireAt id useC token acts) acts → NoteGoesOn acts (wireAt id useC token acts n).link.server.nextCall id →
      (∀ m, (wireAt id useC token acts m).conn.acks = []) →
      ∃ m, n < m ∧ ((wireAt id useC token acts m).link.server.calls (wireAt id useC token acts n).link.server.nextCall).state id = .done := by
  intro h
  have hafter : ∀ k, ((wireAt 0 false none (exForever exNoteLost exNoteCycle exNoteCycle_ne) (11 + k)).link.server.conns 0).phase = .ended ∧
      ((wireAt 0 false none (exForever exNoteLost exNoteCycle exNoteCycle_ne) (11 + k)).link.server.conns 0).acks = [] ∧
      ((wireAt 0 false none (exForever exNoteLost exNoteCycle exNoteCycle_ne) (11 + k)).link.server.conns 1).phase = .absent ∧
      ((wireAt 0 false none (exForever exNoteLost exNoteCycle exNoteCycle_ne) (11 + k)).link.server.calls 0).state 0 = .waiting 0 ∧
      ((wireAt 0 false none (exForever exNoteLost exNoteCycle exNoteCycle_ne) (11 + k)).link.server.calls 0).state 1 = .unsent ∧
      ((wireAt 0 false none (exForever exNoteLost exNoteCycle exNoteCycle_ne) (11 + k)).link.server.calls 0).targets.find? (fun t => t.1 = 1) = none := by
    intro k
    induction k with
    | zero => exact ⟨rfl, rfl, rfl, rfl, rfl, rfl⟩
    | succ k ih =>
      have ha : exForever exNoteLost exNoteCycle exNoteCycle_ne (11 + k) ∈ exNoteCycle := exForever_after (pre := exNoteLost) k
      have hmove := wireAt_move (id := 0) (useC := false) (token := none) (acts := exForever exNoteLost exNoteCycle exNoteCycle_ne) (11 + k)
      rw [← Nat.add_assoc]
      generalize (wireAt 0 false none (exForever exNoteLost exNoteCycle exNoteCycle_ne) (11 + k + 1)).link.server = s' at hmove ⊢
      generalize exForever exNoteLost exNoteCycle exNoteCycle_ne (11 + k) = a at ha hmove
      generalize (wireAt 0 false none (exForever exNoteLost exNoteCycle exNoteCycle_ne) (11 + k)).link.server = s at ih hmove
      obtain ⟨h1, h2, h3, h4, h5, h6⟩ := ih
      rcases hmove with e | ⟨act, e, _, hact⟩
      · rw [e]; exact ⟨h1, h2, h3, h4, h5, h6⟩
      · have hsame : ∀ b : EvAct, s.step b = s → s' = s.step b → s' = s := fun b hb e => by rw [e, hb]
        have hkeep : s' = s → (s'.conns 0).phase = .ended ∧ (s'.conns 0).acks = [] ∧ (s'.conns 1).phase = .absent ∧ (s'.calls 0).state 0 = .waiting 0 ∧
            (s'.calls 0).state 1 = .unsent ∧ (s'.calls 0).targets.find? (fun t => t.1 = 1) = none := fun e => by
          rw [e]; exact ⟨h1, h2, h3, h4, h5, h6⟩
        rcases hact with rfl | ⟨msg, rfl⟩ | rfl
        · simp only [exNoteCycle, List.mem_cons, List.not_mem_nil, or_false, WireAct.server.injEq, reduceCtorEq, false_or] at ha
          refine hkeep (hsame act ?_ e)
          rcases ha with rfl | rfl | rfl | rfl | rfl | rfl | rfl | rfl
          · simp only [EvServer.step, reply, h1]
          · simp only [EvServer.step, reply, h3]
          · simp only [EvServer.step, send, h4]
            split <;> first | rfl | (next hh => cases hh)
          · simp only [EvServer.step, send, h6]
          · simp only [EvServer.step, awaitAck, h4]
          · simp only [EvServer.step, awaitAck, h5]
          · simp only [EvServer.step, giveUp, h1]
          · simp only [EvServer.step, giveUp, h3]
        · exact hkeep (hsame _ (by simp only [EvServer.step, receive, h1]) e)
        · rw [e]
          exact ⟨by simpa [EvServer.step, setConn] using h1, by simpa [EvServer.step, setConn] using h2, by simpa [EvServer.step, setConn] using h3, h4, h5, h6⟩
  obtain ⟨m, h1, h2⟩ := h 0 false none (exForever exNoteLost exNoteCycle exNoteCycle_ne) 5 [exNotified ["a", "b"] 1] false [exNotified ["a", "b"] 1] rfl (.head _)
    (exNote_goesOn 0 (.inl rfl) _).1 (exNote_goesOn 0 (.inl rfl) _).2 (fun n => by
      match n with
      | 0 | 1 | 2 | 3 | 4 | 5 | 6 | 7 | 8 | 9 | 10 => rfl
      | n + 11 =>
        rw [wireAt_conn, Nat.add_comm]
        exact (hafter n).2.1)
  change ((wireAt 0 false none (exForever exNoteLost exNoteCycle exNoteCycle_ne) m).link.server.calls 0).state 0 = .done at h2
  match m with
  | 0 | 1 | 2 | 3 | 4 | 5 => omega
  | 6 | 7 | 8 | 9 | 10 => cases h2
  | n + 11 =>
    rw [Nat.add_comm, (hafter n).2.2.2.1] at h2
    cases h2

end HatEvent
