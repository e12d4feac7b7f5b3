import Verif.Model.Announcer
import Verif.Proof.StationKept
import Verif.Proof.RelayClient
import Verif.Proof.DuoStore

/-!
# Notifications of persisted events
-/

namespace HatEvent
open Spec

namespace EvServer

/-- The connection `b` is one of a client that asked for persisted events, and its notifications are `A`. -/
structure AsksPersisted (b : Nat) (A : Event → Prop) (s : EvServer) : Prop where
  connecting : ∀ info, (s.conns b).phase = .connecting info → info.req.persisted = true
  known : ∀ info, (b, info) ∈ s.infos → info.req.persisted = true
  targets : ∀ k es, (b, es) ∈ (s.calls k).targets → ∀ x ∈ es, A x

variable {b : Nat} {A : Event → Prop}

theorem AsksPersisted.same {s t : EvServer} (h : AsksPersisted b A s) (h1 : ∀ info, (t.conns b).phase = .connecting info → (s.conns b).phase = .connecting info)
    (h2 : t.infos ⊆ s.infos) (h3 : ∀ k, (t.calls k).targets = (s.calls k).targets) : AsksPersisted b A t :=
  ⟨fun i hi => h.connecting i (h1 i hi), fun i hi => h.known i (h2 hi), fun k es he => h.targets k es (by rw [← h3]; exact he)⟩

theorem AsksPersisted.more {s : EvServer} (h : AsksPersisted b A s) {B : Event → Prop} (hb : ∀ x, A x → B x) : AsksPersisted b B s :=
  ⟨h.connecting, h.known, fun k es he x hx => hb x (h.targets k es he x hx)⟩

theorem AsksPersisted.conn {s : EvServer} (h : AsksPersisted b A s) (i : Nat) (f : Conn → Conn)
    (hf : ∀ info, (f (s.conns i)).phase = .connecting info → i = b → info.req.persisted = true) : AsksPersisted b A (s.setConn i f) := by
  refine ⟨fun info hi => ?_, h.known, h.targets⟩
  simp only [setConn] at hi
  split at hi
  · next e => exact hf info (by rw [← e]; exact hi) e.symm
  · exact h.connecting info hi

theorem AsksPersisted.ended {s : EvServer} (h : AsksPersisted b A s) (i : Nat) : AsksPersisted b A (s.endLoop i) := by
  refine ⟨fun info hi => ?_, fun info hi => ?_, h.targets⟩
  · rw [endLoop_conns] at hi
    split at hi
    · cases hi
    · exact h.connecting info hi
  · rw [endLoop_infos] at hi
    exact h.known info (List.mem_of_mem_filter hi)

theorem AsksPersisted.posted {s : EvServer} (h : AsksPersisted b A s) (i : Nat) (m : ServerMsg) : AsksPersisted b A (s.post i m) := by
  refine h.conn i _ fun info hi e => ?_
  subst e
  exact h.connecting info hi

theorem AsksPersisted.rejected {s : EvServer} (h : AsksPersisted b A s) (i : Nat) : AsksPersisted b A (s.reject i) := by
  unfold reject
  split
  · exact h.ended i
  · exact (h.posted i _).conn i _ fun info hi => by cases hi

theorem AsksPersisted.delivery {s : EvServer} (h : AsksPersisted b A s) (k i : Nat) (d : Delivery) : AsksPersisted b A (s.setDelivery k i d) := by
  refine h.same (fun _ h => h) (fun _ h => h) fun k' => ?_
  simp only [setDelivery]
  split <;> rfl

theorem AsksPersisted.stepped {s : EvServer} (h : AsksPersisted b A s) (a : EvAct)
    (hi : ∀ req, a = .receive b (.init req) → (s.conns b).phase = .waiting → req.persisted = true)
    (hn : ∀ es ack, a = .notify es true ack → ∀ x ∈ es, A x) : AsksPersisted b A (s.step a) := by
  cases a with
  | accept =>
    have h' : AsksPersisted b A (s.setConn s.nextConn fun c => { c with phase := .waiting }) :=
      h.conn _ _ fun info hi => by cases hi
    exact ⟨h'.connecting, h'.known, h'.targets⟩
  | lose i =>
    have h' : AsksPersisted b A (s.setConn i fun c => { c with lost := true }) :=
      h.conn i _ fun info hc e => by subst e; exact h.connecting info hc
    exact h'
  | receive i msg =>
    simp only [step, receive]
    split
    · next hw =>
      split
      · next req =>
        simp only [initConn]
        split
        · exact h.rejected i
        · split
          · refine h.conn i _ fun info hp e => ?_
            subst e
            cases hp
            exact hi req rfl hw
          · exact h.rejected i
      · exact h.ended i
    · simp only [process]
      split
      · next conv =>
        have h' : AsksPersisted b A (s.setConn i fun c => { c with acks := c.acks ++ [conv] }) :=
          h.conn _ _ fun info hc e => by subst e; exact h.connecting info hc
        exact h'.same (fun _ h => h) (fun _ h => h) fun _ => rfl
      · exact h.conn _ _ fun info hi => by cases hi
      · exact h.conn _ _ fun info hi => by cases hi
      · exact h.ended i
      · exact h.ended i
    · exact h
  | connected i ok =>
    simp only [step, connected]
    split
    · next info hc =>
      split
      · split
        · exact h.ended i
        · have h' := (h.posted i (.initOk s.status)).conn i (fun c => { c with phase := .ready info }) fun info hi => by cases hi
          refine ⟨h'.connecting, fun info' hi => ?_, h'.targets⟩
          rcases List.mem_append.1 hi with hi | hi
          · exact h.known info' hi
          · cases List.mem_singleton.1 hi
            exact h.connecting info hc
      · exact h.rejected i
    · exact h
  | reply i result =>
    have hr : ∀ info msg, AsksPersisted b A (s.respond i info msg) := by
      intro info msg
      unfold respond
      split
      · exact h.ended i
      · exact (h.posted i _).conn i _ fun info hi => by cases hi
    simp only [step, reply]
    split
    · split
      · exact h.ended i
      · split
        · exact h.conn _ _ fun info hi => by cases hi
        · exact hr _ _
      · exact hr _ _
      · exact h
    · exact h
  | giveUp i =>
    simp only [step, giveUp]
    split
    · split
      · exact h.ended i
      · exact h
    · split
      · exact h.ended i
      · exact h
    · exact h.ended i
    · exact h
  | setStatus status =>
    simp only [step, setStatus]
    split
    · exact h
    · exact h.same (fun _ h => h) (fun _ h => h) fun _ => rfl
  | statusStep task =>
    simp only [step, statusStep]
    split
    · exact h
    · next id rest _ =>
      have h' : AsksPersisted b A { s with tasks := fun k => if k = task then rest else s.tasks k } :=
        h.same (fun _ h => h) (fun _ h => h) fun _ => rfl
      split
      · exact h'
      · exact h'.posted _ _
  | notify es persisted ack =>
    refine ⟨h.connecting, h.known, fun k es' he x hx => ?_⟩
    simp only [step, notify] at he
    split at he
    · obtain ⟨p, hp, ht⟩ := List.mem_filterMap.1 he
      unfold target at ht
      split at ht
      · cases ht
      next hper =>
      split at ht
      · cases ht
      · obtain ⟨i, info⟩ := p
        simp only [Option.some.injEq, Prod.mk.injEq] at ht
        obtain ⟨rfl, rfl⟩ := ht
        have := h.known info hp
        have hp' : persisted = true := by
          have : info.req.persisted = persisted := by simpa using hper
          rw [← this]; assumption
        subst hp'
        exact hn es ack rfl x (List.mem_of_mem_filter hx)
    · exact h.targets k es' he x hx
  | send k i =>
    simp only [step, send]
    split
    · next t _ _ =>
      split
      · split
        · exact h.delivery _ _ _
        · refine AsksPersisted.delivery ?_ _ _ _
          have h' := h.posted i (.events k s.nextConv t.2)
          exact ⟨h'.connecting, h'.known, h'.targets⟩
      · exact h
    · exact h
  | await_ k i =>
    simp only [step, awaitAck]
    split
    · exact h.delivery _ _ _
    · exact h

/-- What the client gets. -/
theorem AsksPersisted.got {s : EvServer} (h : AsksPersisted b A s) (hn : NotesOk s) {l : List Event} (hl : l ∈ allNotes (s.conns b).sent) :
    ∀ x ∈ l, A x := by
  unfold allNotes at hl
  obtain ⟨m, hm, he⟩ := List.mem_filterMap.1 hl
  cases m with
  | events k conv es =>
    cases he
    have hk : l ∈ notesOf k (s.conns b).sent := List.mem_filterMap.2 ⟨_, hm, by simp⟩
    rcases hn.note k b with h1 | ⟨_, es, h2, h3 | h3⟩
    · rw [h1.2] at hk; cases hk
    · rw [h3, List.mem_singleton] at hk
      subst hk
      exact h.targets k _ h2
    · rw [h3.2] at hk; cases hk
  | _ => cases he

end EvServer

/-- No message is received and no events are announced. -/
def EvAct.plain : EvAct → Bool
  | .receive _ _ => false
  | .notify _ _ _ => false
  | _ => true

/-- Properties of the eventer server, for actions with their callbacks. -/
theorem Host.holds_step {P : EvServer → Prop} {s : Host} {a : HostAct}
    (h : ∀ (e : EvServer) (x : EvAct), (∀ i m, x = .receive i m → a = .receive i m ∧ e = s.server) →
      (∀ es p w, x = .notify es p w → a = .notify es p w) → P e → P (e.step x)) (hs : P s.server) : P (s.step a).server := by
  have hone : ∀ (t : Host) (x : EvAct), P t.server → x.plain = true → P (t.serve x).server :=
    fun t x ht h1 => h _ x (fun i m e => by subst e; cases h1) (fun es p w e => by subst e; cases h1) ht
  have hcall : ∀ (t : Host) (e i : Nat) (c : HostCall), P t.server → P (t.call e i c).server := fun t e i c ht => ht
  have hdis : ∀ (t : Host) (i : Nat) (info : ConnInfo), P t.server → P (t.onDisconnected i info).server := by
    intro t i info ht
    unfold onDisconnected
    split <;> exact ht
  have hset : ∀ (t : Host) (i : Nat) (info : ConnInfo), P t.server → P (t.settle i info).server := by
    intro t i info ht
    unfold settle
    split
    · exact hdis t i info ht
    · exact ht
  cases a with
  | accept => exact hone s .accept hs rfl
  | lose i => exact hone s (.lose i) hs rfl
  | receive i msg =>
    have hr : P (s.serve (.receive i msg)).server :=
      h s.server (.receive i msg) (fun i m e => by cases e; exact ⟨rfl, rfl⟩) (fun es p w e => by cases e) hs
    show P ((s.serve (.receive i msg)).afterReceive i (s.server.conns i).phase).server
    generalize s.serve (.receive i msg) = t at hr ⊢
    unfold afterReceive
    split
    · unfold onConnected
      split
      · exact hr
      · exact hset _ _ _ (hone _ _ hr rfl)
    · unfold onRegister
      split
      · exact hset _ _ _ (hone _ _ hr rfl)
      · split
        · exact hset _ _ _ (hone _ _ hr rfl)
        · exact hr
    · exact hdis _ _ _ hr
    · exact hr
  | giveUp i =>
    show P (s.giveUp i).server
    unfold giveUp
    split
    · exact hset _ _ _ (hone _ _ hs rfl)
    · exact hone _ _ hs rfl
  | answer i result =>
    show P (s.answer i result).server
    unfold answer
    split
    · split
      · exact hset _ _ _ (hone _ _ hs rfl)
      · exact hone _ _ hs rfl
    · exact hset _ _ _ (hone _ _ hs rfl)
    · exact hs
  | queried i result =>
    show P (s.queried i result).server
    unfold queried
    split
    · split <;> exact hset _ _ _ (hone _ _ hs rfl)
    · exact hs
  | setStatus status engine =>
    show P (s.setStatus status engine).server
    unfold setStatus
    split
    · exact hone s (.setStatus status) hs rfl
    · exact hs
  | closeEngine engine => exact hs
  | statusStep task => exact hone s (.statusStep task) hs rfl
  | notify es p w => exact h s.server (.notify es p w) (fun i m e => by cases e) (fun es p w e => by cases e; rfl) hs
  | send k i => exact hone s (.send k i) hs rfl
  | await_ k i => exact hone s (.await_ k i) hs rfl

namespace Station
open EvServer

variable {b : Nat} {A : Event → Prop}

theorem asksPersisted_host {cf : StationConf} {s : Station} (h : AsksPersisted b A s.host.server) (act : HostAct)
    (hi : ∀ req, act = .receive b (.init req) → (s.conn b).phase = .waiting → req.persisted = true)
    (hn : ∀ es ack, act = .notify es true ack → ∀ x ∈ es, A x) : AsksPersisted b A (s.hostStep cf act).host.server := by
  rw [(hostStep_calls cf s act).host]
  refine Host.holds_step (P := AsksPersisted b A) (fun e x h1 h2 he => he.stepped x (fun req hx hw => ?_) fun es ack hx => ?_) h
  · obtain ⟨h3, rfl⟩ := h1 b _ hx
    exact hi req h3 hw
  · exact hn es ack (h2 es true ack hx)

theorem asksPersisted_step {cf : StationConf} {s : Station} (h : AsksPersisted b A s.host.server) (a : StationAct)
    (hi : ∀ req, a = .host (.receive b (.init req)) → req.persisted = true)
    (hn : ∀ es ack, a = .host (.notify es true ack) → ∀ x ∈ es, A x) : AsksPersisted b A (s.step cf a).host.server := by
  cases a with
  | host act =>
    simp only [step]
    split
    · exact asksPersisted_host h act (fun req e _ => hi req (by rw [e])) fun es ack e => hn es ack (by rw [e])
    · exact h
  | arrive i =>
    simp only [step, arrive]
    split
    · next info c hr _ =>
      split
      · refine asksPersisted_host (cf := cf) h _ (fun req e hw => ?_) nofun
        cases e
        rw [hr] at hw
        cases hw
      · exact h
    · exact h
  | connect i => simp only [step, connect]; split <;> exact h
  | client i act => cases act <;> exact h
  | deliver i =>
    simp only [step, deliver]
    split
    · split <;> exact h
    · exact h
  | answered i =>
    simp only [step, answered]
    split
    · split
      · exact asksPersisted_host h _ nofun nofun
      · exact h
    · exact h
  | queried i =>
    simp only [step, queried]
    split
    · exact asksPersisted_host h _ nofun nofun
    · exact h
  | start modules =>
    simp only [step, start]
    split
    · split <;> exact h
    · split <;> exact h
    · exact h
  | engine e act =>
    simp only [step, engineStep]
    split <;> exact h
  | keep op => cases op <;> exact h
  | remote events => exact h

end Station

/-! ### Flushes -/

/-- Lists that wait for a flush were registered since the backend was opened. -/
theorem registered_since {conf c : Conf} (ops : List BackendOp) : ∀ more, (∀ c, .reopen c ∉ more) → ∀ m,
    ((Backend.new conf).run (ops ++ [.reopen c] ++ more)).mem = some m → ∀ l ∈ m.registered, .register l ∈ more := by
  intro more
  induction more using List.reverseRecOn with
  | nil =>
    intro _ m hm l hl
    rw [List.append_nil] at hm
    have : (Backend.new conf).run (ops ++ [.reopen c]) = ((Backend.new conf).run ops).step (.reopen c) := by simp [Backend.run]
    rw [this] at hm
    simp only [Backend.step] at hm
    split at hm
    · next d m' hd =>
      cases hm
      rw [createDbs_registered hd] at hl
      cases hl
    · cases hm
  | append_singleton more op ih =>
    intro hno m hm l hl
    have hno' : ∀ c, .reopen c ∉ more := fun c hc => hno c (by simp [hc])
    rw [← List.append_assoc] at hm
    have e : (Backend.new conf).run (ops ++ [.reopen c] ++ more ++ [op]) = ((Backend.new conf).run (ops ++ [.reopen c] ++ more)).step op := by
      simp [Backend.run]
    rw [e] at hm
    cases hb : ((Backend.new conf).run (ops ++ [.reopen c] ++ more)).mem with
    | none =>
      cases op with
      | reopen c' => exact absurd (by simp) (hno c')
      | _ =>
        simp only [Backend.step, hb] at hm
        cases hm
    | some m0 =>
      have h0 := ih hno' m0 hb
      rw [List.mem_append]
      cases op with
      | reopen c' => exact absurd (by simp) (hno c')
      | register es =>
        simp only [Backend.step, hb] at hm
        split at hm
        · next m' hr =>
          cases hm
          rw [register_registered hr] at hl
          rcases List.mem_append.1 hl with hl | hl
          · exact .inl (h0 l hl)
          · cases List.mem_singleton.1 hl
            exact .inr (by simp)
        · cases hm
      | touch p =>
        simp only [Backend.step, hb] at hm
        cases hm
        exact .inl (h0 l hl)
      | flush =>
        simp only [Backend.step, hb] at hm
        split at hm
        · cases hm
          cases hl
        · cases hm
      | cleanup fl se now =>
        simp only [Backend.step, hb] at hm
        split at hm
        · next hb' =>
          cases hm
          exact .inl (h0 l hl)
        · cases hm

/-- What a flush announces. -/
theorem flushed_now {b : Backend} {l : List Event} (h : l ∈ (b.step .flush).flushedCb.drop b.flushedCb.length) :
    ∃ m, b.mem = some m ∧ l ∈ m.registered ∧ (b.step .flush).mem ≠ none := by
  cases hm : b.mem with
  | none => simp [Backend.step, hm] at h
  | some m =>
    cases hd : extFlush b.disk m.createChanges.1 with
    | error e => simp [Backend.step, hm, hd] at h
    | ok d =>
      simp only [Backend.step, hm, hd, List.drop_left] at h ⊢
      exact ⟨m, rfl, h, nofun⟩

namespace Announcer

theorem run_snoc (cf : StationConf) (s : Announcer) (acts : List AnnounceAct) (a : AnnounceAct) :
    s.run cf (acts ++ [a]) = (s.run cf acts).step cf a := by simp [run]

/-- A list was registered and written in the process that began with `pre`. -/
def WrittenList (cf : StationConf) (pre : List BackendOp) (s : Station) (l : List Event) : Prop :=
  ∃ xs ys, s = ((Station.init cf pre).run cf xs).run cf ys ∧ (((Station.init cf pre).run cf xs).backend cf).mem ≠ none ∧
    ∃ ops, ((Station.init cf pre).run cf xs).past = pre ++ ops ++ [.flush] ∧ .register l ∈ ops

theorem WrittenList.later {cf : StationConf} {pre : List BackendOp} {s : Station} {l : List Event} (h : WrittenList cf pre s l) (a : StationAct) :
    WrittenList cf pre (s.step cf a) l := by
  obtain ⟨xs, ys, h1, h2⟩ := h
  exact ⟨xs, ys ++ [a], by rw [h1, Station.run_snoc], h2⟩

/-- What the flush loop has done. -/
structure AnnounceOk (cf : StationConf) (pre : List BackendOp) (b : Nat) (s : Announcer) : Prop where
  reached : ∃ xs, s.station = (Station.init cf pre).run cf xs
  written : ∀ l ∈ s.written, WrittenList cf pre s.station l
  announced : ∀ p ∈ s.announced, WrittenList cf pre s.station p.2
  told : EvServer.AsksPersisted b (fun x => ∃ p ∈ s.announced, x ∈ p.2) s.station.host.server

theorem announceOk_init (cf : StationConf) (pre : List BackendOp) (b : Nat) : AnnounceOk cf pre b (init cf pre) :=
  ⟨⟨[], rfl⟩, nofun, nofun, ⟨nofun, nofun, nofun⟩⟩

theorem announceOk_other {cf : StationConf} {pre : List BackendOp} {b : Nat} {s : Announcer} (h : AnnounceOk cf pre b s) (a : StationAct)
    (hi : ∀ req, a = .host (.receive b (.init req)) → req.persisted = true) (hn : ∀ es ack, a ≠ .host (.notify es true ack)) :
    AnnounceOk cf pre b { s with station := s.station.step cf a } := by
  obtain ⟨xs, hx⟩ := h.reached
  refine ⟨⟨xs ++ [a], by rw [Station.run_snoc, ← hx]⟩, fun l hl => (h.written l hl).later a, fun p hp => (h.announced p hp).later a, ?_⟩
  exact Station.asksPersisted_step h.told a hi fun es ack e => absurd e (hn es ack)

theorem announceOk_step {cf : StationConf} {ops : List BackendOp} {c : Conf} {b : Nat} {s : Announcer} (h : AnnounceOk cf (ops ++ [.reopen c]) b s)
    (a : AnnounceAct) (hi : ∀ req, a = .station (.host (.receive b (.init req))) → req.persisted = true) :
    AnnounceOk cf (ops ++ [.reopen c]) b (s.step cf a) := by
  cases a with
  | announce =>
    simp only [step, announce]
    split
    · exact h
    next events rest hw =>
    split
    swap
    · exact h
    obtain ⟨xs, hx⟩ := h.reached
    refine ⟨⟨xs ++ [.host (.notify events true false)], by rw [Station.run_snoc, ← hx]⟩,
      fun l hl => (h.written l (by rw [hw]; exact List.mem_cons_of_mem _ hl)).later (.host (.notify events true false)), fun p hp => ?_, ?_⟩
    · rcases List.mem_append.1 hp with hp | hp
      · exact (h.announced p hp).later (.host (.notify events true false))
      · cases List.mem_singleton.1 hp
        exact (h.written events (by rw [hw]; simp)).later (.host (.notify events true false))
    · refine Station.asksPersisted_step (h.told.more fun x hx => ?_) _ nofun fun es ack e x hx => ?_
      · obtain ⟨p, hp, hx⟩ := hx
        exact ⟨p, List.mem_append_left _ hp, hx⟩
      · cases e
        exact ⟨_, List.mem_append_right _ (List.mem_singleton.2 rfl), hx⟩
  | station act =>
    have hother : (∀ es ack, act ≠ .host (.notify es true ack)) → AnnounceOk cf (ops ++ [.reopen c]) b { s with station := s.station.step cf act } :=
      fun hn => announceOk_other h act (fun req e => hi req (by rw [e])) hn
    unfold step
    split
    · exact h
    · next e =>
      cases e
      unfold flush
      split
      swap
      · exact h
      have h' := hother nofun
      refine ⟨h'.reached, fun l hl => ?_, h'.announced, h'.told⟩
      obtain ⟨xs, hx⟩ := h.reached
      have hpast : (s.station.step cf (.keep .flush)).past = s.station.past ++ [.flush] := rfl
      have hb : (s.station.step cf (.keep .flush)).backend cf = (s.station.backend cf).step .flush := by
        unfold Station.backend
        rw [hpast]
        simp [Backend.run]
      simp only [hb] at hl
      obtain ⟨m, h1, h2, h3⟩ := flushed_now hl
      obtain ⟨more, hm, hno⟩ := Station.past_more cf (Station.init cf (ops ++ [.reopen c])) xs
      rw [← hx] at hm
      have hm : s.station.past = ops ++ [.reopen c] ++ more := hm
      unfold Station.backend at h1
      rw [hm] at h1
      refine ⟨xs ++ [.keep .flush], [], by rw [Station.run_snoc, ← hx]; rfl, ?_, more, ?_, registered_since ops more hno m h1 l h2⟩
      · rw [Station.run_snoc, ← hx, hb]; exact h3
      · rw [Station.run_snoc, ← hx, hpast, hm]
    · next hn _ e =>
      cases e
      exact hother fun es ack e => hn es ack (by rw [e])
    · next e => cases e

theorem announceOk_run {cf : StationConf} {ops : List BackendOp} {c : Conf} {b : Nat} (acts : List AnnounceAct)
    (hi : ∀ req, .station (.host (.receive b (.init req))) ∈ acts → req.persisted = true) :
    AnnounceOk cf (ops ++ [.reopen c]) b ((init cf (ops ++ [.reopen c])).run cf acts) := by
  induction acts using List.reverseRecOn with
  | nil => exact announceOk_init cf _ b
  | append_singleton acts a ih =>
    rw [run_snoc]
    exact announceOk_step (ih fun req hr => hi req (List.mem_append_left _ hr)) a fun req e => hi req (by simp [e])

end Announcer
end HatEvent
