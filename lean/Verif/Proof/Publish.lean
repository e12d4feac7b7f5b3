import Verif.Model.Publish
import Verif.Proof.EventerNotes
import Verif.Proof.LmdbAsync

/-!
# Backend and eventer server of one event server: proofs
-/

namespace HatEvent
open Spec
namespace EvServer

/-- What stays: lost connections, clients that are not lost, and deliveries that are done. -/
structure Stays (s s' : EvServer) : Prop where
  lost : ∀ id, (s.conns id).lost = true → (s'.conns id).lost = true
  infos : ∀ p ∈ s.infos, (s'.conns p.1).lost = false → p ∈ s'.infos
  done : ∀ k id, k < s.nextCall → (s.calls k).state id = .done → (s'.calls k).state id = .done
  next : s.nextCall ≤ s'.nextCall

theorem Stays.refl (s : EvServer) : Stays s s := ⟨fun _ h => h, fun _ h _ => h, fun _ _ _ h => h, Nat.le_refl _⟩

theorem Stays.trans {a b c : EvServer} (h : Stays a b) (h' : Stays b c) : Stays a c where
  lost id hl := h'.lost id (h.lost id hl)
  infos p hp hl := by
    refine h'.infos p (h.infos p hp ?_) hl
    by_contra hc
    rw [h'.lost p.1 (by simpa using hc)] at hl
    cases hl
  done k id hk hd := h'.done k id (Nat.lt_of_lt_of_le hk h.next) (h.done k id hk hd)
  next := Nat.le_trans h.next h'.next

/-- Nothing but connections changes. -/
theorem stays_conns {s s' : EvServer} (hi : s'.infos = s.infos) (hc : s'.calls = s.calls) (hn : s'.nextCall = s.nextCall)
    (hl : ∀ id, (s.conns id).lost = true → (s'.conns id).lost = true) : Stays s s' :=
  ⟨hl, fun p hp _ => by rw [hi]; exact hp, fun k id _ h => by rw [hc]; exact h, by rw [hn]⟩

theorem stays_set {s : EvServer} {id : Nat} {f : Conn → Conn} (hl : ∀ c : Conn, c.lost = true → (f c).lost = true) :
    Stays s (s.setConn id f) := by
  refine stays_conns rfl rfl rfl fun i h => ?_
  rw [setConn_conns]
  split
  · exact hl _ h
  · exact h

theorem stays_post (s : EvServer) (id : Nat) (m : ServerMsg) : Stays s (s.post id m) :=
  stays_conns rfl rfl rfl fun i h => by rw [post_lost]; exact h

theorem stays_endLoop (s : EvServer) (id : Nat) : Stays s (s.endLoop id) := by
  refine ⟨(calm_endLoop s id).lost, ?_, ?_, Nat.le_refl _⟩
  · intro p hp hl
    refine List.mem_filter.2 ⟨hp, ?_⟩
    simp only [ne_eq, decide_not, Bool.not_eq_eq_eq_not, Bool.not_true, decide_eq_false_iff_not]
    intro h
    rw [endLoop_conns, if_pos h] at hl
    cases hl
  · intro k i _ h
    show failDelivery ((s.calls k).state i) = .done
    rw [h]; rfl

theorem stays_reject (s : EvServer) (id : Nat) : Stays s (s.reject id) := by
  unfold reject
  split
  · exact stays_endLoop s id
  · exact (stays_post s id _).trans (stays_set fun _ h => h)

theorem stays_respond (s : EvServer) (id : Nat) (info : ConnInfo) (m : ServerMsg) : Stays s (s.respond id info m) := by
  unfold respond
  split
  · exact stays_endLoop s id
  · exact (stays_post s id _).trans (stays_set fun _ h => h)

theorem stays_delivery {s : EvServer} {call id : Nat} {d : Delivery} (h : (s.calls call).state id ≠ .done) :
    Stays s (s.setDelivery call id d) := by
  refine ⟨fun _ h => h, fun _ h _ => h, ?_, Nat.le_refl _⟩
  intro k i _ hd
  simp only [setDelivery]
  split
  · next hk =>
    simp only
    split
    · next hi => rw [hk, hi] at hd; exact absurd hd h
    · exact hd
  · exact hd

theorem stays_step (s : EvServer) (a : EvAct) : Stays s (s.step a) := by
  cases a with
  | accept =>
    refine stays_conns rfl rfl rfl fun i h => ?_
    show ((s.setConn s.nextConn fun c => { c with phase := .waiting }).conns i).lost = true
    rw [setConn_conns]
    split <;> exact h
  | lose id => exact stays_set (f := fun c => { c with lost := true }) fun _ _ => rfl
  | receive id msg =>
    simp only [step, receive]
    split
    · split
      · unfold initConn
        split
        · exact stays_reject s id
        · split
          · exact stays_set fun _ h => h
          · exact stays_reject s id
      · exact stays_endLoop s id
    · unfold process
      split
      · refine ⟨(calm_acknowledge s id _).lost, fun p hp _ => hp, ?_, Nat.le_refl _⟩
        intro k i _ hd
        simp only [acknowledge]
        split
        · rfl
        · exact hd
      · exact stays_set fun _ h => h
      · exact stays_set fun _ h => h
      · exact stays_endLoop s id
      · exact stays_endLoop s id
    · exact .refl s
  | connected id ok =>
    simp only [step, connected]
    split
    · split
      · split
        · exact stays_endLoop s id
        · refine ⟨?_, fun p hp _ => List.mem_append_left _ hp, fun k i _ h => h, Nat.le_refl _⟩
          intro i h
          rw [establish_conns]
          split <;> exact h
      · exact stays_reject s id
    · exact .refl s
  | reply id result =>
    simp only [step, reply]
    split
    · split
      · exact stays_endLoop s id
      · split
        · exact stays_set fun _ h => h
        · exact stays_respond s id _ _
      · exact stays_respond s id _ _
      · exact .refl s
    · exact .refl s
  | giveUp id =>
    simp only [step, giveUp]
    split
    · split
      · exact stays_endLoop s id
      · exact .refl s
    · split
      · exact stays_endLoop s id
      · exact .refl s
    · exact stays_endLoop s id
    · exact .refl s
  | setStatus status =>
    simp only [step, setStatus]
    split
    · exact .refl s
    · exact stays_conns rfl rfl rfl fun _ h => h
  | statusStep task =>
    simp only [step, statusStep]
    split
    · exact .refl s
    · split
      · exact stays_conns rfl rfl rfl fun _ h => h
      · refine stays_conns rfl rfl rfl fun i h => ?_
        rw [post_lost]; exact h
  | notify events persisted withAck =>
    refine ⟨fun _ h => h, fun _ h _ => h, ?_, Nat.le_succ _⟩
    intro k i hk h
    show ((if k = s.nextCall then _ else s.calls k : NotifyCall).state i) = .done
    rw [if_neg (by omega)]
    exact h
  | send call id =>
    simp only [step, send]
    split
    · next hu =>
      split
      · split
        · exact stays_delivery (by rw [hu]; exact fun h => nomatch h)
        · refine Stays.trans (b := { s.post id _ with nextConv := s.nextConv + 1 })
            (stays_conns rfl rfl rfl fun i h => ?_) (stays_delivery (by rw [show
              ({ s.post id _ with nextConv := s.nextConv + 1 } : EvServer).calls = s.calls from rfl, hu]; exact fun h => nomatch h))
          show ((s.post id _).conns i).lost = true
          rw [post_lost]; exact h
      · exact .refl s
    · exact .refl s
  | await_ call id =>
    simp only [step, awaitAck]
    split
    · next hs => exact stays_delivery (by rw [hs]; exact fun h => nomatch h)
    · exact .refl s

theorem stays_run (s : EvServer) (acts : List EvAct) : Stays s (s.run acts) := by
  induction acts using List.reverseRecOn with
  | nil => exact .refl s
  | append_singleton acts a ih => rw [run_snoc]; exact ih.trans (stays_step _ a)

/-- A delivery is not begun by anything but its sending. -/
theorem unsent_step {s : EvServer} {k id : Nat} (hk : k < s.nextCall) (h : (s.calls k).state id = .unsent) (a : EvAct)
    (ha : a ≠ .send k id) : ((s.step a).calls k).state id = .unsent := by
  have calm : ∀ s', Calm s s' → (s'.calls k).state id = .unsent := fun s' hc => (hc.unsent k id).2 h
  cases a with
  | accept => exact h
  | lose i => exact h
  | receive i msg => exact calm _ (calm_receive s i msg)
  | connected i ok =>
    simp only [step, connected]
    split
    · split
      · split
        · exact calm _ (calm_endLoop s i)
        · exact h
      · exact calm _ (calm_reject s i)
    · exact h
  | reply i result => exact calm _ (calm_reply s i result)
  | giveUp i => exact calm _ (calm_giveUp s i)
  | setStatus status => simp only [step, setStatus]; split <;> exact h
  | statusStep task =>
    simp only [step, statusStep]
    split
    · exact h
    · split <;> exact h
  | notify events persisted withAck =>
    show ((if k = s.nextCall then _ else s.calls k : NotifyCall).state id) = .unsent
    rw [if_neg (by omega)]
    exact h
  | send call i =>
    have hne : ¬ (k = call ∧ id = i) := fun hh => ha (by rw [hh.1, hh.2])
    have key : ∀ (s' : EvServer) d, s'.calls = s.calls → ((s'.setDelivery call i d).calls k).state id = .unsent := by
      intro s' d hs
      simp only [setDelivery, hs]
      split
      · next hc =>
        simp only
        rw [if_neg fun hi => hne ⟨hc, hi⟩]
        exact h
      · exact h
    simp only [step, send]
    split
    · split
      · split
        · exact key _ _ rfl
        · exact key _ _ rfl
      · exact h
    · exact h
  | await_ call i =>
    simp only [step, awaitAck]
    split
    · next hs =>
      simp only [setDelivery]
      split
      · next hc =>
        simp only
        split
        · next hi => rw [hc, hi, hs] at h; cases h
        · exact h
      · exact h
    · exact h

/-- A call without acknowledgment does not wait for clients. -/
def Plain (s : EvServer) : Prop :=
  ∀ k, (s.calls k).withAck = false → ∀ id, (s.calls k).state id = .unsent ∨ (s.calls k).state id = .done

theorem plain_same {s s' : EvServer} (h : Plain s) (hc : s'.calls = s.calls) : Plain s' := by
  unfold Plain
  rw [hc]
  exact h

theorem plain_endLoop {s : EvServer} (h : Plain s) (id : Nat) : Plain (s.endLoop id) := by
  intro k hk i
  show failDelivery ((s.calls k).state i) = .unsent ∨ failDelivery ((s.calls k).state i) = .done
  rcases h k hk i with h | h <;> simp [h, failDelivery]

theorem plain_reject {s : EvServer} (h : Plain s) (id : Nat) : Plain (s.reject id) := by
  unfold reject
  split
  · exact plain_endLoop h id
  · exact plain_same h rfl

theorem plain_respond {s : EvServer} (h : Plain s) (id : Nat) (info : ConnInfo) (m : ServerMsg) :
    Plain (s.respond id info m) := by
  unfold respond
  split
  · exact plain_endLoop h id
  · exact plain_same h rfl

theorem plain_delivery {s : EvServer} (h : Plain s) (call id : Nat) {d : Delivery}
    (hd : (s.calls call).withAck = false → d = .done) : Plain (s.setDelivery call id d) := by
  intro k hk i
  simp only [setDelivery] at hk ⊢
  split
  · next hc =>
    rw [if_pos hc] at hk
    simp only at hk ⊢
    split
    · right; rw [hc] at hk; exact hd hk
    · exact h k hk i
  · next hc => rw [if_neg hc] at hk; exact h k hk i

theorem plain_step {s : EvServer} (h : Plain s) (a : EvAct) : Plain (s.step a) := by
  cases a with
  | accept => exact plain_same h rfl
  | lose id => exact plain_same h rfl
  | receive id msg =>
    simp only [step, receive]
    split
    · split
      · unfold initConn
        split
        · exact plain_reject h id
        · split
          · exact plain_same h rfl
          · exact plain_reject h id
      · exact plain_endLoop h id
    · unfold process
      split
      · next conv =>
        intro k hk i
        have := h k hk i
        simp only [acknowledge]
        split
        · exact .inr rfl
        · exact this
      · exact plain_same h rfl
      · exact plain_same h rfl
      · exact plain_endLoop h id
      · exact plain_endLoop h id
    · exact h
  | connected id ok =>
    simp only [step, connected]
    split
    · split
      · split
        · exact plain_endLoop h id
        · exact plain_same h rfl
      · exact plain_reject h id
    · exact h
  | reply id result =>
    simp only [step, reply]
    split
    · split
      · exact plain_endLoop h id
      · split
        · exact plain_same h rfl
        · exact plain_respond h id _ _
      · exact plain_respond h id _ _
      · exact h
    · exact h
  | giveUp id =>
    simp only [step, giveUp]
    split
    · split
      · exact plain_endLoop h id
      · exact h
    · split
      · exact plain_endLoop h id
      · exact h
    · exact plain_endLoop h id
    · exact h
  | setStatus status =>
    simp only [step, setStatus]
    split
    · exact h
    · exact plain_same h rfl
  | statusStep task =>
    simp only [step, statusStep]
    split
    · exact h
    · split
      · exact plain_same h rfl
      · exact plain_same h rfl
  | notify events persisted withAck =>
    intro k hk i
    simp only [step, notify] at hk ⊢
    split
    · exact .inl rfl
    · next hc => rw [if_neg hc] at hk; exact h k hk i
  | send call id =>
    simp only [step, send]
    split
    · split
      · split
        · exact plain_delivery h _ _ fun _ => rfl
        · refine plain_delivery (plain_same h rfl) _ _ fun hw => ?_
          have hw : (s.calls call).withAck = false := hw
          simp [hw]
      · exact h
    · exact h
  | await_ call id =>
    simp only [step, awaitAck]
    split
    · next conv hs =>
      refine plain_delivery h _ _ fun hw => ?_
      rcases h call hw id with h | h <;> rw [h] at hs <;> cases hs
    · exact h

theorem plain_run (useC : Bool) (token : Option String) (acts : List EvAct) : Plain ((init useC token).run acts) := by
  induction acts using List.reverseRecOn with
  | nil => exact fun k _ id => .inl rfl
  | append_singleton acts a ih => rw [run_snoc]; exact plain_step ih a

theorem takeWhile_mem {α : Type} {p : α → Bool} {t : α} (ht : p t = false) : ∀ (pre l : List α),
    ∀ x ∈ (pre ++ t :: l).takeWhile p, x ∈ pre
  | [], l, x, hx => by simp [ht] at hx
  | y :: pre, l, x, hx => by
    rw [List.cons_append, List.takeWhile_cons] at hx
    split at hx
    · rcases List.mem_cons.1 hx with rfl | hx
      · exact List.mem_cons_self
      · exact List.mem_cons_of_mem _ (takeWhile_mem ht pre l x hx)
    · simp at hx

/-- The next client of a call is served. -/
theorem send_done {s : EvServer} (hp : Plain s) {k : Nat} (hw : (s.calls k).withAck = false) {t : Nat × List Event}
    {pre l : List (Nat × List Event)} (ht : (s.calls k).targets = pre ++ t :: l)
    (hd : ∀ x ∈ pre, (s.calls k).state x.1 = .done) : ((s.send k t.1).calls k).state t.1 = .done := by
  unfold send
  have hfind : ∃ x, (s.calls k).targets.find? (fun x => x.1 = t.1) = some x := by
    cases hf : (s.calls k).targets.find? (fun x => x.1 = t.1) with
    | some x => exact ⟨x, rfl⟩
    | none =>
      have := List.find?_eq_none.1 hf t (by rw [ht]; simp)
      simp at this
  obtain ⟨x, hx⟩ := hfind
  have hturn : turn (s.calls k) t.1 = true := by
    unfold turn
    rw [hw, Bool.false_or, List.all_eq_true]
    intro y hy
    rw [ht] at hy
    have := takeWhile_mem (t := t) (p := fun x : Nat × List Event => decide (x.1 ≠ t.1)) (by simp) pre l y (by simpa using hy)
    simpa using hd y this
  rcases hp k hw t.1 with h | h
  · simp only [hx, h, hturn, if_true, hw]
    split
    · simp [setDelivery]
    · simp [setDelivery]
  · simp only [hx, h]

/-- A call is finished by serving its clients. -/
theorem finish {k : Nat} : ∀ (l pre : List (Nat × List Event)) (s : EvServer), Plain s → k < s.nextCall →
    (s.calls k).withAck = false → (s.calls k).targets = pre ++ l → (∀ x ∈ pre, (s.calls k).state x.1 = .done) →
    ((s.run (l.map fun t => .send k t.1)).calls k).returned
  | [], pre, s, _, _, _, ht, hd => by
    intro t h
    change t ∈ (s.calls k).targets at h
    rw [ht, List.append_nil] at h
    exact hd t h
  | t :: l, pre, s, hp, hk, hw, ht, hd => by
    have hs := targets_step (.send k t.1) hk
    refine finish l (pre ++ [t]) (s.step (.send k t.1)) (plain_step hp _) hs.1 (hs.2.2.trans hw)
      (by rw [hs.2.1, ht]; simp) ?_
    intro x hx
    rcases List.mem_append.1 hx with hx | hx
    · exact (stays_step s _).done k x.1 hk (hd x hx)
    · obtain rfl := List.mem_singleton.1 hx
      exact send_done hp hw ht hd

/-- Sending to clients loses no connection. -/
theorem lost_sends {k : Nat} : ∀ (l : List Nat) (s : EvServer) (id : Nat),
    ((s.run (l.map (.send k))).conns id).lost = (s.conns id).lost
  | [], s, id => rfl
  | i :: l, s, id => by
    refine (lost_sends l (s.step (.send k i)) id).trans ?_
    simp only [step, send]
    split
    · split
      · split
        · rfl
        · show ((s.post i _).conns id).lost = _
          rw [post_lost]
      · rfl
    · rfl

end EvServer

namespace Publisher

theorem run_snoc (s : Publisher) (acts : List PubAct) (a : PubAct) : s.run (acts ++ [a]) = (s.run acts).step a := by
  simp [run]

theorem run_append (s : Publisher) (xs ys : List PubAct) : s.run (xs ++ ys) = (s.run xs).run ys := by simp [run]

/-- What an action does to the eventer server and to the calls. -/
inductive StepTo (s : Publisher) : Publisher → Prop
  | keep {b : Backend} {c : List Nat} {f : List (List Event)} :
      StepTo s { s with backend := b, cancelled := s.cancelled ++ c, flushing := f }
  | serve {act : EvAct} (hn : ∀ es p w, act ≠ .notify es p w)
      (hc : ∀ k id, act = .send k id → k ∉ s.cancelled) : StepTo s { s with server := s.server.step act }
  | register {b : Backend} {events : List Event} : StepTo s
      { s with server := s.server.step (.notify events false false), backend := b,
               registers := s.registers ++ [(s.server.nextCall, events)] }
  | announce {events : List Event} {rest : List (List Event)} (hf : s.flushing = events :: rest) (h : s.free = true) :
      StepTo s { s with server := s.server.step (.notify events true false),
                        announced := s.announced ++ [(s.server.nextCall, events)], flushing := rest }

theorem stepTo_refl (s : Publisher) : StepTo s s := by
  have := StepTo.keep (s := s) (b := s.backend) (c := []) (f := s.flushing)
  rwa [List.append_nil] at this

theorem stepTo_back (s : Publisher) (b : Backend) : StepTo s { s with backend := b } := by
  have := StepTo.keep (s := s) (b := b) (c := []) (f := s.flushing)
  rwa [List.append_nil] at this

theorem stepTo (s : Publisher) (a : PubAct) : StepTo s (s.step a) := by
  cases a with
  | server act =>
    show StepTo s (s.serve act)
    unfold serve
    split
    · exact stepTo_refl s
    · next k id =>
      split
      · exact stepTo_refl s
      · next hc =>
        refine .serve (fun _ _ _ h => nomatch h) ?_
        intro k' id' h
        cases h
        exact hc
    · next act h1 h2 => exact .serve (fun es p w h => h1 es p w h) fun k id h => absurd h (h2 k id)
  | register events =>
    show StepTo s (s.register events)
    unfold register
    split
    · exact stepTo_refl s
    · unfold stored
      split
      · exact stepTo_back s _
      · exact .register
  | cancel call =>
    show StepTo s (s.cancel call)
    unfold cancel
    split
    · exact .keep
    · exact stepTo_refl s
  | flush =>
    show StepTo s s.flush
    unfold flush
    split
    · have := StepTo.keep (s := s) (b := s.backend.step .flush) (c := [])
        (f := (s.backend.step .flush).flushedCb.drop s.backend.flushedCb.length)
      rwa [List.append_nil] at this
    · exact stepTo_refl s
  | announce =>
    show StepTo s s.announce
    unfold announce
    split
    · exact stepTo_refl s
    · next hf =>
      split
      · next h => exact .announce hf h
      · exact stepTo_refl s
  | backend op =>
    show StepTo s (s.other op)
    unfold other
    split
    · exact stepTo_back s _
    · exact stepTo_back s _
    · exact stepTo_refl s

/-- What the eventer server does in a history is a history of it, in which `notify_events` is called for what is
registered and announced. -/
theorem served (s : Publisher) (acts : List PubAct) : ∃ evs, (s.run acts).server = s.server.run evs ∧
    (∃ r, (s.run acts).registers = s.registers ++ r ∧ ∀ p ∈ r, ∃ e1 e2,
      evs = e1 ++ .notify p.2 false false :: e2 ∧ (s.server.run e1).nextCall = p.1) ∧
    ∃ r, (s.run acts).announced = s.announced ++ r ∧ ∀ p ∈ r, ∃ e1 e2,
      evs = e1 ++ .notify p.2 true false :: e2 ∧ (s.server.run e1).nextCall = p.1 := by
  induction acts using List.reverseRecOn with
  | nil => exact ⟨[], rfl, ⟨[], by simp [run], by simp⟩, ⟨[], by simp [run], by simp⟩⟩
  | append_singleton acts a ih =>
    obtain ⟨evs, h1, ⟨r, h2, h3⟩, ⟨q, h4, h5⟩⟩ := ih
    rw [run_snoc]
    have hst := stepTo (s.run acts) a
    generalize (s.run acts).step a = s' at hst
    have grow : ∀ (l : List (Nat × List Event)) (fl : Bool) (x : EvAct), (∀ p ∈ l, ∃ e1 e2,
        evs = e1 ++ .notify p.2 fl false :: e2 ∧ (s.server.run e1).nextCall = p.1) → ∀ p ∈ l, ∃ e1 e2,
        evs ++ [x] = e1 ++ .notify p.2 fl false :: e2 ∧ (s.server.run e1).nextCall = p.1 := by
      intro l fl x hl p hp
      obtain ⟨e1, e2, g1, g2⟩ := hl p hp
      exact ⟨e1, e2 ++ [x], by rw [g1]; simp, g2⟩
    cases hst with
    | keep => exact ⟨evs, h1, ⟨r, h2, h3⟩, ⟨q, h4, h5⟩⟩
    | @serve act hn hc =>
      exact ⟨evs ++ [act], by rw [EvServer.run_snoc, ← h1], ⟨r, h2, grow r _ _ h3⟩, ⟨q, h4, grow q _ _ h5⟩⟩
    | @register b events =>
      refine ⟨evs ++ [.notify events false false], by rw [EvServer.run_snoc, ← h1],
        ⟨r ++ [((s.run acts).server.nextCall, events)], by simp [h2], ?_⟩, ⟨q, h4, grow q _ _ h5⟩⟩
      intro p hp
      rcases List.mem_append.1 hp with hp | hp
      · exact grow r _ _ h3 p hp
      · obtain rfl := List.mem_singleton.1 hp
        exact ⟨evs, [], rfl, by rw [← h1]⟩
    | @announce events rest hf hfree =>
      refine ⟨evs ++ [.notify events true false], by rw [EvServer.run_snoc, ← h1],
        ⟨r, h2, grow r _ _ h3⟩, ⟨q ++ [((s.run acts).server.nextCall, events)], by simp [h4], ?_⟩⟩
      intro p hp
      rcases List.mem_append.1 hp with hp | hp
      · exact grow q _ _ h5 p hp
      · obtain rfl := List.mem_singleton.1 hp
        exact ⟨evs, [], rfl, by rw [← h1]⟩

theorem over_iff {s : Publisher} {k : Nat} : s.over k = true ↔ (s.server.calls k).returned := by
  unfold over NotifyCall.returned
  rw [List.all_eq_true]
  constructor
  · intro h t ht; simpa using h t ht
  · intro h t ht; simpa using h t ht

/-- A call that returned stays so. -/
theorem returned_step {s : EvServer} {k : Nat} (hk : k < s.nextCall) (h : (s.calls k).returned) (a : EvAct) :
    ((s.step a).calls k).returned := by
  intro t ht
  rw [(EvServer.targets_step a hk).2.1] at ht
  exact (EvServer.stays_step s a).done k t.1 hk (h t ht)

/-- The calls of a flush loop. -/
structure Flushes (s : Publisher) : Prop where
  lists : s.backend.flushedCb = s.announced.map Prod.snd ++ s.flushing
  known : ∀ p ∈ s.announced, p.1 < s.server.nextCall
  former : ∀ l p, s.announced = l ++ [p] → ∀ q ∈ l, (s.server.calls q.1).returned

theorem Flushes.all {s : Publisher} (h : Flushes s) (hf : s.free = true) :
    ∀ q ∈ s.announced, (s.server.calls q.1).returned := by
  intro q hq
  rcases List.eq_nil_or_concat s.announced with he | ⟨l, p, he⟩
  · rw [he] at hq; simp at hq
  · rw [List.concat_eq_append] at he
    rw [he] at hq
    rcases List.mem_append.1 hq with hq | hq
    · exact h.former l p he q hq
    · obtain rfl := List.mem_singleton.1 hq
      unfold free at hf
      rw [he, List.getLast?_append] at hf
      exact over_iff.1 (by simpa using hf)

/-- Lists the callback is called with. -/
theorem flushedCb_step (b : Backend) (op : BackendOp) (h : op ≠ .flush) : (b.step op).flushedCb = b.flushedCb := by
  cases op with
  | flush => exact absurd rfl h
  | register events => simp only [Backend.step]; split; · rfl
                       split <;> rfl
  | touch p => simp only [Backend.step]; split <;> rfl
  | cleanup fl sizeEntries now => simp only [Backend.step]; split; · rfl
                                  split <;> rfl
  | reopen conf => simp only [Backend.step]; split <;> rfl

theorem flushedCb_flush (b : Backend) : ∃ l, (b.step .flush).flushedCb = b.flushedCb ++ l := by
  simp only [Backend.step]
  split
  · exact ⟨[], by simp⟩
  · split
    · exact ⟨_, rfl⟩
    · exact ⟨[], by simp⟩

theorem flushes_server {s : Publisher} (h : Flushes s) (a : EvAct) : Flushes { s with server := s.server.step a } where
  lists := h.lists
  known p hp := Nat.lt_of_lt_of_le (h.known p hp) (EvServer.stays_step s.server a).next
  former l p he q hq := by
    have hm : q ∈ s.announced := by
      have : s.announced = l ++ [p] := he
      rw [this]; exact List.mem_append_left _ hq
    exact returned_step (h.known q hm) (h.former l p he q hq) a

theorem flushes_back {s : Publisher} (h : Flushes s) {b : Backend} (hb : b.flushedCb = s.backend.flushedCb) :
    Flushes { s with backend := b } :=
  ⟨by show b.flushedCb = _; rw [hb]; exact h.lists, h.known, h.former⟩

theorem flushes_step {s : Publisher} (h : Flushes s) (a : PubAct) : Flushes (s.step a) := by
  cases a with
  | server act =>
    show Flushes (s.serve act)
    unfold serve
    split
    · exact h
    · split
      · exact h
      · exact flushes_server h _
    · exact flushes_server h _
  | register events =>
    show Flushes (s.register events)
    unfold register
    split
    · exact h
    · unfold stored
      have hb := flushedCb_step s.backend (.register events) (fun h => nomatch h)
      split
      · exact flushes_back h hb
      · have := flushes_back (flushes_server h (.notify events false false)) (b := s.backend.step (.register events)) hb
        exact ⟨this.lists, this.known, this.former⟩
  | cancel call =>
    show Flushes (s.cancel call)
    unfold cancel
    split
    · exact ⟨h.lists, h.known, h.former⟩
    · exact h
  | flush =>
    show Flushes s.flush
    unfold flush
    split
    · next hc =>
      simp only [Bool.and_eq_true, List.isEmpty_iff] at hc
      refine ⟨?_, h.known, h.former⟩
      obtain ⟨l, hl⟩ := flushedCb_flush s.backend
      have h1 := h.lists
      rw [hc.1, List.append_nil] at h1
      show (s.backend.step .flush).flushedCb = s.announced.map Prod.snd ++ (s.backend.step .flush).flushedCb.drop _
      rw [hl, List.drop_left, ← h1]
    · exact h
  | announce =>
    show Flushes s.announce
    unfold announce
    split
    · exact h
    · next events rest hf =>
      split
      swap
      · exact h
      next hfree =>
      have hall := h.all hfree
      refine ⟨?_, ?_, ?_⟩
      · show s.backend.flushedCb = (s.announced ++ [(s.server.nextCall, events)]).map Prod.snd ++ rest
        rw [h.lists, hf]; simp
      · intro p hp
        show p.1 < s.server.nextCall + 1
        rcases List.mem_append.1 hp with hp | hp
        · exact Nat.lt_succ_of_lt (h.known p hp)
        · rw [List.mem_singleton.1 hp]; exact Nat.lt_succ_self _
      · intro l p he q hq
        have he : s.announced ++ [(s.server.nextCall, events)] = l ++ [p] := he
        obtain ⟨e1, _⟩ := List.append_inj' he rfl
        rw [← e1] at hq
        exact returned_step (h.known q hq) (hall q hq) (.notify events true false)
  | backend op =>
    show Flushes (s.other op)
    unfold other
    split
    · exact flushes_back h (flushedCb_step _ _ fun h => nomatch h)
    · exact flushes_back h (flushedCb_step _ _ fun h => nomatch h)
    · exact h

theorem flushes_run {s : Publisher} (h : Flushes s) (acts : List PubAct) : Flushes (s.run acts) := by
  induction acts using List.reverseRecOn with
  | nil => exact h
  | append_singleton acts a ih => rw [run_snoc]; exact flushes_step ih a

theorem flushes_init (conf : Conf) (useC : Bool) (token : Option String) : Flushes (init conf useC token) where
  lists := by
    show ((Backend.new conf).step (.reopen conf)).flushedCb = []
    rw [flushedCb_step (Backend.new conf) (.reopen conf) (fun h => nomatch h)]; rfl
  known := by simp [init]
  former l p he := by
    have : ([] : List (Nat × List Event)) = l ++ [p] := he
    simp at this

/-- What was registered is flushed or waits to be. -/
structure Queued (s : Publisher) : Prop where
  refLe : ∀ m, s.backend.mem = some m → RefLe m
  lists : match s.backend.mem with
    | some m => s.registers.map Prod.snd = s.backend.flushedCb ++ m.registered
    | none => s.backend.flushedCb <+: s.registers.map Prod.snd

theorem queued_of {s s' : Publisher} (h : Queued s) (hb : s'.backend = s.backend) (hr : s'.registers = s.registers) :
    Queued s' := by
  refine ⟨by rw [hb]; exact h.refLe, ?_⟩
  rw [hb, hr]
  exact h.lists

theorem queued_back {s : Publisher} (h : Queued s) (op : BackendOp) (ho : ∀ es, op ≠ .register es) (hr : ∀ c, op ≠ .reopen c) :
    Queued { s with backend := s.backend.step op } := by
  refine ⟨step_refLe h.refLe op, ?_⟩
  have hl := h.lists
  cases op with
  | register es => exact absurd rfl (ho es)
  | reopen c => exact absurd rfl (hr c)
  | touch p =>
    simp only [Backend.step]
    cases hm : s.backend.mem with
    | none => simp only [hm] at hl ⊢; exact hl
    | some m => simp only [hm] at hl ⊢; exact hl
  | flush =>
    simp only [Backend.step]
    cases hm : s.backend.mem with
    | none => simp only [hm] at hl ⊢; exact hl
    | some m =>
      simp only [hm] at hl ⊢
      cases hx : extFlush s.backend.disk m.createChanges.1 with
      | ok disk => simp only [List.append_nil]; exact hl
      | error e => simp only; exact ⟨m.registered, hl.symm⟩
  | cleanup fl sizeEntries now =>
    simp only [Backend.step]
    cases hm : s.backend.mem with
    | none => simp only [hm] at hl ⊢; exact hl
    | some m =>
      simp only [hm] at hl ⊢
      cases hx : extCleanup fl sizeEntries now m.timeseries.partitions s.backend.disk with
      | ok r => simp only [hm]; exact hl
      | error e => simp only; exact ⟨m.registered, hl.symm⟩

theorem queued_step {s : Publisher} (h : Queued s) (a : PubAct) : Queued (s.step a) := by
  cases a with
  | server act =>
    show Queued (s.serve act)
    unfold serve
    split
    · exact h
    · split
      · exact h
      · exact queued_of h rfl rfl
    · exact queued_of h rfl rfl
  | register events =>
    show Queued (s.register events)
    unfold register
    cases hm : s.backend.mem with
    | none => exact h
    | some m =>
      simp only
      obtain ⟨m', h1, h2, _, h4⟩ := register_total (conf := s.backend.conf) (h.refLe m hm) events
      have hb : s.backend.step (.register events) = { s.backend with mem := some m' } := by
        simp only [Backend.step, hm, h1]
      rw [hb]
      unfold stored
      simp only
      refine ⟨?_, ?_⟩
      · rintro _ ⟨⟩; exact h2
      · have hl := h.lists
        simp only [hm] at hl
        simp only [List.map_append, List.map_cons, List.map_nil, hl, h4, List.append_assoc]
  | cancel call =>
    show Queued (s.cancel call)
    unfold cancel
    split
    · exact queued_of h rfl rfl
    · exact h
  | flush =>
    show Queued s.flush
    unfold flush
    split
    · exact queued_of (queued_back h .flush (fun _ h => nomatch h) (fun _ h => nomatch h)) rfl rfl
    · exact h
  | announce =>
    show Queued s.announce
    unfold announce
    split
    · exact h
    · split
      · exact queued_of h rfl rfl
      · exact h
  | backend op =>
    show Queued (s.other op)
    unfold other
    split
    · exact queued_back h _ (fun _ h => nomatch h) (fun _ h => nomatch h)
    · exact queued_back h _ (fun _ h => nomatch h) (fun _ h => nomatch h)
    · exact h

theorem queued_run {s : Publisher} (h : Queued s) (acts : List PubAct) : Queued (s.run acts) := by
  induction acts using List.reverseRecOn with
  | nil => exact h
  | append_singleton acts a ih => rw [run_snoc]; exact queued_step ih a

/-- A call whose caller was cancelled sends nothing more. -/
theorem cancelled_step {s : Publisher} {k id : Nat} (hk : k < s.server.nextCall) (hc : k ∈ s.cancelled)
    (hu : (s.server.calls k).state id = .unsent) (a : PubAct) :
    k < (s.step a).server.nextCall ∧ k ∈ (s.step a).cancelled ∧ ((s.step a).server.calls k).state id = .unsent := by
  have hst := stepTo s a
  generalize s.step a = s' at hst
  have key : ∀ x : EvAct, x ≠ .send k id → k < (s.server.step x).nextCall ∧
      ((s.server.step x).calls k).state id = .unsent :=
    fun x hx => ⟨(EvServer.targets_step x hk).1, EvServer.unsent_step hk hu x hx⟩
  cases hst with
  | keep => exact ⟨hk, List.mem_append_left _ hc, hu⟩
  | serve hn hs =>
    have := key _ (fun h => hs _ _ h hc)
    exact ⟨this.1, hc, this.2⟩
  | @register b events =>
    have := key (.notify events false false) (fun h => nomatch h)
    exact ⟨this.1, hc, this.2⟩
  | @announce events rest hf hfree =>
    have := key (.notify events true false) (fun h => nomatch h)
    exact ⟨this.1, hc, this.2⟩

theorem cancelled_run {s : Publisher} {k id : Nat} (hk : k < s.server.nextCall) (hc : k ∈ s.cancelled)
    (hu : (s.server.calls k).state id = .unsent) (acts : List PubAct) :
    k < (s.run acts).server.nextCall ∧ k ∈ (s.run acts).cancelled ∧
      ((s.run acts).server.calls k).state id = .unsent := by
  induction acts using List.reverseRecOn with
  | nil => exact ⟨hk, hc, hu⟩
  | append_singleton acts a ih => rw [run_snoc]; exact cancelled_step ih.1 ih.2.1 ih.2.2 a

/-- Calls of the flush loop are not cancelled. -/
structure Apart (s : Publisher) : Prop where
  regs : ∀ p ∈ s.registers, p.1 < s.server.nextCall
  anns : ∀ p ∈ s.announced, p.1 < s.server.nextCall
  disj : ∀ p ∈ s.registers, ∀ q ∈ s.announced, p.1 ≠ q.1
  canc : ∀ k ∈ s.cancelled, ∃ p ∈ s.registers, p.1 = k
  plain : ∀ q ∈ s.announced ++ s.registers, (s.server.calls q.1).withAck = false

theorem apart_server {s : Publisher} (h : Apart s) (a : EvAct) : Apart { s with server := s.server.step a } where
  regs p hp := (EvServer.targets_step a (h.regs p hp)).1
  anns p hp := (EvServer.targets_step a (h.anns p hp)).1
  disj := h.disj
  canc := h.canc
  plain q hq := by
    have hk : q.1 < s.server.nextCall := by
      rcases List.mem_append.1 hq with h1 | h1
      · exact h.anns q h1
      · exact h.regs q h1
    exact (EvServer.targets_step a hk).2.2.trans (h.plain q hq)

theorem apart_step {s : Publisher} (h : Apart s) (a : PubAct) : Apart (s.step a) := by
  by_cases hcancel : ∃ call, a = .cancel call
  · obtain ⟨call, rfl⟩ := hcancel
    show Apart (s.cancel call)
    unfold cancel
    split
    · next hc =>
      refine ⟨h.regs, h.anns, h.disj, ?_, h.plain⟩
      intro k hk
      rcases List.mem_append.1 hk with hk | hk
      · exact h.canc k hk
      · obtain rfl := List.mem_singleton.1 hk
        obtain ⟨p, hp, hpk⟩ := List.any_eq_true.1 hc
        exact ⟨p, hp, by simpa using hpk⟩
    · exact h
  have hsame : (s.step a).cancelled = s.cancelled := by
    cases a with
    | server act => simp only [step, serve]; split <;> (try split) <;> rfl
    | register events =>
      simp only [step, register]
      split
      · rfl
      · simp only [stored]; split <;> rfl
    | cancel call => exact absurd ⟨call, rfl⟩ hcancel
    | flush => simp only [step, flush]; split <;> rfl
    | announce => simp only [step, announce]; split; · rfl
                  split <;> rfl
    | backend op => simp only [step, other]; split <;> rfl
  have hst := stepTo s a
  generalize s.step a = s' at hst hsame
  cases hst with
  | keep =>
    refine ⟨h.regs, h.anns, h.disj, ?_, h.plain⟩
    intro k hk
    exact h.canc k (by rw [← hsame]; exact hk)
  | serve hn hc => exact apart_server h _
  | @register b events =>
    have h1 := apart_server h (.notify events false false)
    refine ⟨?_, h1.anns, ?_, ?_, ?_⟩
    · intro p hp
      rcases List.mem_append.1 hp with hp | hp
      · exact h1.regs p hp
      · rw [List.mem_singleton.1 hp]; exact Nat.lt_succ_self _
    · intro p hp q hq
      rcases List.mem_append.1 hp with hp | hp
      · exact h.disj p hp q hq
      · rw [List.mem_singleton.1 hp]; exact Nat.ne_of_gt (h.anns q hq)
    · intro k hk
      obtain ⟨p, h2, h3⟩ := h.canc k hk
      exact ⟨p, List.mem_append_left _ h2, h3⟩
    · intro q hq
      rw [← List.append_assoc] at hq
      rcases List.mem_append.1 hq with hq | hq
      · exact h1.plain q hq
      · rw [List.mem_singleton.1 hq]
        show (if s.server.nextCall = s.server.nextCall then _ else _ : NotifyCall).withAck = false
        rw [if_pos rfl]
  | @announce events rest hf hfree =>
    have h1 := apart_server h (.notify events true false)
    refine ⟨h1.regs, ?_, ?_, h.canc, ?_⟩
    · intro p hp
      rcases List.mem_append.1 hp with hp | hp
      · exact h1.anns p hp
      · rw [List.mem_singleton.1 hp]; exact Nat.lt_succ_self _
    · intro p hp q hq
      rcases List.mem_append.1 hq with hq | hq
      · exact h.disj p hp q hq
      · rw [List.mem_singleton.1 hq]; exact Nat.ne_of_lt (h.regs p hp)
    · intro q hq
      have hq : q ∈ (s.announced ++ [(s.server.nextCall, events)]) ++ s.registers := hq
      rcases List.mem_append.1 hq with hq | hq
      · rcases List.mem_append.1 hq with hq | hq
        · exact h1.plain q (List.mem_append_left _ hq)
        · rw [List.mem_singleton.1 hq]
          show (if s.server.nextCall = s.server.nextCall then _ else _ : NotifyCall).withAck = false
          rw [if_pos rfl]
      · exact h1.plain q (List.mem_append_right _ hq)

theorem apart_run {s : Publisher} (h : Apart s) (acts : List PubAct) : Apart (s.run acts) := by
  induction acts using List.reverseRecOn with
  | nil => exact h
  | append_singleton acts a ih => rw [run_snoc]; exact apart_step ih a

theorem apart_init (conf : Conf) (useC : Bool) (token : Option String) : Apart (init conf useC token) := by
  constructor <;> simp [init]

/-- Messages of a call that is not cancelled. -/
theorem run_sends {k : Nat} : ∀ (l : List Nat) (s : Publisher), k ∉ s.cancelled →
    s.run (l.map fun id => .server (.send k id)) = { s with server := s.server.run (l.map (.send k)) }
  | [], s, _ => rfl
  | id :: l, s, hc => by
    have h1 : s.step (.server (.send k id)) = { s with server := s.server.step (.send k id) } := by
      show s.serve (.send k id) = _
      simp only [serve, if_neg hc]
    show (s.step (.server (.send k id))).run _ = _
    rw [h1, run_sends l { s with server := s.server.step (.send k id) } hc]
    rfl

end Publisher
end HatEvent
