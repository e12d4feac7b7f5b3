import Verif.Proof.EventerConns

/-!
# Notifications of the eventer server
-/

namespace HatEvent
open Spec
namespace EvServer

/-- What a client was sent for a call. -/
def NoteOk (s : EvServer) (k id : Nat) : Prop :=
  ((s.calls k).state id = .unsent ∧ notesOf k (s.conns id).sent = []) ∨
  ((s.calls k).state id ≠ .unsent ∧ ∃ es, (id, es) ∈ (s.calls k).targets ∧
    (notesOf k (s.conns id).sent = [es] ∨ ((s.conns id).lost = true ∧ notesOf k (s.conns id).sent = [])))

structure NotesOk (s : EvServer) : Prop where
  note : ∀ k id, NoteOk s k id
  later : ∀ k, s.nextCall ≤ k → (s.calls k).targets = []

theorem noteOk_calm {s s' : EvServer} (h : Calm s s') {k id : Nat} (hn : NoteOk s k id) : NoteOk s' k id := by
  unfold NoteOk
  rw [h.notes, h.targets]
  rcases hn with ⟨h1, h2⟩ | ⟨h1, es, h2, h3⟩
  · exact .inl ⟨(h.unsent k id).2 h1, h2⟩
  · refine .inr ⟨fun h' => h1 ((h.unsent k id).1 h'), es, h2, ?_⟩
    rcases h3 with h3 | ⟨h3, h4⟩
    · exact .inl h3
    · exact .inr ⟨h.lost id h3, h4⟩

theorem notesOk_calm {s s' : EvServer} (h : Calm s s') (hn : NotesOk s) : NotesOk s' where
  note k id := noteOk_calm h (hn.note k id)
  later k hk := by rw [h.targets]; exact hn.later k (h.nextCall ▸ hk)

/-- Nothing about notifications changes. -/
theorem noteOk_same {s s' : EvServer} {k id : Nat} (hc : s'.calls = s.calls)
    (hs : notesOf k (s'.conns id).sent = notesOf k (s.conns id).sent) (hl : (s'.conns id).lost = (s.conns id).lost)
    (hn : NoteOk s k id) : NoteOk s' k id := by
  unfold NoteOk
  rw [hc, hs, hl]
  exact hn

theorem notesOk_step {s : EvServer} (a : EvAct) (h : NotesOk s) : NotesOk (s.step a) := by
  cases a with
  | accept => exact notesOk_calm (calm_accept s) h
  | lose id => exact notesOk_calm (calm_lose s id) h
  | receive id msg => exact notesOk_calm (calm_receive s id msg) h
  | connected id ok =>
    simp only [step, connected]
    split
    · next info hp =>
      split
      · split
        · exact notesOk_calm (calm_endLoop s id) h
        · refine ⟨fun k i => noteOk_same (s := s) rfl ?_ ?_ (h.note k i), h.later⟩
          · rw [establish_conns]
            split
            · simp [notesOf]
            · rfl
          · rw [establish_conns]
            split <;> rfl
      · exact notesOk_calm (calm_reject s id) h
    · exact h
  | reply id result => exact notesOk_calm (calm_reply s id result) h
  | giveUp id => exact notesOk_calm (calm_giveUp s id) h
  | setStatus status =>
    simp only [step, setStatus]
    split
    · exact h
    · exact ⟨fun k i => noteOk_same (s := s) rfl rfl rfl (h.note k i), h.later⟩
  | statusStep task =>
    simp only [step, statusStep]
    split
    · exact h
    · split
      · exact ⟨fun k i => noteOk_same (s := s) rfl rfl rfl (h.note k i), h.later⟩
      · refine ⟨fun k i => noteOk_same (s := s) rfl ?_ ?_ (h.note k i), h.later⟩
        · rw [post_sent]
          split
          · simp [notesOf]
          · rfl
        · rw [post_lost]
  | notify events persisted withAck =>
    constructor
    · intro k id
      by_cases hk : k = s.nextCall
      · left
        have hn := h.note k id
        have ht := h.later k (by omega)
        constructor
        · simp [step, notify, hk]
        · rcases hn with hn | ⟨_, es, hm, _⟩
          · exact hn.2
          · rw [ht] at hm; cases hm
      · have hn := h.note k id
        unfold NoteOk at hn ⊢
        simp only [step, notify, hk, if_false]
        exact hn
    · intro k hk
      simp only [step, notify] at hk ⊢
      rw [if_neg (by omega)]
      exact h.later k (by omega)
  | send call id =>
    simp only [step, send]
    split
    · next t hf hst =>
      have hm : (id, t.2) ∈ (s.calls call).targets := by
        have h1 := List.mem_of_find?_eq_some hf
        have h2 := List.find?_some hf
        simp only [decide_eq_true_eq] at h2
        rw [← h2]; exact h1
      have hnote : notesOf call (s.conns id).sent = [] := by
        rcases h.note call id with hn | ⟨hn, _⟩
        · exact hn.2
        · exact absurd hst hn
      have hlater : ∀ (s' : EvServer) d, s'.nextCall = s.nextCall → s'.calls = s.calls →
          ∀ k, (s'.setDelivery call id d).nextCall ≤ k → ((s'.setDelivery call id d).calls k).targets = [] := by
        intro s' d h1 h2 k hk
        change s'.nextCall ≤ k at hk
        simp only [setDelivery, h2]
        split
        · exact h.later k (h1 ▸ hk)
        · exact h.later k (h1 ▸ hk)
      split
      · split
        · next hlost =>
          refine ⟨?_, hlater s _ rfl rfl⟩
          intro k i
          by_cases hki : k = call ∧ i = id
          · obtain ⟨rfl, rfl⟩ := hki
            right
            refine ⟨by simp [setDelivery], t.2, by simpa [setDelivery] using hm, .inr ⟨hlost, hnote⟩⟩
          · have hn := h.note k i
            unfold NoteOk at hn ⊢
            by_cases hk : k = call
            · have hi : i ≠ id := fun h => hki ⟨hk, h⟩
              simp only [setDelivery, hk, if_true, hi, if_false]
              rw [hk] at hn
              exact hn
            · simp only [setDelivery, hk, if_false]
              exact hn
        · refine ⟨?_, hlater _ _ rfl rfl⟩
          intro k i
          by_cases hki : k = call ∧ i = id
          · obtain ⟨rfl, rfl⟩ := hki
            right
            refine ⟨?_, t.2, ?_, .inl ?_⟩
            · simp only [setDelivery, if_true]
              split <;> simp
            · simpa [setDelivery, post, setConn] using hm
            · show notesOf k ((s.post i _).conns i).sent = _
              rw [post_sent, if_pos rfl, notesOf_append, hnote]
              simp [notesOf]
          · have hn := h.note k i
            have hsent : notesOf k ((s.post id (.events call s.nextConv t.2)).conns i).sent =
                notesOf k (s.conns i).sent := by
              rw [post_sent]
              split
              · next hi =>
                have hk : call ≠ k := fun h => hki ⟨h.symm, hi⟩
                rw [notesOf_append]
                simp [notesOf, hk]
              · rfl
            have hl := post_lost s id i (.events call s.nextConv t.2)
            unfold NoteOk at hn ⊢
            rw [← hsent, ← hl] at hn
            by_cases hk : k = call
            · have hi : i ≠ id := fun h => hki ⟨hk, h⟩
              subst hk
              simp only [setDelivery, if_true, hi, if_false]
              exact hn
            · simp only [setDelivery, hk, if_false]
              exact hn
      · exact h
    · exact h
  | await_ call id =>
    simp only [step, awaitAck]
    split
    · next conv hst =>
      constructor
      · intro k i
        have hn := h.note k i
        unfold NoteOk at hn ⊢
        by_cases hk : k = call
        · by_cases hi : i = id
          · subst hk; subst hi
            simp only [setDelivery, if_true]
            rcases hn with hn | hn
            · rw [hst] at hn; exact absurd hn.1 (by simp)
            · exact .inr ⟨by simp, hn.2⟩
          · subst hk
            simp only [setDelivery, if_true, hi, if_false]
            exact hn
        · simp only [setDelivery, hk, if_false]
          exact hn
      · intro k hk
        change s.nextCall ≤ k at hk
        simp only [setDelivery]
        split
        · exact h.later k hk
        · exact h.later k hk
    · exact h

theorem notesOk_run (useC : Bool) (token : Option String) (acts : List EvAct) :
    NotesOk ((init useC token).run acts) := by
  induction acts using List.reverseRecOn with
  | nil => exact ⟨fun k id => .inl ⟨rfl, rfl⟩, fun k _ => rfl⟩
  | append_singleton acts a ih => rw [run_snoc]; exact notesOk_step a ih

/-- The clients of a call do not change. -/
theorem targets_step {s : EvServer} (a : EvAct) {k : Nat} (hk : k < s.nextCall) :
    k < (s.step a).nextCall ∧ ((s.step a).calls k).targets = (s.calls k).targets ∧
      ((s.step a).calls k).withAck = (s.calls k).withAck := by
  have calm : ∀ s', Calm s s' → k < s'.nextCall ∧ (s'.calls k).targets = (s.calls k).targets ∧
      (s'.calls k).withAck = (s.calls k).withAck :=
    fun s' h => ⟨h.nextCall ▸ hk, h.targets k, h.withAck k⟩
  cases a with
  | accept => exact calm _ (calm_accept s)
  | lose id => exact calm _ (calm_lose s id)
  | receive id msg => exact calm _ (calm_receive s id msg)
  | connected id ok =>
    simp only [step, connected]
    split
    · split
      · split
        · exact calm _ (calm_endLoop s id)
        · exact ⟨hk, rfl, rfl⟩
      · exact calm _ (calm_reject s id)
    · exact ⟨hk, rfl, rfl⟩
  | reply id result => exact calm _ (calm_reply s id result)
  | giveUp id => exact calm _ (calm_giveUp s id)
  | setStatus status => simp only [step, setStatus]; split <;> exact ⟨hk, rfl, rfl⟩
  | statusStep task =>
    simp only [step, statusStep]
    split
    · exact ⟨hk, rfl, rfl⟩
    · split <;> exact ⟨hk, rfl, rfl⟩
  | notify events persisted withAck =>
    simp only [step, notify]
    rw [if_neg (by omega)]
    exact ⟨by omega, rfl, rfl⟩
  | send call id =>
    simp only [step, send]
    split
    · split
      · split
        · refine ⟨hk, ?_⟩
          simp only [setDelivery]
          split <;> exact ⟨rfl, rfl⟩
        · refine ⟨hk, ?_⟩
          simp only [setDelivery]
          split <;> exact ⟨rfl, rfl⟩
      · exact ⟨hk, rfl, rfl⟩
    · exact ⟨hk, rfl, rfl⟩
  | await_ call id =>
    simp only [step, awaitAck]
    split
    · refine ⟨hk, ?_⟩
      simp only [setDelivery]
      split <;> exact ⟨rfl, rfl⟩
    · exact ⟨hk, rfl, rfl⟩

theorem targets_run {s : EvServer} (acts : List EvAct) {k : Nat} (hk : k < s.nextCall) :
    k < (s.run acts).nextCall ∧ ((s.run acts).calls k).targets = (s.calls k).targets ∧
      ((s.run acts).calls k).withAck = (s.calls k).withAck := by
  induction acts using List.reverseRecOn with
  | nil => exact ⟨hk, rfl, rfl⟩
  | append_singleton acts a ih =>
    rw [run_snoc]
    obtain ⟨h1, h2, h3⟩ := targets_step a ih.1
    exact ⟨h1, h2.trans ih.2.1, h3.trans ih.2.2⟩

/-! ### Acknowledgments -/

/-- What is known about the delivery of a call to a client. -/
def AckOk (s : EvServer) (k id : Nat) : Prop :=
  match (s.calls k).state id with
  | .unsent => True
  | .sent conv => ∃ es, (id, es) ∈ (s.calls k).targets ∧ .events k conv es ∈ (s.conns id).sent
  | .waiting conv => ∃ es, (id, es) ∈ (s.calls k).targets ∧ .events k conv es ∈ (s.conns id).sent
  | .done => (s.calls k).withAck = false ∨ (s.conns id).lost = true ∨
      ∃ conv es, (id, es) ∈ (s.calls k).targets ∧ .events k conv es ∈ (s.conns id).sent ∧ conv ∈ (s.conns id).acks

/-- Connections only grow. -/
structure Grown (c c' : Conn) : Prop where
  sent : ∀ m ∈ c.sent, m ∈ c'.sent
  acks : ∀ m ∈ c.acks, m ∈ c'.acks
  lost : c.lost = true → c'.lost = true

theorem Grown.refl (c : Conn) : Grown c c := ⟨fun _ h => h, fun _ h => h, fun h => h⟩

theorem ackOk_grown {s s' : EvServer} {k id : Nat} (hg : Grown (s.conns id) (s'.conns id))
    (ht : (s'.calls k).targets = (s.calls k).targets) (hw : (s'.calls k).withAck = (s.calls k).withAck)
    (hs : (s'.calls k).state id = (s.calls k).state id) (h : AckOk s k id) : AckOk s' k id := by
  unfold AckOk at *
  rw [hs, ht, hw]
  cases hd : (s.calls k).state id with
  | unsent => trivial
  | sent conv => rw [hd] at h; obtain ⟨es, h1, h2⟩ := h; exact ⟨es, h1, hg.sent _ h2⟩
  | waiting conv => rw [hd] at h; obtain ⟨es, h1, h2⟩ := h; exact ⟨es, h1, hg.sent _ h2⟩
  | done =>
    rw [hd] at h
    rcases h with h | h | ⟨conv, es, h1, h2, h3⟩
    · exact .inl h
    · exact .inr (.inl (hg.lost h))
    · exact .inr (.inr ⟨conv, es, h1, hg.sent _ h2, hg.acks _ h3⟩)

/-- A loop ended, or deliveries are as known. -/
theorem ack_step {s : EvServer} {k : Nat} (a : EvAct) (h : ∀ id, AckOk s k id) :
    (∃ id, (s.conns id).phase ≠ .ended ∧ ((s.step a).conns id).phase = .ended) ∨
      ∀ id, AckOk (s.step a) k id := by
  have hend : ∀ id, (s.conns id).phase ≠ .ended →
      ∃ i, (s.conns i).phase ≠ .ended ∧ ((s.endLoop id).conns i).phase = .ended :=
    fun id hp => ⟨id, hp, by rw [endLoop_conns, if_pos rfl]⟩
  have hrej : ∀ id, (s.conns id).phase ≠ .ended →
      (∃ i, (s.conns i).phase ≠ .ended ∧ ((s.reject id).conns i).phase = .ended) ∨
        ∀ i, AckOk (s.reject id) k i := by
    intro id hp
    by_cases hl : (s.conns id).lost = true
    · left
      exact ⟨id, hp, by rw [reject_conns, if_pos rfl, if_pos hl]⟩
    · right
      intro i
      have e : (s.reject id).calls = s.calls := by unfold reject; rw [if_neg hl]; rfl
      refine ackOk_grown ?_ (by rw [e]) (by rw [e]) (by rw [e]) (h i)
      rw [reject_conns]
      split
      · exact ⟨fun m hm => List.mem_append_left _ hm, fun _ h => h, fun h => h⟩
      · exact .refl _
  have hres : ∀ id info m, (s.conns id).phase ≠ .ended →
      (∃ i, (s.conns i).phase ≠ .ended ∧ ((s.respond id info m).conns i).phase = .ended) ∨
        ∀ i, AckOk (s.respond id info m) k i := by
    intro id info m hp
    by_cases hl : (s.conns id).lost = true
    · left
      exact ⟨id, hp, by rw [respond_conns, if_pos rfl, if_pos hl]⟩
    · right
      intro i
      have e : (s.respond id info m).calls = s.calls := by unfold respond; rw [if_neg hl]; rfl
      refine ackOk_grown ?_ (by rw [e]) (by rw [e]) (by rw [e]) (h i)
      rw [respond_conns]
      split
      · exact ⟨fun m hm => List.mem_append_left _ hm, fun _ h => h, fun h => h⟩
      · exact .refl _
  have hset : ∀ id (f : Conn → Conn), (∀ c, Grown c (f c)) → ∀ i, AckOk (s.setConn id f) k i := by
    intro id f hf i
    refine ackOk_grown (s := s) ?_ rfl rfl rfl (h i)
    rw [setConn_conns]
    split
    · exact hf _
    · exact .refl _
  cases a with
  | accept =>
    right
    intro i
    exact ackOk_grown (s := s) (s' := s.step .accept) (by
      show Grown _ ((s.setConn s.nextConn fun c => { c with phase := .waiting }).conns i)
      rw [setConn_conns]
      split
      · exact ⟨fun _ h => h, fun _ h => h, fun h => h⟩
      · exact .refl _) rfl rfl rfl (h i)
  | lose id => right; exact hset id (fun c => { c with lost := true }) fun c => ⟨fun _ h => h, fun _ h => h, fun _ => rfl⟩
  | receive id msg =>
    simp only [step, receive]
    split
    · next hp =>
      have hne : (s.conns id).phase ≠ .ended := by rw [hp]; simp
      split
      · unfold initConn
        split
        · exact hrej id hne
        · split
          · right; exact hset id _ fun c => ⟨fun _ h => h, fun _ h => h, fun h => h⟩
          · exact hrej id hne
      · exact .inl (hend id hne)
    · next info hp =>
      have hne : (s.conns id).phase ≠ .ended := by rw [hp]; simp
      unfold process
      split
      · next conv =>
        right
        intro i
        have hg : Grown (s.conns i) ((s.acknowledge id conv).conns i) := by
          rw [acknowledge_conns]
          split
          · exact ⟨fun _ h => h, fun m hm => List.mem_append_left _ hm, fun h => h⟩
          · exact .refl _
        by_cases hc : i = id ∧ (s.calls k).state i = .waiting conv
        · have hk := h i
          unfold AckOk at hk ⊢
          have e : ((s.acknowledge id conv).calls k).state i = .done := by
            show (if i = id ∧ (s.calls k).state i = .waiting conv then Delivery.done else (s.calls k).state i) = _
            rw [if_pos hc]
          rw [e]
          rw [hc.2] at hk
          obtain ⟨es, h1, h2⟩ := hk
          refine .inr (.inr ⟨conv, es, h1, hg.sent _ h2, ?_⟩)
          rw [acknowledge_conns, if_pos hc.1]
          exact List.mem_append_right _ (List.mem_singleton.2 rfl)
        · refine ackOk_grown hg rfl rfl ?_ (h i)
          show (if i = id ∧ (s.calls k).state i = .waiting conv then Delivery.done else (s.calls k).state i) = _
          rw [if_neg hc]
      · right; exact hset id _ fun c => ⟨fun _ h => h, fun _ h => h, fun h => h⟩
      · right; exact hset id _ fun c => ⟨fun _ h => h, fun _ h => h, fun h => h⟩
      · exact .inl (hend id hne)
      · exact .inl (hend id hne)
    · exact .inr h
  | connected id ok =>
    simp only [step, connected]
    split
    · next info hp =>
      have hne : (s.conns id).phase ≠ .ended := by rw [hp]; simp
      split
      · split
        · exact .inl (hend id hne)
        · right
          intro i
          refine ackOk_grown (s := s) ?_ rfl rfl rfl (h i)
          rw [establish_conns]
          split
          · exact ⟨fun m hm => List.mem_append_left _ hm, fun _ h => h, fun h => h⟩
          · exact .refl _
      · exact hrej id hne
    · exact .inr h
  | reply id result =>
    simp only [step, reply]
    split
    · next info msg hp =>
      have hne : (s.conns id).phase ≠ .ended := by rw [hp]; simp
      split
      · exact .inl (hend id hne)
      · split
        · right; exact hset id _ fun c => ⟨fun _ h => h, fun _ h => h, fun h => h⟩
        · exact hres id _ _ hne
      · exact hres id _ _ hne
      · exact .inr h
    · exact .inr h
  | giveUp id =>
    simp only [step, giveUp]
    split
    · next hp =>
      split
      · exact .inl (hend id (by rw [hp]; simp))
      · exact .inr h
    · next hp =>
      split
      · exact .inl (hend id (by rw [hp]; simp))
      · exact .inr h
    · next hp => exact .inl (hend id (by rw [hp]; simp))
    · exact .inr h
  | setStatus status =>
    right
    simp only [step, setStatus]
    split <;> exact h
  | statusStep task =>
    right
    simp only [step, statusStep]
    split
    · exact h
    · split
      · exact h
      · next id rest _ _ =>
        intro i
        refine ackOk_grown (s := s) ?_ rfl rfl rfl (h i)
        rw [post, setConn_conns]
        split
        · exact ⟨fun m hm => List.mem_append_left _ hm, fun _ h => h, fun h => h⟩
        · exact .refl _
  | notify events persisted withAck =>
    right
    intro i
    by_cases hk : k = s.nextCall
    · unfold AckOk
      simp [step, notify, hk]
    · have hn := h i
      unfold AckOk at hn ⊢
      simp only [step, notify, hk, if_false]
      exact hn
  | send call id =>
    right
    simp only [step, send]
    split
    · next t hf hst =>
      have hm : (id, t.2) ∈ (s.calls call).targets := by
        have h1 := List.mem_of_find?_eq_some hf
        have h2 := List.find?_some hf
        simp only [decide_eq_true_eq] at h2
        rw [← h2]; exact h1
      split
      · split
        · next hlost =>
          intro i
          by_cases hki : k = call ∧ i = id
          · obtain ⟨rfl, rfl⟩ := hki
            unfold AckOk
            simp only [setDelivery, if_true]
            exact .inr (.inl hlost)
          · have hn := h i
            unfold AckOk at hn ⊢
            by_cases hk : k = call
            · have hi : i ≠ id := fun h => hki ⟨hk, h⟩
              subst hk
              simp only [setDelivery, if_true, hi, if_false]
              exact hn
            · simp only [setDelivery, hk, if_false]
              exact hn
        · intro i
          have hg : Grown (s.conns i) ((s.post id (.events call s.nextConv t.2)).conns i) := by
            rw [post, setConn_conns]
            split
            · exact ⟨fun m hm => List.mem_append_left _ hm, fun _ h => h, fun h => h⟩
            · exact .refl _
          by_cases hki : k = call ∧ i = id
          · obtain ⟨rfl, rfl⟩ := hki
            have hs : ServerMsg.events k s.nextConv t.2 ∈ ((s.post i (.events k s.nextConv t.2)).conns i).sent := by
              rw [post_sent, if_pos rfl]
              exact List.mem_append_right _ (List.mem_singleton.2 rfl)
            unfold AckOk
            cases hw : (s.calls k).withAck with
            | true =>
              simp only [setDelivery, if_true]
              exact ⟨t.2, hm, hs⟩
            | false =>
              simp only [setDelivery, if_true]
              exact .inl hw
          · have hn := ackOk_grown (s := s)
              (s' := { s.post id (.events call s.nextConv t.2) with nextConv := s.nextConv + 1 }) hg rfl rfl rfl (h i)
            unfold AckOk at hn ⊢
            by_cases hk : k = call
            · have hi : i ≠ id := fun h => hki ⟨hk, h⟩
              subst hk
              simp only [setDelivery, if_true, hi, if_false]
              exact hn
            · simp only [setDelivery, hk, if_false]
              exact hn
      · exact h
    · exact h
  | await_ call id =>
    right
    simp only [step, awaitAck]
    split
    · next conv hst =>
      intro i
      have hn := h i
      unfold AckOk at hn ⊢
      by_cases hk : k = call
      · subst hk
        by_cases hi : i = id
        · subst hi
          simp only [setDelivery, if_true]
          rw [hst] at hn
          exact hn
        · simp only [setDelivery, if_true, hi, if_false]
          exact hn
      · simp only [setDelivery, hk, if_false]
        exact hn
    · exact h

end EvServer
end HatEvent
