import Verif.Proof.WireAlive
import Verif.Proof.Forever
import Verif.Props.Answers

/-!
# Requests of a client end (C94)

The schedules of these theorems do not end.
-/

namespace HatEvent
open Spec EvServer

section
variable {id : Nat} {useC : Bool} {token : Option String} {acts : Nat → WireAct}

/-- What is known of a client with an unfinished call. -/
structure WireView (id : Nat) (useC : Bool) (token : Option String) (s : Wire) (c : ReqClient) (k conv : Nat) : Prop where
  client : s.link.client = some c
  reached : ∃ status cacts, c = (ReqClient.init status).run cacts
  made : k < c.nextCall
  going : ReqClient.Going conv (c.calls k)

/-- One action. -/
theorem wireView_step {s : Wire} {c : ReqClient} {k conv : Nat} (h : WireView id useC token s c k conv) (a : WireAct)
    (hu : ∀ c', (s.step a).link.client = some c' → ∀ e, c'.calls k ≠ .finished e) :
    WireView id useC token (s.step a) (c.run (s.clientActs a)) k conv := by
  have hc := Wire.client_step h.client a
  refine ⟨hc, ?_, ?_, ?_⟩
  · obtain ⟨status, cacts, rfl⟩ := h.reached
    exact ⟨status, cacts ++ s.clientActs a, by rw [ReqClient.run_append]⟩
  · rcases Wire.clientActs_cases s a with e | ⟨act, e⟩
    · rw [e]; exact h.made
    · rw [e]; exact Nat.lt_of_lt_of_le h.made (ReqClient.next_step c act).1
  · have hu := hu _ hc
    rcases Wire.clientActs_cases s a with e | ⟨act, e⟩
    · rw [e]; exact h.going
    · rw [e] at hu ⊢
      rcases ReqClient.going_step act h.made h.going with h' | ⟨x, h'⟩
      · exact h'
      · exact absurd h' (hu x)

end

/-- A call that never ends. -/
structure WireStuck (id : Nat) (useC : Bool) (token : Option String) (acts : Nat → WireAct) (k conv N : Nat) : Prop where
  goesOn : WireGoesOn (wireAt id useC token acts) acts
  call : CallGoesOn acts k
  starts : LoopStarts (wireAt id useC token acts)
  inTime : NotOvertaken (wireAt id useC token acts) acts k
  view : ∃ c, WireView id useC token (wireAt id useC token acts N) c k conv
  endless : ∀ n, N ≤ n → ∀ c, (wireAt id useC token acts n).link.client = some c → ∀ e, c.calls k ≠ .finished e

namespace WireStuck
variable {id : Nat} {useC : Bool} {token : Option String} {acts : Nat → WireAct} {k conv N : Nat}

theorem at_ (h : WireStuck id useC token acts k conv N) (n : Nat) (hn : N ≤ n) :
    ∃ c, WireView id useC token (wireAt id useC token acts n) c k conv := by
  induction n, hn using Nat.le_induction with
  | base => exact h.view
  | succ n hn ih =>
    obtain ⟨c, hc⟩ := ih
    have := wireView_step hc (acts n) (by rw [← wireAt_succ]; exact h.endless (n + 1) (by omega))
    rw [← wireAt_succ] at this
    exact ⟨_, this⟩

/-- The next state of the client. -/
theorem next (h : WireStuck id useC token acts k conv N) {n : Nat} (hn : N ≤ n) {c : ReqClient}
    (hc : (wireAt id useC token acts n).link.client = some c) :
    WireView id useC token (wireAt id useC token acts (n + 1)) (c.run ((wireAt id useC token acts n).clientActs (acts n))) k conv := by
  obtain ⟨c', hv⟩ := h.at_ n hn
  have e := hv.client
  rw [hc] at e
  obtain rfl := Option.some.inj e
  have := wireView_step hv (acts n) (by rw [← wireAt_succ]; exact h.endless (n + 1) (by omega))
  rwa [← wireAt_succ] at this

theorem view_of (h : WireStuck id useC token acts k conv N) {n : Nat} (hn : N ≤ n) {c : ReqClient}
    (hc : (wireAt id useC token acts n).link.client = some c) : WireView id useC token (wireAt id useC token acts n) c k conv := by
  obtain ⟨c', hv⟩ := h.at_ n hn
  have e := hv.client
  rw [hc] at e
  obtain rfl := Option.some.inj e
  exact hv

/-- A property of the client that is kept. -/
theorem kept (h : WireStuck id useC token acts k conv N) {P Q : ReqClient → Prop} {A : WireAct → Prop} {n : Nat} (hn : N ≤ n)
    {c : ReqClient} (hc : (wireAt id useC token acts n).link.client = some c) (hP : P c)
    (hkeep : ∀ p, n ≤ p → ∀ c, WireView id useC token (wireAt id useC token acts p) c k conv → P c →
      ∀ act, (wireAt id useC token acts p).clientActs (acts p) = [act] → P (c.step act) ∨ Q (c.step act))
    (hoft : ∃ p, n ≤ p ∧ A (acts p))
    (hdoes : ∀ p, n ≤ p → ∀ c, WireView id useC token (wireAt id useC token acts p) c k conv → P c → A (acts p) →
      Q (c.run ((wireAt id useC token acts p).clientActs (acts p)))) :
    ∃ m, n ≤ m ∧ ∃ c, (wireAt id useC token acts m).link.client = some c ∧ Q c := by
  refine until_done (acts := acts) (A := A) (P := fun p => ∃ c, (wireAt id useC token acts p).link.client = some c ∧ P c) ⟨c, hc, hP⟩ ?_ hoft ?_
  · rintro p hp ⟨c, hc, hP⟩
    have hv := h.view_of (by omega) hc
    have hv' := h.next (by omega) hc
    rcases Wire.clientActs_cases (wireAt id useC token acts p) (acts p) with e | ⟨act, e⟩
    · rw [e] at hv'
      exact .inl ⟨c, hv'.client, hP⟩
    · rcases hkeep p hp c hv hP act e with h' | h'
      · rw [e] at hv'; exact .inl ⟨_, hv'.client, h'⟩
      · rw [e] at hv'; exact .inr ⟨_, hv'.client, h'⟩
  · rintro p hp ⟨c, hc, hP⟩ ha
    exact ⟨_, (h.next (by omega) hc).client, hdoes p hp c (h.view_of (by omega) hc) hP ha⟩

theorem not_resolved (h : WireStuck id useC token acts k conv N) {n : Nat} (hn : N ≤ n) {c : ReqClient}
    (hc : (wireAt id useC token acts n).link.client = some c) (e : CallEnd) : c.calls k ≠ .resolved conv e := by
  intro hr
  have key : ∃ m, n ≤ m ∧ ∃ c, (wireAt id useC token acts m).link.client = some c ∧ ∃ x, c.calls k = .finished x := by
    refine h.kept (P := fun c => c.calls k = .resolved conv e) (Q := fun c => ∃ x, c.calls k = .finished x)
      (A := fun a => a = .client (.resume k)) hn hc hr ?_ (h.call.resume n) ?_
    · intro p hp c hv hP act _
      have hm := ReqClient.moves_step c act k
      generalize (c.step act).calls k = q at hm
      cases hm with
      | stay => exact .inl hP
      | made h1 p w ha hp => have := hv.made; omega
      | wait _ h1 => rw [hP] at h1; cases h1
      | fail _ h1 => rw [hP] at h1; cases h1
      | sent _ h1 => rw [hP] at h1; cases h1
      | resume _ _ h1 => exact .inr ⟨_, rfl⟩
      | cancel => exact .inr ⟨_, rfl⟩
      | answer _ _ h1 => rw [hP] at h1; cases h1
      | close _ _ h1 => rw [hP] at h1; cases h1
    · rintro p hp c hv hP ha
      rw [ha]
      refine ⟨e, ?_⟩
      show (c.resume k).calls k = _
      unfold ReqClient.resume
      rw [hP]
      simp [ReqClient.setCall]
  obtain ⟨m, hm, c', hc', x, hx⟩ := key
  exact h.endless m (by omega) c' hc' x hx

theorem not_ended (h : WireStuck id useC token acts k conv N) {n : Nat} (hn : N ≤ n) {c : ReqClient}
    (hc : (wireAt id useC token acts n).link.client = some c) : c.loop ≠ .ended := by
  intro hl
  have key : ∃ m, n ≤ m ∧ ∃ c, (wireAt id useC token acts m).link.client = some c ∧ ∃ x, c.calls k = .finished x := by
    refine h.kept (P := fun c => c.loop = .ended) (Q := fun c => ∃ x, c.calls k = .finished x)
      (A := fun a => a = .client (.sendDone k)) hn hc hl ?_ (h.call.sendDone n) ?_
    · intro p hp c hv hP act _
      exact .inl (ReqClient.ended_step act hP)
    · rintro p hp c hv hP ha
      rw [ha]
      obtain ⟨status, cacts, rfl⟩ := hv.reached
      obtain ⟨ho, hq⟩ := ReqClient.quiet_run status cacts hP
      have hg := hv.going
      have hr := h.not_resolved (by omega) hv.client
      refine ⟨.connectionError, ?_⟩
      show ReqClient.calls (ReqClient.sendDone _ k) k = _
      generalize (ReqClient.init status).run cacts = c at *
      generalize hp : c.calls k = q at *
      cases hg with
      | sending => simp [ReqClient.sendDone, hp, ho, ReqClient.setCall]
      | waiting => exact absurd hp (hq k conv)
      | resolved e => exact absurd rfl (hr e)
  obtain ⟨m, hm, c', hc', x, hx⟩ := key
  exact h.endless m (by omega) c' hc' x hx

theorem is_open (h : WireStuck id useC token acts k conv N) {n : Nat} (hn : N ≤ n) {c : ReqClient}
    (hc : (wireAt id useC token acts n).link.client = some c) : c.isOpen = true := by
  by_contra ho
  have ho : c.isOpen = false := by simpa using ho
  have key : ∃ m, n ≤ m ∧ ∃ c, (wireAt id useC token acts m).link.client = some c ∧ c.loop = .ended := by
    refine h.kept (P := fun c => c.isOpen = false) (Q := fun c => c.loop = .ended)
      (A := fun a => a = .client .stop) hn hc ho ?_ (h.goesOn.stop n) ?_
    · intro p hp c hv hP act _
      exact .inl ((ReqClient.next_step c act).2.2 hP)
    · rintro p hp c hv hP ha
      rw [ha]
      have h1 := h.not_ended (by omega) hv.client
      have h2 := h.starts p c hv.client
      have h3 : c.loop = .spawned → c.isOpen = true := by
        obtain ⟨status, cacts, rfl⟩ := hv.reached
        clear * -
        induction cacts using List.reverseRecOn with
        | nil => exact fun _ => rfl
        | append_singleton cacts a ih => rw [ReqClient.run_snoc]; exact ReqClient.spawned_step a ih
      show (ReqClient.stop c).loop = _
      unfold ReqClient.stop
      rw [if_neg (by simp [hP])]
      split
      · rfl
      · rfl
      · next h4 h5 =>
        cases hl : c.loop with
        | spawned => rw [h3 hl] at hP; cases hP
        | receiving => exact absurd hl h4
        | calling m => exact absurd hl (h5 m)
        | ended => exact absurd hl h1
        | never => exact absurd hl h2
  obtain ⟨m, hm, c', hc', hx⟩ := key
  exact h.not_ended (by omega) hc' hx

theorem not_lost (h : WireStuck id useC token acts k conv N) {n : Nat} (hn : N ≤ n) : (wireAt id useC token acts n).conn.lost = false := by
  by_contra hl
  have hl : (wireAt id useC token acts n).conn.lost = true := by simpa using hl
  have key : ∀ p, n ≤ p → (wireAt id useC token acts p).conn.lost = true := by
    intro p hp
    induction p, hp using Nat.le_induction with
    | base => exact hl
    | succ p hp ih => rw [wireAt_succ]; exact Wire.lost_step _ ih
  obtain ⟨p, hp, ha⟩ := h.goesOn.notice n
  obtain ⟨c, hv⟩ := h.at_ p (by omega)
  have hv' := h.next (by omega) hv.client
  have := h.is_open (by omega) hv'.client
  rw [ha] at this
  have hcl : (wireAt id useC token acts p).closed = true := by
    unfold Wire.closed
    rw [key p hp]
    rfl
  simp only [Wire.clientActs, hcl, if_true] at this
  cases this

theorem alive (h : WireStuck id useC token acts k conv N) : WireAlive id useC token acts N where
  goesOn := h.goesOn
  client n hn := (h.at_ n hn).imp fun _ hv => hv.client
  starts n _ := h.starts n
  notEnded _ hn _ hc := h.not_ended hn hc
  notLost _ hn := h.not_lost hn

/-- The response is not among the messages that were read. -/
theorem unread (h : WireStuck id useC token acts k conv N)
    (h0 : ∀ x, (conv, x) ∉ answersOf (wireAt id useC token acts N).conn.sent) {n : Nat} (hn : N ≤ n) :
    ∀ x, (conv, x) ∉ answersOf ((wireAt id useC token acts n).conn.sent.take (wireAt id useC token acts n).link.read) := by
  induction n, hn using Nat.le_induction with
  | base =>
    intro x hx
    refine h0 x ?_
    unfold answersOf at hx ⊢
    obtain ⟨m, hm, e⟩ := List.mem_filterMap.1 hx
    exact List.mem_filterMap.2 ⟨m, List.mem_of_mem_take hm, e⟩
  | succ n hn ih =>
    obtain ⟨c, hv⟩ := h.at_ n hn
    have hle := h.alive.read_le hn
    have hpre := WireAlive.sent_mono (id := id) (useC := useC) (token := token) (acts := acts) (Nat.le_succ n)
    rcases Wire.read_step hv.client (acts n) with ⟨pm, ha, e⟩ | ⟨hno, e⟩
    · obtain ⟨hd, c', msg, hc', hmsg, hrec, rfl⟩ := Wire.clientActs_receive ha
      rw [hv.client] at hc'
      obtain rfl := Option.some.inj hc'
      rw [← wireAt_succ] at e
      rw [e]
      have hlt := (List.getElem?_eq_some_iff.1 hmsg).1
      rw [Link.take_prefix hpre (by omega), List.take_succ, hmsg]
      intro x hx
      rw [Option.toList_some, answersOf_append, List.mem_append] at hx
      rcases hx with hx | hx
      · exact ih x hx
      · have hpeer : msg.toPeer (wireAt id useC token acts n).lastFlag = .answer conv x := by
          cases msg with
          | registerRes conv' evs => cases List.mem_singleton.1 hx; rfl
          | queryRes conv' r => cases List.mem_singleton.1 hx; rfl
          | _ => cases hx
        have hg := hv.going
        generalize hq : c.calls k = q at hg
        cases hg with
        | sending => exact h.inTime n c conv true msg x hd hv.client hq hmsg hpeer
        | waiting =>
          have hv' := h.next hn hv.client
          rw [ha, hpeer] at hv'
          refine h.not_resolved (n := n + 1) (by omega) hv'.client (.answered x) ?_
          show (ReqClient.receive c (.answer conv x)).calls k = _
          unfold ReqClient.receive
          rw [hrec]
          simp [ReqClient.process, ReqClient.answerCall, hq]
        | resolved e => exact h.not_resolved hn hv.client e hq
    · rw [← wireAt_succ] at e
      rw [e, Link.take_prefix hpre hle]
      exact ih

/-- There is no such call. -/
theorem false_ (h : WireStuck id useC token acts k conv N)
    (h0 : ∀ x, (conv, x) ∉ answersOf (wireAt id useC token acts N).conn.sent) {msg : ClientMsg}
    (hm : msg ∈ Link.requests (wireAt id useC token acts N).link) (hmsg : asksFor msg = some conv) : False := by
  obtain ⟨m, hm1, hm2⟩ := h.alive.takes_all (Nat.le_refl _) _ (Nat.le_refl _)
  obtain ⟨n, hn, info, hr⟩ := h.alive.to_ready hm1
  have htaken : (Link.requests (wireAt id useC token acts N).link).length ≤ (wireAt id useC token acts n).taken :=
    Nat.le_trans hm2 (WireAlive.taken_mono hn)
  have hNn : N ≤ n := by omega
  obtain ⟨l, hok⟩ := wireAt_ok (id := id) (useC := useC) (token := token) (acts := acts) n
  have hhand : msg ∈ (wireAt id useC token acts n).conn.handled := by
    unfold Wire.conn
    rw [hok.id_eq]
    have := hok.told.handled
    rw [← hok.link] at this
    rw [this]
    refine List.mem_filter.2 ⟨?_, ?_⟩
    · obtain ⟨rest, hrest⟩ := WireAlive.requests_mono (id := id) (useC := useC) (token := token) (acts := acts) hNn
      rw [← hrest, List.take_append]
      exact List.mem_append_left _ (by rw [List.take_of_length_le htaken]; exact hm)
    · cases msg with
      | register conv evs last => rfl
      | query conv p => rfl
      | _ => cases hmsg
  have hans := ansOk_run useC token (serverActs l) id
  rw [← (Link.server_run id useC token l).2, ← hok.link] at hans
  unfold Wire.conn at hr hhand
  rw [hok.id_eq] at hr hhand
  unfold AnsOk at hans
  rw [hr] at hans
  simp only at hans
  have hconv : conv ∈ (answersOf ((wireAt id useC token acts n).link.server.conns id).sent).map Prod.fst := by
    rw [hans]; exact List.mem_filterMap.2 ⟨msg, hhand, hmsg⟩
  obtain ⟨⟨conv', x⟩, hx, rfl⟩ := List.mem_map.1 hconv
  have hx' : (conv', x) ∈ answersOf (wireAt id useC token acts n).conn.sent := by
    unfold Wire.conn; rw [hok.id_eq]; exact hx
  obtain ⟨p, hp, hread⟩ := h.alive.reads_all hNn _ (Nat.le_refl _)
  refine h.unread h0 (n := p) (by omega) x ?_
  obtain ⟨rest, hrest⟩ := WireAlive.sent_mono (id := id) (useC := useC) (token := token) (acts := acts) hp
  rw [← hrest, List.take_append, List.take_of_length_le hread, answersOf_append]
  exact List.mem_append_left _ hx'

end WireStuck

section
variable {id : Nat} {useC : Bool} {token : Option String} {acts : Nat → WireAct}

/-- How a call may end. -/
structure EndsWell (id : Nat) (useC : Bool) (token : Option String) (acts : Nat → WireAct) (k conv N n : Nat) (c : ReqClient) (e : CallEnd) : Prop where
  answered : ∀ x, e = .answered x → (conv, x) ∈ answersOf (wireAt id useC token acts n).conn.sent
  failed : e = .connectionError → c.isOpen = false
  cancelled : e = .cancelled → ∃ j, N ≤ j ∧ j < n ∧ acts j = .client (.cancel k)
  something : e ≠ .nothing

/-- Where a call is. -/
inductive OwnCall (id : Nat) (useC : Bool) (token : Option String) (acts : Nat → WireAct) (k conv N n : Nat) (c : ReqClient) : CallPhase → Prop
  | sending : OwnCall id useC token acts k conv N n c (.sending conv true)
  | waiting : OwnCall id useC token acts k conv N n c (.waiting conv)
  | resolved {e : CallEnd} (h : EndsWell id useC token acts k conv N n c e) : OwnCall id useC token acts k conv N n c (.resolved conv e)
  | finished {e : CallEnd} (h : EndsWell id useC token acts k conv N n c e) : OwnCall id useC token acts k conv N n c (.finished e)

theorem EndsWell.next {k conv N n : Nat} {c c' : ReqClient} {e : CallEnd} (h : EndsWell id useC token acts k conv N n c e)
    (ho : c.isOpen = false → c'.isOpen = false) : EndsWell id useC token acts k conv N (n + 1) c' e where
  answered x hx := by
    obtain ⟨rest, hr⟩ := WireAlive.sent_mono (id := id) (useC := useC) (token := token) (acts := acts) (Nat.le_succ n)
    rw [← hr, answersOf_append]
    exact List.mem_append_left _ (h.answered x hx)
  failed he := ho (h.failed he)
  cancelled he := by
    obtain ⟨j, h1, h2, h3⟩ := h.cancelled he
    exact ⟨j, h1, by omega, h3⟩
  something := h.something

theorem OwnCall.next {k conv N n : Nat} {c c' : ReqClient} {p : CallPhase} (h : OwnCall id useC token acts k conv N n c p)
    (ho : c.isOpen = false → c'.isOpen = false) : OwnCall id useC token acts k conv N (n + 1) c' p := by
  cases h with
  | sending => exact .sending
  | waiting => exact .waiting
  | resolved h => exact .resolved (h.next ho)
  | finished h => exact .finished (h.next ho)

/-- A receive loop ends only when the client is closed. -/
theorem closes_isOpen {c : ReqClient} {a : ReqAct} {k conv : Nat} (h : c.calls k = .waiting conv)
    (h' : (c.step a).calls k = .resolved conv .connectionError) (h1 : ∀ cv x, a ≠ .receive (.answer cv x)) : (c.step a).isOpen = false := by
  have hreq : ∀ f w, (c.request f w).calls k = .resolved conv .connectionError → (c.request f w).isOpen = false := by
    intro f w he
    unfold ReqClient.request at he
    split at he <;> simp only [ReqClient.setCall] at he <;> split at he <;> first | cases he | (rw [h] at he; cases he)
  have hsame : ∀ {s : ReqClient}, s.calls k = c.calls k → s.calls k = .resolved conv .connectionError → s.isOpen = false := by
    intro s e he
    rw [e, h] at he
    cases he
  have hset : ∀ {j : Nat} {p : CallPhase}, (k = j → p ≠ .resolved conv .connectionError) →
      (c.setCall j p).calls k = .resolved conv .connectionError → (c.setCall j p).isOpen = false := by
    intro j p hp he
    simp only [ReqClient.setCall] at he
    split at he
    · next hk => exact absurd he (hp hk)
    · rw [h] at he; cases he
  revert h'
  cases a with
  | register events w => exact hreq _ _
  | query params => exact hreq _ _
  | close => exact fun _ => rfl
  | receive msg =>
    simp only [ReqClient.step, ReqClient.receive, ReqClient.process]
    split
    · split
      · exact hsame rfl
      · exact hsame rfl
      · exact absurd rfl (h1 _ _)
      · exact fun _ => rfl
    · exact hsame rfl
  | _ =>
    simp only [ReqClient.step, ReqClient.start, ReqClient.sendDone, ReqClient.resume, ReqClient.cancel, ReqClient.callbackDone, ReqClient.stop,
      ReqClient.afterCallback, ReqClient.acknowledge, ReqClient.close]
    repeat' split
    all_goals first | exact hsame rfl | exact fun _ => rfl | exact hset (by simp)

theorem ownCall_step {k conv N n : Nat} {c : ReqClient} (hN : N ≤ n) (hc : (wireAt id useC token acts n).link.client = some c)
    (hk : k < c.nextCall) (h : OwnCall id useC token acts k conv N n c (c.calls k)) :
    ∃ c', (wireAt id useC token acts (n + 1)).link.client = some c' ∧ k < c'.nextCall ∧
      OwnCall id useC token acts k conv N (n + 1) c' (c'.calls k) := by
  have hcl := Wire.client_step hc (acts n)
  rw [← wireAt_succ] at hcl
  refine ⟨_, hcl, ?_⟩
  rcases Wire.clientActs_cases (wireAt id useC token acts n) (acts n) with e | ⟨act, e⟩
  · rw [e]
    exact ⟨hk, h.next fun h => h⟩
  · rw [e]
    have hns := ReqClient.next_step c act
    refine ⟨Nat.lt_of_lt_of_le hk hns.1, ?_⟩
    show OwnCall id useC token acts k conv N (n + 1) (c.step act) ((c.step act).calls k)
    have hm := ReqClient.moves_step c act k
    generalize hp : (c.step act).calls k = p at hm
    cases hm with
    | stay => exact h.next hns.2.2
    | made h1 p w ha hp => omega
    | wait cv h1 ho =>
      rw [h1] at h
      cases h
      exact .waiting
    | fail cv h1 ho =>
      exact .finished ⟨fun _ h => (by cases h), fun _ => hns.2.2 ho, fun h => (by cases h), fun h => by cases h⟩
    | sent cv h1 => rw [h1] at h; cases h
    | resume cv e' h1 =>
      rw [h1] at h
      cases h with
      | resolved h => exact .finished (h.next hns.2.2)
    | cancel h1 h2 =>
      have hact : acts n = .client (.cancel k) := by
        generalize hs : wireAt id useC token acts n = s at e
        generalize acts n = a at e
        cases a with
        | client a =>
          cases a with
          | receive m => cases e
          | _ => exact congrArg _ (List.cons.inj e).1
        | deliver =>
          simp only [Wire.clientActs] at e
          split at e
          · split at e <;> cases e
          · cases e
        | notice =>
          simp only [Wire.clientActs] at e
          split at e <;> cases e
        | _ => cases e
      exact .finished ⟨fun _ h => (by cases h), fun h => (by cases h), fun _ => ⟨n, hN, by omega, hact⟩, fun h => by cases h⟩
    | answer cv x h1 =>
      rw [h1] at h
      cases h
      obtain ⟨_, c', msg, hc', hmsg, _, hpeer⟩ := Wire.clientActs_receive e
      refine .resolved ⟨fun y hy => ?_, fun h => (by cases h), fun h => (by cases h), fun h => by cases h⟩
      cases hy
      obtain ⟨rest, hr⟩ := WireAlive.sent_mono (id := id) (useC := useC) (token := token) (acts := acts) (Nat.le_succ n)
      rw [← hr, answersOf_append]
      refine List.mem_append_left _ (List.mem_filterMap.2 ⟨msg, List.mem_of_getElem? hmsg, ?_⟩)
      cases msg with
      | registerRes conv' evs => cases hpeer; rfl
      | queryRes conv' r => cases hpeer; rfl
      | _ => cases hpeer
    | close a cv h1 h2 =>
      have hconv : cv = conv := by
        rw [h1] at h
        cases h
        rfl
      subst hconv
      exact .resolved ⟨fun _ h => (by cases h), fun _ => closes_isOpen h1 hp h2, fun h => (by cases h), fun h => by cases h⟩

/-- Responses come from callbacks. -/
theorem wire_answer_from (n : Nat) {conv : Nat} {x : Answer} (h : (conv, x) ∈ answersOf (wireAt id useC token acts n).conn.sent) :
    ∃ j result info msg, j < n ∧ acts j = .server (.reply id result) ∧ (wireAt id useC token acts j).conn.phase = .busy info msg ∧
      asksFor msg = some conv ∧ answerOf result = some x ∧ Suits msg x := by
  induction n with
  | zero => cases h
  | succ n ih =>
    have hold : (conv, x) ∈ answersOf (wireAt id useC token acts n).conn.sent →
        ∃ j result info msg, j < n + 1 ∧ acts j = .server (.reply id result) ∧ (wireAt id useC token acts j).conn.phase = .busy info msg ∧
          asksFor msg = some conv ∧ answerOf result = some x ∧ Suits msg x := by
      intro h
      obtain ⟨j, result, info, msg, h1, h2⟩ := ih h
      exact ⟨j, result, info, msg, by omega, h2⟩
    obtain ⟨l, hok⟩ := wireAt_ok (id := id) (useC := useC) (token := token) (acts := acts) n
    have hid := hok.id_eq
    rw [wireAt_succ] at h
    unfold Wire.conn at h hold
    rw [Wire.id_step] at h
    rcases Wire.server_step (wireAt id useC token acts n) (acts n) with e | ⟨act, e, _, hfrom⟩
    · rw [e] at h; exact hold h
    · rw [e] at h
      have hch := change_step (wireAt id useC token acts n).link.server act (wireAt id useC token acts n).link.id
      generalize hcc : ((wireAt id useC token acts n).link.server.step act).conns (wireAt id useC token acts n).link.id = c at h hch
      cases hch with
      | same _ _ h1 h2 => rw [h1] at h; exact hold h
      | handle msg _ h0 h1 h2 => rw [h1] at h; exact hold h
      | answer result _ info msg conv' x' h1 h2 h3 h6 h4 h5 =>
        rw [h4, List.mem_append, List.mem_singleton] at h
        rcases h with h | h
        · exact hold h
        · obtain ⟨rfl, rfl⟩ := Prod.mk.injEq .. ▸ h
          rcases hfrom with hf | ⟨m, hf⟩ | hf
          · rw [hid] at hf
            exact ⟨n, result, info, msg, by omega, hf, h1, h2, h3, h6⟩
          · cases hf
          · cases hf

theorem requests_wire {s : Wire} {c : ReqClient} (h : s.link.client = some c) : Link.requests s.link = c.sent := by
  unfold Spec.Link.requests; rw [h]; rfl

end

/-- How a call of the client is told to have ended: with a response that a callback of the server gave for the message of this very call, with an error because
the connection was closed, or cancelled. -/
def CallEnded (id : Nat) (useC : Bool) (token : Option String) (acts : Nat → WireAct) (n m : Nat) (c c' : ReqClient) (r : ReqAct) : CallEnd → Prop
  | .answered x => ∃ msg, (c.step r).sent = c.sent ++ [msg] ∧ Suits msg x ∧
      ∃ j info result, n < j ∧ j < m ∧ acts j = .server (.reply id result) ∧
        (wireAt id useC token acts j).conn.phase = .busy info msg ∧ answerOf result = some x
  | .connectionError => c'.isOpen = false
  | .cancelled => ∃ j, n < j ∧ j < m ∧ acts j = .client (.cancel c.nextCall)
  | .nothing => False

/-- **C94** Every call of `register` with response and of `query` ends, if both sides and the connection go on: with the response a callback of the server gave for this very call, with
`ConnectionError` if the connection was closed, or cancelled.  It is assumed that the receive loop of the client is not cancelled before it starts
and that the response is not received before `send_msg` has returned. -/
theorem C94_ends_partial (id : Nat) (useC : Bool) (token : Option String) (acts : Nat → WireAct) (n : Nat) {r : ReqAct} (hr : Asks r)
    (ha : acts n = .client r) {c : ReqClient} (hc : (wireAt id useC token acts n).link.client = some c)
    (hg : WireGoesOn (wireAt id useC token acts) acts) (hk : CallGoesOn acts c.nextCall) (hs : LoopStarts (wireAt id useC token acts))
    (ht : NotOvertaken (wireAt id useC token acts) acts c.nextCall) :
    ∃ m c' e, n < m ∧ (wireAt id useC token acts m).link.client = some c' ∧ c'.calls c.nextCall = .finished e ∧
      CallEnded id useC token acts n m c c' r e := by
  obtain ⟨l, hok⟩ := wireAt_ok (id := id) (useC := useC) (token := token) (acts := acts) n
  obtain ⟨status, cacts, hreach⟩ := Link.reached id useC token l (by rw [← hok.link]; exact hc)
  have hnext : (wireAt id useC token acts (n + 1)).link.client = some (c.step r) := by
    have := Wire.client_step hc (acts n)
    rw [← wireAt_succ] at this
    rw [this, ha]
    cases hr <;> rfl
  cases ho : c.isOpen with
  | false =>
    refine ⟨n + 1, _, .connectionError, by omega, hnext, ?_, ?_⟩
    · cases hr <;> simp [ReqClient.step, ReqClient.request, ho, ReqClient.setCall]
    · exact (ReqClient.next_step c r).2.2 ho
  | true =>
    obtain ⟨msg, hsent, hask⟩ : ∃ msg, (c.step r).sent = c.sent ++ [msg] ∧ asksFor msg = some c.nextConv := by
      cases hr <;> refine ⟨_, by simp only [ReqClient.step, ReqClient.request, ho, if_true]; rfl, rfl⟩
    have hcall : c.nextCall < (c.step r).nextCall ∧ (c.step r).calls c.nextCall = .sending c.nextConv true := by
      cases hr <;> simp [ReqClient.step, ReqClient.request, ho, ReqClient.setCall]
    have hconvs := ReqClient.convsOk_run status cacts
    rw [← hreach] at hconvs
    have hfresh : ∀ m ∈ c.sent, requestConv m ≠ some c.nextConv := fun m hm h => Nat.lt_irrefl _ (hconvs.2 m hm _ h)
    have haskreq : ∀ {m : ClientMsg} {v : Nat}, asksFor m = some v → requestConv m = some v := by
      intro m v h
      cases m with
      | register conv evs last =>
        simp only [asksFor] at h
        split at h
        · cases h
        · exact h
      | query conv p => exact h
      | _ => cases h
    -- what is busy is a request
    have hbusy : ∀ j info m, (wireAt id useC token acts j).conn.phase = .busy info m → m ∈ Link.requests (wireAt id useC token acts j).link := by
      intro j info m hb
      obtain ⟨l, hok⟩ := wireAt_ok (id := id) (useC := useC) (token := token) (acts := acts) j
      have hans := ansOk_run useC token (serverActs l) id
      rw [← (Link.server_run id useC token l).2, ← hok.link] at hans
      unfold Wire.conn at hb
      rw [hok.id_eq] at hb
      unfold AnsOk at hans
      rw [hb] at hans
      obtain ⟨h0, h1, _⟩ := hans
      have hh := hok.told.handled
      rw [← hok.link, h1] at hh
      have : m ∈ h0 ++ [m] := by simp
      rw [hh] at this
      exact List.mem_of_mem_take (List.mem_filter.1 this).1
    have h0 : ∀ x, (c.nextConv, x) ∉ answersOf (wireAt id useC token acts (n + 1)).conn.sent := by
      intro x hx
      obtain ⟨j, result, info, m, h1, h2, h3, h4, _⟩ := wire_answer_from (n + 1) hx
      have hm := hbusy j info m h3
      have := (WireAlive.requests_mono (id := id) (useC := useC) (token := token) (acts := acts) (show j ≤ n by omega)).subset hm
      rw [requests_wire hc] at this
      exact hfresh m this (haskreq h4)
    have hview : WireView id useC token (wireAt id useC token acts (n + 1)) (c.step r) c.nextCall c.nextConv :=
      ⟨hnext, ⟨status, cacts ++ [r], by rw [ReqClient.run_snoc, ← hreach]⟩, hcall.1, by rw [hcall.2]; exact .sending⟩
    have key : ∃ m, n + 1 ≤ m ∧ ∃ c', (wireAt id useC token acts m).link.client = some c' ∧ ∃ e, c'.calls c.nextCall = .finished e := by
      by_contra hno
      refine WireStuck.false_ (id := id) (useC := useC) (token := token) (acts := acts) (k := c.nextCall) (conv := c.nextConv) (N := n + 1)
        ⟨hg, hk, hs, ht, ⟨_, hview⟩, fun m hm c' hc' e he => hno ⟨m, hm, c', hc', e, he⟩⟩ h0 (msg := msg) ?_ hask
      rw [requests_wire hnext, hsent]
      simp
    obtain ⟨m, hm, c', hc', e, he⟩ := key
    refine ⟨m, c', e, by omega, hc', he, ?_⟩
    have hown : ∀ p, n + 1 ≤ p → ∃ c', (wireAt id useC token acts p).link.client = some c' ∧ c.nextCall < c'.nextCall ∧
        OwnCall id useC token acts c.nextCall c.nextConv (n + 1) p c' (c'.calls c.nextCall) := by
      intro p hp
      induction p, hp using Nat.le_induction with
      | base => exact ⟨_, hnext, hcall.1, by rw [hcall.2]; exact .sending⟩
      | succ p hp ih =>
        obtain ⟨c', h1, h2, h3⟩ := ih
        exact ownCall_step hp h1 h2 h3
    obtain ⟨c'', h1, _, h3⟩ := hown m hm
    rw [hc'] at h1
    obtain rfl := Option.some.inj h1
    rw [he] at h3
    cases h3 with
    | finished hw =>
      cases e with
      | nothing => exact absurd rfl hw.something
      | connectionError => exact hw.failed rfl
      | cancelled =>
        obtain ⟨j, h1, h2, h3⟩ := hw.cancelled rfl
        exact ⟨j, by omega, h2, h3⟩
      | answered x =>
        obtain ⟨j, result, info, m', h1, h2, h3, h4, h5, h6⟩ := wire_answer_from m (hw.answered x rfl)
        have hm' := hbusy j info m' h3
        have hnj : n < j := by
          by_contra hle
          have := (WireAlive.requests_mono (id := id) (useC := useC) (token := token) (acts := acts) (show j ≤ n by omega)).subset hm'
          rw [requests_wire hc] at this
          exact hfresh m' this (haskreq h4)
        have hmm : m' = msg := by
          obtain ⟨l, hok⟩ := wireAt_ok (id := id) (useC := useC) (token := token) (acts := acts) m
          obtain ⟨status', cacts', hreach'⟩ := Link.reached id useC token l (by rw [← hok.link]; exact hc')
          have hnodup := (C43_conversation status' cacts').1
          rw [← hreach'] at hnodup
          have e1 : m' ∈ c'.sent := by
            rw [← requests_wire hc']
            exact (WireAlive.requests_mono (show j ≤ m by omega)).subset hm'
          have e2 : msg ∈ c'.sent := by
            rw [← requests_wire hc']
            refine (WireAlive.requests_mono (show n + 1 ≤ m by omega)).subset ?_
            rw [requests_wire hnext, hsent]
            simp
          exact nodup_filterMap_inj hnodup e1 e2 (haskreq h4) (haskreq hask)
        subst hmm
        exact ⟨m', hsent, h6, j, info, result, hnj, h1, h2, h3, h5⟩

/-- A client connects and its receive loop starts. -/
def exWireStart : List WireAct := (exConnect 0 (exReq false none)).map .server ++ [.connect, .client .start]

/-- A registration that is answered. -/
def exWireAsk : List WireAct :=
  exWireStart ++ [.client (.register [] true), .client (.sendDone 0), .arrive, .server (.reply 0 (.registered none)), .deliver, .client (.resume 0)]

/-- What happens again and again. -/
def exWireCycle : List WireAct :=
  [.arrive, .deliver, .notice, .client .start, .client .stop, .client (.callbackDone true), .client (.sendDone 0), .client (.resume 0),
    .server (.reply 0 .raised)]

theorem exWireCycle_ne : exWireCycle ≠ [] := List.cons_ne_nil _ _

/-- Schedules with these actions go on. -/
theorem exWire_goesOn (pre : List WireAct) :
    WireGoesOn (wireAt 0 false none (exForever pre exWireCycle exWireCycle_ne)) (exForever pre exWireCycle exWireCycle_ne) ∧
      CallGoesOn (exForever pre exWireCycle exWireCycle_ne) 0 := by
  have often : ∀ a ∈ exWireCycle, Often (exForever pre exWireCycle exWireCycle_ne) a := fun a h => exForever_often h
  refine ⟨⟨often _ (by simp [exWireCycle]), often _ (by simp [exWireCycle]), often _ (by simp [exWireCycle]), often _ (by simp [exWireCycle]),
    often _ (by simp [exWireCycle]), fun n => ?_, fun n info msg _ => ?_⟩, often _ (by simp [exWireCycle]), often _ (by simp [exWireCycle])⟩
  · obtain ⟨m, h1, h2⟩ := often (.client (.callbackDone true)) (by simp [exWireCycle]) n
    exact ⟨m, h1, true, h2⟩
  · obtain ⟨m, h1, h2⟩ := often (.server (.reply 0 .raised)) (by simp [exWireCycle]) n
    obtain ⟨l, hok⟩ := wireAt_ok (id := 0) (useC := false) (token := none) (acts := exForever pre exWireCycle exWireCycle_ne) n
    exact ⟨m, h1, .raised, by rw [hok.id_eq]; exact h2, .raised msg⟩

/-- The states of these schedules. -/
theorem exWire_at (pre : List WireAct)
    (hfix : ∀ a ∈ exWireCycle, ((Wire.init 0 false none).run pre).step a = (Wire.init 0 false none).run pre) (n : Nat) :
    wireAt 0 false none (exForever pre exWireCycle exWireCycle_ne) n = (Wire.init 0 false none).run (pre.take n) := by
  obtain ⟨h, h1, h2, h3⟩ := exForever_states (pre := pre) (cycle := exWireCycle) (hc := exWireCycle_ne) (step := Wire.step) (s := Wire.init 0 false none) hfix n
  unfold wireAt
  rw [show (Wire.init 0 false none).run (upTo (exForever pre exWireCycle exWireCycle_ne) n) = (Wire.init 0 false none).run h from h2,
    List.prefix_iff_eq_take.1 h1, h3]
  rcases Nat.le_total n pre.length with hn | hn
  · rw [Nat.min_eq_left hn]
  · rw [Nat.min_eq_right hn, List.take_of_length_le (Nat.le_refl _), List.take_of_length_le hn]

/-- Nothing is left to do for the client and the server. -/
structure ExIdle (s : Wire) (c : ReqClient) : Prop where
  client : s.link.client = some c
  id : s.link.id = 0
  request : s.request = none
  unread : s.conn.sent[s.link.read]? = none
  closed : s.closed = false
  isOpen : c.isOpen = true
  loop : c.loop = .receiving
  call : (∃ conv, c.calls 0 = .waiting conv) ∨ ∃ e, c.calls 0 = .finished e
  phase : ∃ info, s.conn.phase = .ready info

theorem ExIdle.fix {s : Wire} {c : ReqClient} (h : ExIdle s c) : ∀ a ∈ exWireCycle, s.step a = s := by
  have hlink : ∀ a : ReqAct, (∀ m, a ≠ .receive m) → c.step a = c → s.step (.client a) = s := by
    intro a ha hc
    have : s.link.clientStep a = s.link := by
      cases a with
      | receive m => exact absurd rfl (ha m)
      | _ =>
        simp only [Link.clientStep, h.client, Option.map_some, hc]
        rw [← h.client]
    simp only [Wire.step, Wire.acts, Link.run, List.foldl_cons, List.foldl_nil, Link.step, this]
  intro a ha
  simp only [exWireCycle, List.mem_cons, List.not_mem_nil, or_false] at ha
  rcases ha with rfl | rfl | rfl | rfl | rfl | rfl | rfl | rfl | rfl
  · simp only [Wire.step, Wire.acts, h.request]
    rfl
  · have : s.link.deliver s.lastFlag = s.link := by
      have hu := h.unread
      unfold Wire.conn at hu
      simp only [Link.deliver, h.client, hu]
    simp only [Wire.step, Wire.acts, Link.run, List.foldl_cons, List.foldl_nil, Link.step, this]
  · simp only [Wire.step, Wire.acts, h.closed]
    rfl
  · exact hlink _ nofun (by simp [ReqClient.step, ReqClient.start, h.loop])
  · exact hlink _ nofun (by simp [ReqClient.step, ReqClient.stop, h.isOpen])
  · exact hlink _ nofun (by simp [ReqClient.step, ReqClient.callbackDone, h.loop])
  · refine hlink _ nofun ?_
    rcases h.call with ⟨_, e⟩ | ⟨_, e⟩ <;> simp [ReqClient.step, ReqClient.sendDone, e]
  · refine hlink _ nofun ?_
    rcases h.call with ⟨_, e⟩ | ⟨_, e⟩ <;> simp [ReqClient.step, ReqClient.resume, e]
  · obtain ⟨info, hp⟩ := h.phase
    have : s.link.server.reply 0 .raised = s.link.server := by
      unfold Wire.conn at hp
      rw [h.id] at hp
      simp only [EvServer.reply, hp]
    simp only [Wire.step, Wire.acts, Wire.permits, if_true, Link.run, List.foldl_cons, List.foldl_nil, Link.step, EvServer.step, this]

theorem exWireAsk_idle : ∃ c, ExIdle ((Wire.init 0 false none).run exWireAsk) c :=
  ⟨_, rfl, rfl, rfl, rfl, rfl, rfl, rfl, .inr ⟨_, rfl⟩, _, rfl⟩

/-- A schedule with a registration that is answered. -/
def exWire : Nat → WireAct := exForever exWireAsk exWireCycle exWireCycle_ne

theorem exWire_loop (n : Nat) (c : ReqClient) (h : ((Wire.init 0 false none).run (exWireAsk.take n)).link.client = some c) : c.loop ≠ .never := by
  match n with
  | 0 | 1 | 2 | 3 => cases h
  | 4 | 5 | 6 | 7 | 8 | 9 | 10 => cases h; exact nofun
  | n + 11 =>
    rw [List.take_of_length_le (by simp [exWireAsk, exWireStart, exConnect])] at h
    cases h
    exact nofun

theorem exWire_inTime : NotOvertaken (wireAt 0 false none exWire) exWire 0 := by
  intro n c conv w msg x ha hc hcall hmsg
  rw [exWire, exWire_at _ exWireAsk_idle.choose_spec.fix] at hc hmsg ⊢
  match n with
  | 0 | 1 | 2 | 3 | 4 | 5 | 6 | 7 | 8 | 10 => cases ha
  | 9 => cases hc; cases hcall
  | n + 11 =>
    rw [List.take_of_length_le (by simp [exWireAsk, exWireStart, exConnect])] at hc
    cases hc
    cases hcall

/-- The hypotheses of the theorem, with the time of the registration. -/
example : ∃ c, Asks (.register [] true) ∧ exWire 5 = .client (.register [] true) ∧ (wireAt 0 false none exWire 5).link.client = some c ∧
    c.nextCall = 0 ∧ WireGoesOn (wireAt 0 false none exWire) exWire ∧ CallGoesOn exWire c.nextCall ∧ LoopStarts (wireAt 0 false none exWire) ∧
    NotOvertaken (wireAt 0 false none exWire) exWire c.nextCall := by
  refine ⟨_, .register [], rfl, rfl, rfl, (exWire_goesOn exWireAsk).1, (exWire_goesOn exWireAsk).2, fun n c h => ?_, exWire_inTime⟩
  rw [exWire, exWire_at _ exWireAsk_idle.choose_spec.fix] at h
  exact exWire_loop n c h

/-- **C94** If the connection stays open and the call is not cancelled, it is answered. -/
theorem C94_answered_partial (id : Nat) (useC : Bool) (token : Option String) (acts : Nat → WireAct) (n : Nat) {r : ReqAct} (hr : Asks r)
    (ha : acts n = .client r) {c : ReqClient} (hc : (wireAt id useC token acts n).link.client = some c)
    (hg : WireGoesOn (wireAt id useC token acts) acts) (hk : CallGoesOn acts c.nextCall) (hs : LoopStarts (wireAt id useC token acts))
    (ht : NotOvertaken (wireAt id useC token acts) acts c.nextCall)
    (hopen : ∀ m c', (wireAt id useC token acts m).link.client = some c' → c'.isOpen = true)
    (hcancel : ∀ m, acts m ≠ .client (.cancel c.nextCall)) :
    ∃ m c' x, n < m ∧ (wireAt id useC token acts m).link.client = some c' ∧ c'.calls c.nextCall = .finished (.answered x) ∧
      ∃ msg, (c.step r).sent = c.sent ++ [msg] ∧ Suits msg x ∧
        ∃ j info result, n < j ∧ j < m ∧ acts j = .server (.reply id result) ∧
          (wireAt id useC token acts j).conn.phase = .busy info msg ∧ answerOf result = some x := by
  obtain ⟨m, c', e, h1, h2, h3, h4⟩ := C94_ends_partial id useC token acts n hr ha hc hg hk hs ht
  cases e with
  | answered x => exact ⟨m, c', x, h1, h2, h3, h4⟩
  | connectionError => exact absurd (hopen m c' h2) (by rw [show c'.isOpen = false from h4]; exact nofun)
  | cancelled =>
    obtain ⟨j, _, _, h5⟩ := h4
    exact absurd h5 (hcancel j)
  | nothing => exact h4.elim

theorem exWire_isOpen (n : Nat) (c : ReqClient) (h : ((Wire.init 0 false none).run (exWireAsk.take n)).link.client = some c) : c.isOpen = true := by
  match n with
  | 0 | 1 | 2 | 3 => cases h
  | 4 | 5 | 6 | 7 | 8 | 9 | 10 => cases h; rfl
  | n + 11 =>
    rw [List.take_of_length_le (by simp [exWireAsk, exWireStart, exConnect])] at h
    cases h
    rfl

/-- The connection of the same schedule stays open and no call is cancelled. -/
example : (∀ m c, (wireAt 0 false none exWire m).link.client = some c → c.isOpen = true) ∧ ∀ m k, exWire m ≠ .client (.cancel k) := by
  constructor
  · intro m c h
    rw [exWire, exWire_at _ exWireAsk_idle.choose_spec.fix] at h
    exact exWire_isOpen m c h
  · intro m k h
    have hm : exWire m ∈ upTo exWire (m + 1) := by rw [upTo_succ]; simp
    rw [h] at hm
    rcases exForever_mem hm with hm | hm
    · simp [exWireAsk, exWireStart, exConnect] at hm
    · simp [exWireCycle] at hm

/-- A registration whose response is received before `send_msg` has returned. -/
def exWireOvertaken : List WireAct :=
  exWireStart ++ [.client (.register [] true), .arrive, .server (.reply 0 (.registered none)), .deliver, .client (.sendDone 0)]

theorem exWireOvertaken_idle : ∃ c, ExIdle ((Wire.init 0 false none).run exWireOvertaken) c :=
  ⟨_, rfl, rfl, rfl, rfl, rfl, rfl, rfl, .inl ⟨_, rfl⟩, _, rfl⟩

/-- **C94** is false if the response may be received before `send_msg` has returned: the call waits for ever although the server has answered it, the
connection stays open and everything goes on. -/
theorem C94_overtaken_refuted :
    ¬ ∀ (id : Nat) (useC : Bool) (token : Option String) (acts : Nat → WireAct) (n : Nat) (r : ReqAct) (c : ReqClient), Asks r → acts n = .client r →
      (wireAt id useC token acts n).link.client = some c → WireGoesOn (wireAt id useC token acts) acts → CallGoesOn acts c.nextCall →
      LoopStarts (wireAt id useC token acts) →
      ∃ m c' e, n < m ∧ (wireAt id useC token acts m).link.client = some c' ∧ c'.calls c.nextCall = .finished e := by
  intro h
  have hat := exWire_at _ exWireOvertaken_idle.choose_spec.fix
  obtain ⟨m, c', e, h1, h2, h3⟩ := h 0 false none (exForever exWireOvertaken exWireCycle exWireCycle_ne) 5 (.register [] true) _ (.register []) rfl rfl
    (exWire_goesOn _).1 (exWire_goesOn _).2 (fun n c h => by
      rw [hat] at h
      match n with
      | 0 | 1 | 2 | 3 => cases h
      | 4 | 5 | 6 | 7 | 8 | 9 => cases h; exact nofun
      | n + 10 =>
        rw [List.take_of_length_le (by simp [exWireOvertaken, exWireStart, exConnect])] at h
        cases h
        exact nofun)
  rw [hat] at h2
  match m with
  | 0 | 1 | 2 | 3 | 4 | 5 => omega
  | 6 | 7 | 8 | 9 => cases h2; cases h3
  | n + 10 =>
    rw [List.take_of_length_le (by simp [exWireOvertaken, exWireStart, exConnect])] at h2
    cases h2
    cases h3

/-- The connection is closed before the receive loop has started. -/
def exWireUnstarted : List WireAct :=
  (exConnect 0 (exReq false none)).map .server ++ [.connect, .client (.register [] true), .client (.sendDone 0), .client .close]

/-- **C94** is false if the client may be closed before its receive loop has started: nothing ends the call. -/
theorem C94_unstarted_refuted :
    ¬ ∀ (id : Nat) (useC : Bool) (token : Option String) (acts : Nat → WireAct) (n : Nat) (r : ReqAct) (c : ReqClient), Asks r → acts n = .client r →
      (wireAt id useC token acts n).link.client = some c → WireGoesOn (wireAt id useC token acts) acts → CallGoesOn acts c.nextCall →
      NotOvertaken (wireAt id useC token acts) acts c.nextCall →
      ∃ m c' e, n < m ∧ (wireAt id useC token acts m).link.client = some c' ∧ c'.calls c.nextCall = .finished e := by
  intro h
  have hafter : ∀ k, ∃ c, (wireAt 0 false none (exForever exWireUnstarted exWireCycle exWireCycle_ne) (7 + k)).link.client = some c ∧
      c.calls 0 = .waiting 0 ∧ c.isOpen = false ∧ c.loop = .never := by
    intro k
    induction k with
    | zero => exact ⟨_, rfl, rfl, rfl, rfl⟩
    | succ k ih =>
      obtain ⟨c, h1, h2, h3, h4⟩ := ih
      have hcl := Wire.client_step h1 (exForever exWireUnstarted exWireCycle exWireCycle_ne (7 + k))
      rw [← wireAt_succ] at hcl
      have ha : exForever exWireUnstarted exWireCycle exWireCycle_ne (7 + k) ∈ exWireCycle := exForever_after (pre := exWireUnstarted) k
      refine ⟨_, hcl, ?_⟩
      generalize exForever exWireUnstarted exWireCycle exWireCycle_ne (7 + k) = a at ha
      generalize wireAt 0 false none (exForever exWireUnstarted exWireCycle exWireCycle_ne) (7 + k) = s at h1
      simp only [exWireCycle, List.mem_cons, List.not_mem_nil, or_false] at ha
      rcases ha with rfl | rfl | rfl | rfl | rfl | rfl | rfl | rfl | rfl
      · exact ⟨h2, h3, h4⟩
      · have : s.clientActs .deliver = [] := by
          cases hm : s.conn.sent[s.link.read]? <;> simp [Wire.clientActs, h1, h4, hm]
        rw [this]
        exact ⟨h2, h3, h4⟩
      · simp only [Wire.clientActs]
        split <;> simp [ReqClient.run, ReqClient.step, ReqClient.close, h2, h3, h4]
      · simp [Wire.clientActs, ReqClient.run, ReqClient.step, ReqClient.start, h2, h3, h4]
      · simp [Wire.clientActs, ReqClient.run, ReqClient.step, ReqClient.stop, h2, h3, h4]
      · simp [Wire.clientActs, ReqClient.run, ReqClient.step, ReqClient.callbackDone, h2, h3, h4]
      · simp [Wire.clientActs, ReqClient.run, ReqClient.step, ReqClient.sendDone, h2, h3, h4]
      · simp [Wire.clientActs, ReqClient.run, ReqClient.step, ReqClient.resume, h2, h3, h4]
      · exact ⟨h2, h3, h4⟩
  obtain ⟨m, c', e, h1, h2, h3⟩ := h 0 false none (exForever exWireUnstarted exWireCycle exWireCycle_ne) 4 (.register [] true) _ (.register []) rfl rfl
    (exWire_goesOn _).1 (exWire_goesOn _).2 (fun n c conv w msg x ha hc hcall => by
      match n with
      | 0 | 1 | 2 | 3 | 4 | 5 | 6 => cases ha
      | n + 7 =>
        obtain ⟨c0, e1, e2, _⟩ := hafter n
        rw [Nat.add_comm, hc] at e1
        obtain rfl := Option.some.inj e1
        change c.calls 0 = _ at hcall
        rw [e2] at hcall
        cases hcall)
  match m with
  | 0 | 1 | 2 | 3 | 4 => omega
  | 5 | 6 => cases h2; cases h3
  | n + 7 =>
    obtain ⟨c0, e1, e2, _⟩ := hafter n
    rw [Nat.add_comm, h2] at e1
    obtain rfl := Option.some.inj e1
    change c'.calls 0 = _ at h3
    rw [e2] at h3
    cases h3

/-- **C94** A callback of the client that waits for a call of its own client blocks it: if the callback does not end before the call does, the call never ends unless it
is cancelled or the connection is closed, whatever the server answers. -/
theorem C94_callback (id : Nat) (useC : Bool) (token : Option String) (acts : Nat → WireAct) (n k : Nat) {c : ReqClient}
    (hc : (wireAt id useC token acts n).link.client = some c) {msg : PeerMsg} (hl : c.loop = .calling msg) {conv : Nat}
    (hk : c.calls k = .sending conv true ∨ c.calls k = .waiting conv) (hkn : k < c.nextCall)
    (hopen : ∀ m c', n ≤ m → (wireAt id useC token acts m).link.client = some c' → c'.isOpen = true)
    (hcancel : ∀ m, n ≤ m → acts m ≠ .client (.cancel k))
    (hwait : ∀ m ok, n ≤ m → acts m = .client (.callbackDone ok) →
      ∃ c' e, (wireAt id useC token acts m).link.client = some c' ∧ c'.calls k = .finished e) :
    ∀ m, n ≤ m → ∃ c', (wireAt id useC token acts m).link.client = some c' ∧ c'.loop = .calling msg ∧
      (c'.calls k = .sending conv true ∨ c'.calls k = .waiting conv) := by
  suffices key : ∀ m, n ≤ m → ∃ c', (wireAt id useC token acts m).link.client = some c' ∧ c'.loop = .calling msg ∧ k < c'.nextCall ∧
      (c'.calls k = .sending conv true ∨ c'.calls k = .waiting conv) by
    intro m hm
    obtain ⟨c', h1, h2, _, h3⟩ := key m hm
    exact ⟨c', h1, h2, h3⟩
  intro m hm
  induction m, hm using Nat.le_induction with
  | base => exact ⟨c, hc, hl, hkn, hk⟩
  | succ m hm ih =>
    obtain ⟨c', h1, h2, h3, h4⟩ := ih
    have hcl := Wire.client_step h1 (acts m)
    rw [← wireAt_succ] at hcl
    have ho := hopen m c' hm h1
    have ho' := hopen (m + 1) _ (by omega) hcl
    refine ⟨_, hcl, ?_⟩
    have hcan := hcancel m hm
    have hcb : ∀ ok, acts m ≠ .client (.callbackDone ok) := by
      intro ok ha
      obtain ⟨c'', e, e1, e2⟩ := hwait m ok hm ha
      rw [h1] at e1
      obtain rfl := Option.some.inj e1
      rw [e2] at h4
      rcases h4 with h4 | h4 <;> cases h4
    generalize wireAt id useC token acts m = s at h1 ho' ⊢
    generalize acts m = a at ho' hcan hcb ⊢
    have hnone : s.clientActs a = [] → (c'.run (s.clientActs a)).loop = .calling msg ∧ k < (c'.run (s.clientActs a)).nextCall ∧
        ((c'.run (s.clientActs a)).calls k = .sending conv true ∨ (c'.run (s.clientActs a)).calls k = .waiting conv) := by
      intro e; rw [e]; exact ⟨h2, h3, h4⟩
    cases a with
    | deliver =>
      refine hnone ?_
      cases hmsg : s.conn.sent[s.link.read]? <;> simp [Wire.clientActs, h1, h2, hmsg]
    | notice =>
      cases hcd : s.closed with
      | false => exact hnone (by simp [Wire.clientActs, hcd])
      | true =>
        simp only [Wire.clientActs, hcd, if_true] at ho'
        cases ho'
    | client act =>
      have hreq : ∀ f w, (c'.request f w).loop = .calling msg ∧ k < (c'.request f w).nextCall ∧
          ((c'.request f w).calls k = .sending conv true ∨ (c'.request f w).calls k = .waiting conv) := by
        intro f w
        simp only [ReqClient.request, ho, if_true, ReqClient.setCall, if_neg (Nat.ne_of_lt h3)]
        exact ⟨h2, by omega, h4⟩
      cases act with
      | receive msg' => exact hnone rfl
      | register events w => exact hreq (fun conv => .register conv events (!w)) w
      | query params => exact hreq (fun conv => .query conv params) true
      | close => cases ho'
      | start => simp [Wire.clientActs, ReqClient.run, ReqClient.step, ReqClient.start, h2, h3, h4]
      | stop => simp [Wire.clientActs, ReqClient.run, ReqClient.step, ReqClient.stop, ho, h2, h3, h4]
      | callbackDone ok => exact absurd rfl (hcb ok)
      | cancel j =>
        have hj : k ≠ j := fun e => hcan (by rw [e])
        simp only [Wire.clientActs, ReqClient.run, List.foldl_cons, List.foldl_nil, ReqClient.step, ReqClient.cancel]
        split <;> simp [ReqClient.setCall, hj, h2, h3, h4]
      | resume j =>
        simp only [Wire.clientActs, ReqClient.run, List.foldl_cons, List.foldl_nil, ReqClient.step, ReqClient.resume]
        split
        · next cv e he =>
          have hj : k ≠ j := by
            rintro rfl
            rw [he] at h4
            rcases h4 with h4 | h4 <;> cases h4
          simp [ReqClient.setCall, hj, h2, h3, h4]
        · exact ⟨h2, h3, h4⟩
      | sendDone j =>
        simp only [Wire.clientActs, ReqClient.run, List.foldl_cons, List.foldl_nil, ReqClient.step, ReqClient.sendDone]
        split
        · next cv w he =>
          by_cases hj : k = j
          · subst hj
            rw [he] at h4
            rcases h4 with h4 | h4
            · cases h4
              simp [ho, ReqClient.setCall, h2, h3]
            · cases h4
          · repeat' split
            all_goals simp [ReqClient.setCall, hj, h2, h3, h4]
        · exact ⟨h2, h3, h4⟩
    | _ => exact hnone rfl

/-- The events callback of the client gets a notification, registers an event and waits for the response, which the server has sent. -/
def exWireCallback : List WireAct :=
  exWireStart ++ [.server (.notify [exNotified ["a", "b"] 1] false true), .server (.send 0 0), .deliver, .client (.register [] true), .client (.sendDone 0),
    .arrive, .server (.reply 0 (.registered none))]

/-- What happens again and again while the callback waits. -/
def exWireBlocked : List WireAct := [.arrive, .deliver, .client (.resume 0)]

theorem exWireBlocked_ne : exWireBlocked ≠ [] := List.cons_ne_nil _ _

theorem exWireCallback_fix : ∀ a ∈ exWireBlocked,
    ((Wire.init 0 false none).run exWireCallback).step a = (Wire.init 0 false none).run exWireCallback := by
  obtain ⟨c, msg, m, h1, h2, h3, h4, h5⟩ : ∃ c msg m, ((Wire.init 0 false none).run exWireCallback).link.client = some c ∧ c.loop = .calling msg ∧
      c.calls 0 = .waiting 0 ∧ ((Wire.init 0 false none).run exWireCallback).request = none ∧
      (((Wire.init 0 false none).run exWireCallback).link.server.conns ((Wire.init 0 false none).run exWireCallback).link.id).sent[
        ((Wire.init 0 false none).run exWireCallback).link.read]? = some m := ⟨_, _, _, rfl, rfl, rfl, rfl, rfl⟩
  generalize (Wire.init 0 false none).run exWireCallback = s at h1 h4 h5
  intro a ha
  simp only [exWireBlocked, List.mem_cons, List.not_mem_nil, or_false] at ha
  rcases ha with rfl | rfl | rfl
  · simp only [Wire.step, Wire.acts, h4]
    rfl
  · have : s.link.deliver s.lastFlag = s.link := by simp only [Link.deliver, h1, h2, h5]
    simp only [Wire.step, Wire.acts, Link.run, List.foldl_cons, List.foldl_nil, Link.step, this]
  · have : s.link.clientStep (.resume 0) = s.link := by
      simp only [Link.clientStep, h1, Option.map_some, ReqClient.step, ReqClient.resume, h3]
      rw [← h1]
    simp only [Wire.step, Wire.acts, Link.run, List.foldl_cons, List.foldl_nil, Link.step, this]

example :
    let acts := exForever exWireCallback exWireBlocked exWireBlocked_ne
    ∃ c msg, (wireAt 0 false none acts 12).link.client = some c ∧ c.loop = .calling msg ∧ c.calls 0 = .waiting 0 ∧ 0 < c.nextCall ∧
      (0, Answer.events none) ∈ answersOf (wireAt 0 false none acts 12).conn.sent ∧
      (∀ m c', 12 ≤ m → (wireAt 0 false none acts m).link.client = some c' → c'.isOpen = true) ∧
      (∀ m, 12 ≤ m → acts m ≠ .client (.cancel 0)) ∧ ∀ m ok, 12 ≤ m → acts m ≠ .client (.callbackDone ok) := by
  have hmem : ∀ m, 12 ≤ m → exForever exWireCallback exWireBlocked exWireBlocked_ne m ∈ exWireBlocked := by
    intro m hm
    obtain ⟨k, rfl⟩ := Nat.exists_eq_add_of_le hm
    exact exForever_after (pre := exWireCallback) k
  refine ⟨_, _, rfl, rfl, rfl, by decide, ?_, fun m c' hm h => ?_, fun m hm h => ?_, fun m ok hm h => ?_⟩
  · exact List.mem_cons_self
  · obtain ⟨l, h1, h2, h3⟩ := exForever_states (pre := exWireCallback) (cycle := exWireBlocked) (hc := exWireBlocked_ne) (step := Wire.step)
      (s := Wire.init 0 false none) exWireCallback_fix m
    have hl : l = exWireCallback := h1.eq_of_length (by rw [h3]; exact Nat.min_eq_right hm)
    subst hl
    unfold wireAt at h
    rw [show (Wire.init 0 false none).run (upTo (exForever exWireCallback exWireBlocked exWireBlocked_ne) m) =
      (Wire.init 0 false none).run exWireCallback from h2] at h
    cases h
    rfl
  · have := hmem m hm
    rw [h] at this
    simp [exWireBlocked] at this
  · have := hmem m hm
    rw [h] at this
    simp [exWireBlocked] at this

end HatEvent
