import Verif.Proof.Deliveries

/-! # A notification that is never finished -/

namespace HatEvent
open Spec EvServer

section
variable {id : Nat} {useC : Bool} {token : Option String} {acts : Nat → WireAct}

theorem wireAt_id (n : Nat) : (wireAt id useC token acts n).link.id = id := by
  obtain ⟨l, hok⟩ := wireAt_ok (id := id) (useC := useC) (token := token) (acts := acts) n
  exact hok.id_eq

theorem wireAt_conn (n : Nat) : (wireAt id useC token acts n).conn = (wireAt id useC token acts n).link.server.conns id := by
  unfold Wire.conn
  rw [wireAt_id]

theorem wireAt_server (n : Nat) : ∃ l, (wireAt id useC token acts n).link.server = (EvServer.init useC token).run l := by
  obtain ⟨l, hok⟩ := wireAt_ok (id := id) (useC := useC) (token := token) (acts := acts) n
  exact ⟨_, by rw [hok.link, (Link.server_run id useC token l).2]⟩

theorem wireAt_move (n : Nat) : (wireAt id useC token acts (n + 1)).link.server = (wireAt id useC token acts n).link.server ∨
    ∃ act, (wireAt id useC token acts (n + 1)).link.server = (wireAt id useC token acts n).link.server.step act ∧
      (acts n ≠ .arrive → ((wireAt id useC token acts n).link.server.conns id).phase ≠ .waiting → ∀ msg, act ≠ .receive id msg) ∧
      (acts n = .server act ∨ (∃ msg, act = .receive id msg) ∨ act = .lose id) := by
  have h := Wire.server_step (wireAt id useC token acts n) (acts n)
  rw [← wireAt_succ, wireAt_id, wireAt_conn] at h
  exact h

theorem wireAt_past (n : Nat) (h : Past ((wireAt id useC token acts n).link.server.conns id)) :
    Past ((wireAt id useC token acts (n + 1)).link.server.conns id) := by
  rcases wireAt_move (id := id) (useC := useC) (token := token) (acts := acts) n with e | ⟨act, e, _⟩
  · rw [e]; exact h
  · rw [e]; exact past_step act h (WireAlive.fresh n)

theorem requests_some {s : Wire} {c : ReqClient} (h : s.link.client = some c) : Link.requests s.link = c.sent := by
  unfold Spec.Link.requests; rw [h]; rfl

theorem taken_le (n : Nat) : (wireAt id useC token acts n).taken ≤ (Link.requests (wireAt id useC token acts n).link).length := by
  obtain ⟨l, hok⟩ := wireAt_ok (id := id) (useC := useC) (token := token) (acts := acts) n
  have := hok.told.le
  rwa [← hok.link] at this

theorem wire_get {α : Type} {l l' : List α} (h : l <+: l') {j : Nat} {x : α} (hj : l[j]? = some x) : l'[j]? = some x := by
  obtain ⟨r, rfl⟩ := h
  rw [List.getElem?_append_left (List.getElem?_eq_some_iff.1 hj).1]
  exact hj

/-- Something bounded that does not decrease stays the same from some time on. -/
theorem stabilises {f : Nat → Nat} {M L : Nat} (hm : ∀ p, M ≤ p → f p ≤ f (p + 1)) (hb : ∀ p, M ≤ p → f p ≤ L) :
    ∃ p, M ≤ p ∧ ∀ q, p ≤ q → f q = f p := by
  have key : ∀ d p, M ≤ p → L - f p ≤ d → ∃ p, M ≤ p ∧ ∀ q, p ≤ q → f q = f p := by
    intro d
    induction d with
    | zero =>
      intro p hp hd
      refine ⟨p, hp, fun q hq => ?_⟩
      induction q, hq using Nat.le_induction with
      | base => rfl
      | succ q hq ih =>
        have h1 := hm q (by omega)
        have h2 := hb (q + 1) (by omega)
        have h3 := hb p hp
        omega
    | succ d ih =>
      intro p hp hd
      by_cases h : ∀ q, p ≤ q → f q = f p
      · exact ⟨p, hp, h⟩
      · have : ∃ q, p ≤ q ∧ f p < f q := by
          by_contra hno
          refine h fun q hq => ?_
          induction q, hq using Nat.le_induction with
          | base => rfl
          | succ q hq ih' =>
            have h1 := hm q (by omega)
            have h2 : ¬ f p < f (q + 1) := fun h => hno ⟨q + 1, by omega, h⟩
            omega
        obtain ⟨q, hq, hlt⟩ := this
        exact ih q (by omega) (by omega)
  exact key _ M (Nat.le_refl _) (Nat.le_refl _)

/-- Something that gets past a value passes it. -/
theorem passes {f : Nat → Nat} {M m j : Nat} (hM : f M ≤ j) (hm : M ≤ m) (h : j < f m) : ∃ p, M ≤ p ∧ f p ≤ j ∧ j < f (p + 1) := by
  induction m, hm using Nat.le_induction with
  | base => omega
  | succ m hm ih =>
    by_cases hj : j < f m
    · exact ih hj
    · exact ⟨m, hm, by omega, h⟩

end

/-- A call of `notify_events` with acknowledgment that never ends for a client. -/
structure NoteStuck (id : Nat) (useC : Bool) (token : Option String) (acts : Nat → WireAct) (call N : Nat) : Prop where
  goesOn : WireGoesOn (wireAt id useC token acts) acts
  note : NoteGoesOn acts call id
  inTime : AckInTime (wireAt id useC token acts) acts call id
  made : call < (wireAt id useC token acts N).link.server.nextCall
  ack : ((wireAt id useC token acts N).link.server.calls call).withAck = true
  target : ∃ es, (id, es) ∈ ((wireAt id useC token acts N).link.server.calls call).targets
  unsent : ((wireAt id useC token acts N).link.server.calls call).state id = .unsent
  served : Past ((wireAt id useC token acts N).link.server.conns id)
  endless : ∀ n, N ≤ n → ((wireAt id useC token acts n).link.server.calls call).state id ≠ .done

namespace NoteStuck
variable {id : Nat} {useC : Bool} {token : Option String} {acts : Nat → WireAct} {call N : Nat}

theorem call_at (h : NoteStuck id useC token acts call N) {n : Nat} (hn : N ≤ n) :
    call < (wireAt id useC token acts n).link.server.nextCall ∧ ((wireAt id useC token acts n).link.server.calls call).withAck = true ∧
      ∃ es, (id, es) ∈ ((wireAt id useC token acts n).link.server.calls call).targets := by
  induction n, hn using Nat.le_induction with
  | base => exact ⟨h.made, h.ack, h.target⟩
  | succ n hn ih =>
    rcases wireAt_move (id := id) (useC := useC) (token := token) (acts := acts) n with e | ⟨act, e, _⟩
    · rw [e]; exact ih
    · obtain ⟨h1, h2, h3⟩ := targets_step act ih.1
      rw [e, h2, h3]
      exact ⟨h1, ih.2⟩

theorem past_at (h : NoteStuck id useC token acts call N) {n : Nat} (hn : N ≤ n) :
    Past ((wireAt id useC token acts n).link.server.conns id) := by
  induction n, hn using Nat.le_induction with
  | base => exact h.served
  | succ n hn ih => exact wireAt_past n ih

/-- The delivery moves on. -/
theorem moves (h : NoteStuck id useC token acts call N) {n : Nat} (hn : N ≤ n) :
    ((wireAt id useC token acts (n + 1)).link.server.calls call).state id = ((wireAt id useC token acts n).link.server.calls call).state id ∨
    (((wireAt id useC token acts n).link.server.calls call).state id = .unsent ∧ acts n = .server (.send call id) ∧
      ((wireAt id useC token acts n).link.server.conns id).lost = false ∧
      ∃ conv es, ((wireAt id useC token acts (n + 1)).link.server.calls call).state id = .sent conv ∧
        ((wireAt id useC token acts (n + 1)).link.server.conns id).sent =
          ((wireAt id useC token acts n).link.server.conns id).sent ++ [.events call conv es]) ∨
    (∃ conv, ((wireAt id useC token acts n).link.server.calls call).state id = .sent conv ∧
      ((wireAt id useC token acts (n + 1)).link.server.calls call).state id = .waiting conv) := by
  rcases wireAt_move (id := id) (useC := useC) (token := token) (acts := acts) n with e | ⟨act, e, _, hfrom⟩
  · rw [e]; exact .inl rfl
  · have hd := h.endless (n + 1) (by omega)
    rw [e] at hd ⊢
    have hg := goes_step (wireAt id useC token acts n).link.server act (id := id) (h.call_at hn).1
    generalize hst : (((wireAt id useC token acts n).link.server.step act).calls call).state id = d at hg hd
    cases hg with
    | stay => exact .inl rfl
    | sent es ha hu hl hs =>
      refine .inr (.inl ⟨hu, ?_, hl, _, es, rfl, hs⟩)
      subst ha
      rcases hfrom with hf | ⟨m, hf⟩ | hf
      · exact hf
      · cases hf
      · cases hf
    | waits conv ha hw => exact .inr (.inr ⟨conv, hw, rfl⟩)
    | done => exact absurd rfl hd

/-- Where the delivery is and what was sent. -/
theorem shape (h : NoteStuck id useC token acts call N) {n : Nat} (hn : N ≤ n) :
    ((wireAt id useC token acts n).link.server.calls call).state id = .unsent ∨
      ∃ conv es, (((wireAt id useC token acts n).link.server.calls call).state id = .sent conv ∨
        ((wireAt id useC token acts n).link.server.calls call).state id = .waiting conv) ∧
        ∃ j : Nat, (wireAt id useC token acts n).conn.sent[j]? = some (.events call conv es) := by
  induction n, hn using Nat.le_induction with
  | base => exact .inl h.unsent
  | succ n hn ih =>
    have hpre := WireAlive.sent_mono (id := id) (useC := useC) (token := token) (acts := acts) (Nat.le_succ n)
    rcases h.moves hn with e | ⟨_, _, _, conv, es, e1, e2⟩ | ⟨conv, e1, e2⟩
    · rw [e]
      rcases ih with ih | ⟨conv, es, ih, j, hj⟩
      · exact .inl ih
      · exact .inr ⟨conv, es, ih, j, wire_get hpre hj⟩
    · rw [wireAt_conn, e2]
      exact .inr ⟨conv, es, .inl e1, ((wireAt id useC token acts n).link.server.conns id).sent.length, by
        rw [List.getElem?_append_right (Nat.le_refl _)]; simp⟩
    · rcases ih with ih | ⟨conv', es, ih, j, hj⟩
      · rw [e1] at ih; cases ih
      · rw [e1] at ih
        rcases ih with ih | ih
        · cases ih
          exact .inr ⟨conv, es, .inr e2, j, wire_get hpre hj⟩
        · cases ih

theorem not_waiting_ended (h : NoteStuck id useC token acts call N) {n : Nat} (hn : N ≤ n) (conv : Nat)
    (hw : ((wireAt id useC token acts n).link.server.calls call).state id = .waiting conv) :
    ((wireAt id useC token acts n).link.server.conns id).phase ≠ .ended := by
  induction n, hn using Nat.le_induction with
  | base => rw [h.unsent] at hw; cases hw
  | succ n hn ih =>
    intro hend
    have hprev : ((wireAt id useC token acts n).link.server.conns id).phase = .ended := by
      rcases wireAt_move (id := id) (useC := useC) (token := token) (acts := acts) n with e | ⟨act, e, _⟩
      · rwa [e] at hend
      · rw [e] at hend hw
        rcases ended_fails act hend with h' | h'
        · exact h'
        · exact absurd hw (h' call conv)
    rcases h.moves hn with e | ⟨_, _, _, _, _, e, _⟩ | ⟨conv', e, e'⟩
    · rw [e] at hw; exact ih hw hprev
    · rw [hw] at e; cases e
    · have := (h.inTime n conv' e).1
      rw [wireAt_conn] at this
      exact this hprev

/-- The loop of the connection does not end. -/
theorem not_over (h : NoteStuck id useC token acts call N) {n : Nat} (hn : N ≤ n) :
    ((wireAt id useC token acts n).link.server.conns id).phase ≠ .ended := by
  intro hend
  have hlost : ((wireAt id useC token acts n).link.server.conns id).lost = true := by
    rcases h.past_at hn with ⟨_, hp⟩ | ⟨_, _, hp⟩ | ⟨_, hp⟩
    · rw [hend] at hp; cases hp
    · rw [hend] at hp; cases hp
    · exact hp
  rcases h.shape hn with hu | ⟨conv, es, hs | hs, _⟩
  · obtain ⟨m, hm, hd⟩ := until_done (acts := acts) (A := fun a => a = .server (.send call id))
      (P := fun p => ((wireAt id useC token acts p).link.server.calls call).state id = .unsent ∧
        ((wireAt id useC token acts p).link.server.conns id).lost = true)
      (Q := fun p => ((wireAt id useC token acts p).link.server.calls call).state id = .done) (m := n) ⟨hu, hlost⟩
      (by
        rintro p hp ⟨h1, h2⟩
        left
        have hl : ((wireAt id useC token acts (p + 1)).link.server.conns id).lost = true := by
          have := Wire.lost_step (s := wireAt id useC token acts p) (acts p) (by rw [wireAt_conn]; exact h2)
          rwa [← wireAt_succ, wireAt_conn] at this
        refine ⟨?_, hl⟩
        rcases h.moves (n := p) (by omega) with e | ⟨_, _, e, _⟩ | ⟨conv, e, _⟩
        · rw [e]; exact h1
        · rw [h2] at e; cases e
        · rw [h1] at e; cases e)
      (h.note.send n)
      (by
        rintro p hp ⟨h1, h2⟩ ha
        obtain ⟨hk, hw, es, ht⟩ := h.call_at (n := p) (by omega)
        have e : (wireAt id useC token acts (p + 1)).link.server = (wireAt id useC token acts p).link.server.send call id := by
          rw [wireAt_succ, ha]; rfl
        rw [e]
        unfold EvServer.send
        have hf : ∃ t, ((wireAt id useC token acts p).link.server.calls call).targets.find? (fun t => t.1 = id) = some t := by
          cases hf : ((wireAt id useC token acts p).link.server.calls call).targets.find? (fun t => t.1 = id) with
          | some t => exact ⟨t, rfl⟩
          | none =>
            have := List.find?_eq_none.1 hf _ ht
            simp at this
        obtain ⟨t, hf⟩ := hf
        rw [hf, h1]
        simp only [EvServer.turn, hw, Bool.true_or, if_true, h2]
        simp [EvServer.setDelivery])
    exact h.endless m (by omega) hd
  · have := (h.inTime n conv hs).1
    rw [wireAt_conn] at this
    exact this hend
  · exact h.not_waiting_ended hn conv hs hend

/-- The loop waits for a message or for a callback. -/
theorem serving (h : NoteStuck id useC token acts call N) {n : Nat} (hn : N ≤ n) :
    (∃ info, ((wireAt id useC token acts n).link.server.conns id).phase = .ready info) ∨
      ∃ info msg, ((wireAt id useC token acts n).link.server.conns id).phase = .busy info msg := by
  rcases h.past_at hn with hp | hp | ⟨hp, _⟩
  · exact .inl hp
  · exact .inr hp
  · exact absurd hp (h.not_over hn)

/-- The loop waits for a message again. -/
theorem ready_again (h : NoteStuck id useC token acts call N) {n : Nat} (hn : N ≤ n) :
    ∃ m, n ≤ m ∧ ∃ info, ((wireAt id useC token acts m).link.server.conns id).phase = .ready info := by
  rcases h.serving hn with hr | ⟨info, msg, hb⟩
  · exact ⟨n, Nat.le_refl _, hr⟩
  refine until_done (acts := acts) (A := fun a => ∃ r, a = .server (.reply id r) ∧ ReplyFits msg r)
    (P := fun p => ((wireAt id useC token acts p).link.server.conns id).phase = .busy info msg)
    (Q := fun p => ∃ info, ((wireAt id useC token acts p).link.server.conns id).phase = .ready info) (m := n) hb ?_ ?_ ?_
  · intro p hp hP
    have hno := h.not_over (n := p + 1) (by omega)
    rcases wireAt_move (id := id) (useC := useC) (token := token) (acts := acts) p with e | ⟨act, e, _⟩
    · rw [e]; exact .inl hP
    · rw [e] at hno ⊢
      rcases busy_step (a := act) hP (WireAlive.fresh p) with h' | h' | h'
      · exact .inl h'
      · exact .inr ⟨_, h'⟩
      · exact absurd h'.1 hno
  · have := h.goesOn.reply n info msg (by rw [wireAt_conn]; exact hb)
    rwa [wireAt_id] at this
  · rintro p hp hP ⟨r, ha, hr⟩
    have hno := h.not_over (n := p + 1) (by omega)
    have e : (wireAt id useC token acts (p + 1)).link.server = (wireAt id useC token acts p).link.server.step (.reply id r) := by
      rw [wireAt_succ, ha]; rfl
    rw [e] at hno ⊢
    rcases busy_reply hP hr with h' | h'
    · exact ⟨_, h'⟩
    · exact absurd h'.1 hno

/-- A closed client stays closed and sends nothing. -/
theorem closed_stays {n : Nat} {c : ReqClient} (hc : (wireAt id useC token acts n).link.client = some c) (ho : c.isOpen = false) {m : Nat} (hm : n ≤ m) :
    ∃ c', (wireAt id useC token acts m).link.client = some c' ∧ c'.isOpen = false ∧ c'.sent = c.sent := by
  induction m, hm using Nat.le_induction with
  | base => exact ⟨c, hc, ho, rfl⟩
  | succ m hm ih =>
    obtain ⟨c', h1, h2, h3⟩ := ih
    have hcl := Wire.client_step h1 (acts m)
    rw [← wireAt_succ] at hcl
    refine ⟨_, hcl, ?_⟩
    rcases Wire.clientActs_cases (wireAt id useC token acts m) (acts m) with e | ⟨act, e⟩
    · rw [e]; exact ⟨h2, h3⟩
    · rw [e]
      exact ⟨(ReqClient.next_step c' act).2.2 h2, (ReqClient.closed_sent act h2).trans h3⟩

theorem client_stays {n : Nat} {c : ReqClient} (hc : (wireAt id useC token acts n).link.client = some c) {m : Nat} (hm : n ≤ m) :
    ∃ c', (wireAt id useC token acts m).link.client = some c' := by
  induction m, hm using Nat.le_induction with
  | base => exact ⟨c, hc⟩
  | succ m hm ih =>
    obtain ⟨c', h1⟩ := ih
    have hcl := Wire.client_step h1 (acts m)
    rw [← wireAt_succ] at hcl
    exact ⟨_, hcl⟩

theorem not_lost (h : NoteStuck id useC token acts call N) {n : Nat} (hn : N ≤ n) :
    ((wireAt id useC token acts n).link.server.conns id).lost = false := by
  by_contra hl
  have hl : ((wireAt id useC token acts n).link.server.conns id).lost = true := by simpa using hl
  have hlost : ∀ p, n ≤ p → ((wireAt id useC token acts p).link.server.conns id).lost = true := by
    intro p hp
    induction p, hp using Nat.le_induction with
    | base => exact hl
    | succ p hp ih =>
      have := Wire.lost_step (s := wireAt id useC token acts p) (acts p) (by rw [wireAt_conn]; exact ih)
      rwa [← wireAt_succ, wireAt_conn] at this
  -- from some time on the client sends nothing
  obtain ⟨M, L, hM, hL⟩ : ∃ M L, n ≤ M ∧ ∀ p, M ≤ p → (Link.requests (wireAt id useC token acts p).link).length ≤ L := by
    by_cases hex : ∃ m c, n ≤ m ∧ (wireAt id useC token acts m).link.client = some c
    · obtain ⟨m, c, hm, hc⟩ := hex
      obtain ⟨p, hp, ha⟩ := h.goesOn.notice m
      obtain ⟨c', hc'⟩ := client_stays hc hp
      have hcl := Wire.client_step hc' (acts p)
      rw [← wireAt_succ] at hcl
      have hclosed : (wireAt id useC token acts p).closed = true := by
        unfold Wire.closed
        rw [wireAt_conn, hlost p (by omega)]
        rfl
      have ho : (c'.run ((wireAt id useC token acts p).clientActs (acts p))).isOpen = false := by
        rw [ha]
        simp only [Wire.clientActs, hclosed, if_true]
        rfl
      refine ⟨p + 1, (c'.run ((wireAt id useC token acts p).clientActs (acts p))).sent.length, by omega, fun q hq => ?_⟩
      obtain ⟨c'', h1, _, h3⟩ := closed_stays hcl ho hq
      rw [requests_some h1, h3]
    · refine ⟨n, 0, Nat.le_refl _, fun p hp => ?_⟩
      cases hc : (wireAt id useC token acts p).link.client with
      | some c => exact absurd ⟨p, c, hp, hc⟩ hex
      | none => simp [Spec.Link.requests, hc]
  obtain ⟨p, hp, hsame⟩ := stabilises (f := fun p => (wireAt id useC token acts p).taken) (M := M) (L := L)
    (fun p _ => by rw [wireAt_succ]; exact Wire.taken_step _ _) (fun p hp => Nat.le_trans (taken_le p) (hL p hp))
  obtain ⟨q, hq, info, hr⟩ := h.ready_again (n := p) (by omega)
  obtain ⟨m, hm, hd⟩ := until_done (acts := acts) (A := fun a => a = .server (.giveUp id))
    (P := fun p => ((wireAt id useC token acts p).link.server.conns id).phase = .ready info)
    (Q := fun p => ((wireAt id useC token acts p).link.server.conns id).phase = .ended) (m := q) hr
    (by
      intro r hr' hP
      left
      have hno := h.not_over (n := r + 1) (by omega)
      by_cases ha : acts r = .arrive
      · have hreq : (wireAt id useC token acts r).request = none := by
          by_contra hreq
          have h1 := hsame r (by omega)
          have h2 := hsame (r + 1) (by omega)
          have : (wireAt id useC token acts (r + 1)).taken = (wireAt id useC token acts r).taken + 1 := by
            rw [wireAt_succ, ha]
            simp only [Wire.step]
            rw [if_pos (Option.isSome_iff_ne_none.2 hreq)]
          omega
        have e : (wireAt id useC token acts (r + 1)).link.server = (wireAt id useC token acts r).link.server := by
          rw [wireAt_succ, ha]
          simp only [Wire.step, Wire.acts, hreq]
          rfl
        rw [e]; exact hP
      · rcases wireAt_move (id := id) (useC := useC) (token := token) (acts := acts) r with e | ⟨act, e, hact, _⟩
        · rw [e]; exact hP
        · rw [e] at hno ⊢
          rcases ready_step (a := act) hP (hact ha (by rw [hP]; nofun)) (WireAlive.fresh r) with h' | h'
          · exact h'
          · exact absurd h'.1 hno)
    (h.note.giveUp q)
    (by
      intro r hr' hP ha
      have e : (wireAt id useC token acts (r + 1)).link.server = (wireAt id useC token acts r).link.server.giveUp id := by
        rw [wireAt_succ, ha]; rfl
      rw [e]
      unfold EvServer.giveUp
      rw [hP]
      simp only [hlost r (by omega), if_true]
      rw [endLoop_conns, if_pos rfl])
  exact h.not_over (n := m) (by omega) hd

theorem is_open (h : NoteStuck id useC token acts call N) {n : Nat} (hn : N ≤ n) {c : ReqClient}
    (hc : (wireAt id useC token acts n).link.client = some c) : c.isOpen = true := by
  by_contra ho
  have ho : c.isOpen = false := by simpa using ho
  obtain ⟨p, hp, ha⟩ := h.goesOn.notice n
  obtain ⟨c', h1, h2, _⟩ := closed_stays hc ho hp
  have hclosed : (wireAt id useC token acts p).closed = true := by
    unfold Wire.closed
    rw [h1]
    simp [h2]
  have hl := h.not_lost (n := p + 1) (by omega)
  have e : (wireAt id useC token acts (p + 1)).link.server = (wireAt id useC token acts p).link.server.step (.lose id) := by
    rw [wireAt_succ, ha]
    simp only [Wire.step, Wire.acts, hclosed, if_true, wireAt_id]
    rfl
  rw [e] at hl
  change (((wireAt id useC token acts p).link.server.setConn id fun c => { c with lost := true }).conns id).lost = false at hl
  rw [setConn_self] at hl
  cases hl

theorem alive (h : NoteStuck id useC token acts call N) {M : Nat} (hM : N ≤ M) {c : ReqClient}
    (hc : (wireAt id useC token acts M).link.client = some c) : WireAlive id useC token acts M where
  goesOn := h.goesOn
  client n hn := client_stays hc hn
  starts n hn c hc := by
    intro hl
    obtain ⟨l, hok⟩ := wireAt_ok (id := id) (useC := useC) (token := token) (acts := acts) n
    obtain ⟨status, cacts, rfl⟩ := Link.reached id useC token l (by rw [← hok.link]; exact hc)
    have := ReqClient.never_closed status cacts hl
    rw [h.is_open (by omega) hc] at this
    cases this
  notEnded n hn c hc := by
    intro hl
    obtain ⟨l, hok⟩ := wireAt_ok (id := id) (useC := useC) (token := token) (acts := acts) n
    obtain ⟨status, cacts, rfl⟩ := Link.reached id useC token l (by rw [← hok.link]; exact hc)
    have := (ReqClient.quiet_run status cacts hl).1
    rw [h.is_open (by omega) hc] at this
    cases this
  notLost n hn := by rw [wireAt_conn]; exact h.not_lost (by omega)

/-- The client is connected, and it has not read the notification if there is one already. -/
theorem connects (h : NoteStuck id useC token acts call N) : ∃ M c, N ≤ M ∧ (wireAt id useC token acts M).link.client = some c ∧
    (((wireAt id useC token acts M).link.server.calls call).state id = .unsent ∨
      ∃ conv es, (((wireAt id useC token acts M).link.server.calls call).state id = .sent conv ∨
        ((wireAt id useC token acts M).link.server.calls call).state id = .waiting conv) ∧
        ∃ j : Nat, (wireAt id useC token acts M).conn.sent[j]? = some (.events call conv es) ∧ (wireAt id useC token acts M).link.read ≤ j) := by
  cases hc : (wireAt id useC token acts N).link.client with
  | some c => exact ⟨N, c, Nat.le_refl _, hc, .inl h.unsent⟩
  | none =>
    have hgreet : ∀ n, N ≤ n → ∃ st rest, (wireAt id useC token acts n).conn.sent = .initOk st :: rest := by
      intro n hn
      obtain ⟨l, hl⟩ := wireAt_server (id := id) (useC := useC) (token := token) (acts := acts) n
      have hg := greetedFirst_run useC token l id
      rw [← hl] at hg
      rw [wireAt_conn]
      rcases h.serving hn with ⟨info, hp⟩ | ⟨info, msg, hp⟩
      · exact hg info (.inl hp)
      · exact hg info (.inr ⟨_, hp⟩)
    have hdo : ∀ p, N ≤ p → (wireAt id useC token acts p).link.client = none → acts p = .connect →
        (∃ c, (wireAt id useC token acts (p + 1)).link.client = some c) ∧ (wireAt id useC token acts (p + 1)).link.read = 1 := by
      intro p hp hP ha
      obtain ⟨st, rest, hs⟩ := hgreet p hp
      have e : (wireAt id useC token acts (p + 1)).link = (wireAt id useC token acts p).link.connect := by
        rw [wireAt_succ, ha]; rfl
      rw [e]
      unfold Wire.conn at hs
      simp only [Link.connect, hP, hs]
      exact ⟨⟨_, rfl⟩, trivial⟩
    have key : ∃ m, N ≤ m ∧ (∃ c, (wireAt id useC token acts m).link.client = some c) ∧ (wireAt id useC token acts m).link.read = 1 := by
      refine until_done (acts := acts) (A := fun a => a = .connect) (P := fun p => (wireAt id useC token acts p).link.client = none)
        (Q := fun p => (∃ c, (wireAt id useC token acts p).link.client = some c) ∧ (wireAt id useC token acts p).link.read = 1) (m := N) hc ?_
        (h.note.connect N) hdo
      intro p hp hP
      by_cases ha : acts p = .connect
      · exact .inr (hdo p hp hP ha)
      · left
        rw [wireAt_succ]
        generalize wireAt id useC token acts p = s at hP
        generalize acts p = a at ha
        cases a with
        | server act =>
          simp only [Wire.step, Wire.acts]
          split <;> exact hP
        | connect => exact absurd rfl ha
        | client act => cases act <;> simp [Wire.step, Wire.acts, Link.run, Link.step, Link.clientStep, hP]
        | arrive =>
          simp only [Wire.step, Wire.acts]
          split <;> exact hP
        | deliver => simp [Wire.step, Wire.acts, Link.run, Link.step, Link.deliver, hP]
        | notice =>
          simp only [Wire.step, Wire.acts]
          split
          · simp [Link.run, Link.step, Link.clientStep, hP]
          · exact hP
    obtain ⟨M, hM, ⟨c, hcM⟩, hread⟩ := key
    refine ⟨M, c, hM, hcM, ?_⟩
    rcases h.shape hM with hu | ⟨conv, es, hs, j, hj⟩
    · exact .inl hu
    · refine .inr ⟨conv, es, hs, j, hj, ?_⟩
      rw [hread]
      obtain ⟨st, rest, hsent⟩ := hgreet M hM
      rw [hsent] at hj
      cases j with
      | zero => cases hj
      | succ j => omega

/-- The notification is sent and not read. -/
theorem sends (h : NoteStuck id useC token acts call N) : ∃ M c, N ≤ M ∧ (wireAt id useC token acts M).link.client = some c ∧
    ∃ conv es, (((wireAt id useC token acts M).link.server.calls call).state id = .sent conv ∨
        ((wireAt id useC token acts M).link.server.calls call).state id = .waiting conv) ∧
        ∃ j : Nat, (wireAt id useC token acts M).conn.sent[j]? = some (.events call conv es) ∧ (wireAt id useC token acts M).link.read ≤ j := by
  obtain ⟨M, c, hM, hc, hu | hs⟩ := h.connects
  · have hal := h.alive hM hc
    have hsent : ∀ p, M ≤ p → ((wireAt id useC token acts p).link.server.calls call).state id = .unsent →
        (∃ conv es, ((wireAt id useC token acts (p + 1)).link.server.calls call).state id = .sent conv ∧
          ((wireAt id useC token acts (p + 1)).link.server.conns id).sent =
            ((wireAt id useC token acts p).link.server.conns id).sent ++ [.events call conv es]) → acts p = .server (.send call id) →
        ∃ c, (wireAt id useC token acts (p + 1)).link.client = some c ∧
          ∃ conv es, (((wireAt id useC token acts (p + 1)).link.server.calls call).state id = .sent conv ∨
            ((wireAt id useC token acts (p + 1)).link.server.calls call).state id = .waiting conv) ∧
          ∃ j : Nat, (wireAt id useC token acts (p + 1)).conn.sent[j]? = some (.events call conv es) ∧ (wireAt id useC token acts (p + 1)).link.read ≤ j := by
      rintro p hp _ ⟨conv, es, e1, e2⟩ ha
      obtain ⟨c', hc'⟩ := hal.client (p + 1) (by omega)
      obtain ⟨c'', hc''⟩ := hal.client p hp
      refine ⟨c', hc', conv, es, .inl e1, ((wireAt id useC token acts p).link.server.conns id).sent.length, ?_, ?_⟩
      · rw [wireAt_conn, e2, List.getElem?_append_right (Nat.le_refl _)]; simp
      · have hle := hal.read_le hp
        rw [wireAt_conn] at hle
        rw [wireAt_succ]
        rcases Wire.read_step hc'' (acts p) with ⟨m, e, _⟩ | ⟨_, e⟩
        · rw [ha] at e; cases e
        · omega
    have key : ∃ m, M ≤ m ∧ ∃ c, (wireAt id useC token acts m).link.client = some c ∧
          ∃ conv es, (((wireAt id useC token acts m).link.server.calls call).state id = .sent conv ∨
            ((wireAt id useC token acts m).link.server.calls call).state id = .waiting conv) ∧
          ∃ j : Nat, (wireAt id useC token acts m).conn.sent[j]? = some (.events call conv es) ∧ (wireAt id useC token acts m).link.read ≤ j := by
      refine until_done (acts := acts) (A := fun a => a = .server (.send call id))
        (P := fun p => ((wireAt id useC token acts p).link.server.calls call).state id = .unsent) (m := M) hu ?_ (h.note.send M) ?_
      · intro p hp hP
        rcases h.moves (n := p) (by omega) with e | ⟨_, ha, _, e⟩ | ⟨conv, e, _⟩
        · left; rw [e]; exact hP
        · exact .inr (hsent p hp hP e ha)
        · rw [hP] at e; cases e
      · intro p hp hP ha
        rcases h.moves (n := p) (by omega) with e | ⟨_, _, _, e⟩ | ⟨conv, e, _⟩
        · exfalso
          obtain ⟨hk, hw, es, ht⟩ := h.call_at (n := p) (by omega)
          have hl := h.not_lost (n := p) (by omega)
          have e' : (wireAt id useC token acts (p + 1)).link.server = (wireAt id useC token acts p).link.server.send call id := by
            rw [wireAt_succ, ha]; rfl
          rw [hP, e'] at e
          have hf : ∃ t, ((wireAt id useC token acts p).link.server.calls call).targets.find? (fun t => t.1 = id) = some t := by
            cases hf : ((wireAt id useC token acts p).link.server.calls call).targets.find? (fun t => t.1 = id) with
            | some t => exact ⟨t, rfl⟩
            | none =>
              have := List.find?_eq_none.1 hf _ ht
              simp at this
          obtain ⟨t, hf⟩ := hf
          unfold EvServer.send at e
          rw [hf, hP] at e
          simp only [EvServer.turn, hw, Bool.true_or, if_true, hl] at e
          simp [EvServer.setDelivery] at e
        · exact hsent p hp hP e ha
        · rw [hP] at e; cases e
    obtain ⟨m, hm, c, hc, hs⟩ := key
    exact ⟨m, c, by omega, hc, hs⟩
  · exact ⟨M, c, hM, hc, hs⟩

/-- The conversation stays. -/
theorem conv_stays (h : NoteStuck id useC token acts call N) {M conv : Nat} (hM : N ≤ M)
    (hs : ((wireAt id useC token acts M).link.server.calls call).state id = .sent conv ∨
        ((wireAt id useC token acts M).link.server.calls call).state id = .waiting conv) {n : Nat} (hn : M ≤ n) :
    ((wireAt id useC token acts n).link.server.calls call).state id = .sent conv ∨
        ((wireAt id useC token acts n).link.server.calls call).state id = .waiting conv := by
  induction n, hn using Nat.le_induction with
  | base => exact hs
  | succ n hn ih =>
    rcases h.moves (n := n) (by omega) with e | ⟨e, _⟩ | ⟨conv', e1, e2⟩
    · rw [e]; exact ih
    · rw [e] at ih; rcases ih with ih | ih <;> cases ih
    · rw [e1] at ih
      rcases ih with ih | ih
      · cases ih; exact .inr e2
      · cases ih

/-- There is no such call. -/
theorem false_ (h : NoteStuck id useC token acts call N) : False := by
  obtain ⟨M, c, hM, hc, conv, es, hst, j, hj, hread⟩ := h.sends
  have hal := h.alive hM hc
  have hconv : ∀ n, M ≤ n → _ := fun n hn => h.conv_stays hM hst hn
  -- the client reads the notification
  obtain ⟨m, hm, hrm⟩ := hal.reads_all (Nat.le_refl M) (j + 1) (List.getElem?_eq_some_iff.1 hj).1
  obtain ⟨p, hp, hp1, hp2⟩ := passes (f := fun n => (wireAt id useC token acts n).link.read) hread hm hrm
  obtain ⟨cp, hcp⟩ := hal.client p hp
  have hcalling : ∃ c', (wireAt id useC token acts (p + 1)).link.client = some c' ∧ c'.loop = .calling (.notify conv es false) := by
    rw [wireAt_succ] at hp2
    rcases Wire.read_step hcp (acts p) with ⟨pm, ha, e⟩ | ⟨_, e⟩
    · obtain ⟨_, c', msg, hc', hmsg, hrec, hpm⟩ := Wire.clientActs_receive ha
      rw [hcp] at hc'
      obtain rfl := Option.some.inj hc'
      have hrj : (wireAt id useC token acts p).link.read = j := by omega
      have hsent := wire_get (WireAlive.sent_mono (id := id) (useC := useC) (token := token) (acts := acts) hp) hj
      rw [hrj, hsent] at hmsg
      obtain rfl := Option.some.inj hmsg
      have hlast : (wireAt id useC token acts p).lastFlag = false := by
        unfold Wire.lastFlag
        rw [hrj, hsent]
        simp only [(h.call_at (n := p) (by omega)).2.1]
        rfl
      rw [hlast] at hpm
      refine ⟨_, hal.next hcp, ?_⟩
      rw [ha, hpm]
      show (ReqClient.receive cp _).loop = _
      unfold ReqClient.receive
      rw [hrec]
      rfl
    · omega
  -- the callback ends and the client acknowledges
  obtain ⟨c', hc', hl'⟩ := hcalling
  have hack : ∃ m, p + 1 ≤ m ∧ ∃ i, (Link.requests (wireAt id useC token acts m).link)[i]? = some (.ack conv) ∧
      (wireAt id useC token acts m).taken ≤ i := by
    have hdo : ∀ q, p + 1 ≤ q → ∀ c, (wireAt id useC token acts q).link.client = some c → c.loop = .calling (.notify conv es false) →
        ∀ act, (wireAt id useC token acts q).clientActs (acts q) = [act] → (c.step act).sent = c.sent ++ [.ack conv] → acts q ≠ .arrive →
        ∃ i, (Link.requests (wireAt id useC token acts (q + 1)).link)[i]? = some (.ack conv) ∧ (wireAt id useC token acts (q + 1)).taken ≤ i := by
      intro q hq c hc hl act e hs ha
      have hn := hal.next hc
      rw [e] at hn
      refine ⟨c.sent.length, ?_, ?_⟩
      · rw [requests_some hn]
        show (c.step act).sent[_]? = _
        rw [hs, List.getElem?_append_right (Nat.le_refl _)]
        simp
      · have h1 := taken_le (id := id) (useC := useC) (token := token) (acts := acts) q
        rw [requests_some hc] at h1
        have h2 : (wireAt id useC token acts (q + 1)).taken = (wireAt id useC token acts q).taken := by
          rw [wireAt_succ]
          simp only [Wire.step]
        omega
    refine until_done (acts := acts) (A := fun a => ∃ ok, a = .client (.callbackDone ok))
      (P := fun q => ∃ c, (wireAt id useC token acts q).link.client = some c ∧ c.loop = .calling (.notify conv es false)) (m := p + 1) ⟨c', hc', hl'⟩ ?_
      (h.goesOn.callback (p + 1)) ?_
    · rintro q hq ⟨c, hc, hl⟩
      have hn := hal.next hc
      have hne := hal.notEnded (q + 1) (by omega) _ hn
      rcases Wire.clientActs_cases (wireAt id useC token acts q) (acts q) with e | ⟨act, e⟩
      · rw [e] at hn
        exact .inl ⟨_, hn, hl⟩
      · rcases ReqClient.calling_ack act hl with h' | h' | h'
        · rw [e] at hn; exact .inl ⟨_, hn, h'⟩
        · refine .inr (hdo q hq c hc hl act e h' ?_)
          rintro ha
          rw [ha] at e
          cases e
        · rw [e] at hne; exact absurd h' hne
    · rintro q hq ⟨c, hc, hl⟩ ⟨ok, ha⟩
      have hn := hal.next hc
      have hne := hal.notEnded (q + 1) (by omega) _ hn
      have e : (wireAt id useC token acts q).clientActs (acts q) = [.callbackDone ok] := by rw [ha]; rfl
      rcases ReqClient.calling_ack (.callbackDone ok) hl with h' | h' | h'
      · exfalso
        rcases ReqClient.calling_done hl ok with h'' | h'' <;> (rw [h'] at h''; cases h'')
      · refine hdo q hq c hc hl _ e h' ?_
        rw [ha]; nofun
      · rw [e] at hne; exact absurd h' hne
  -- the server receives the acknowledgment
  obtain ⟨q, hq, i, hi, htaken⟩ := hack
  obtain ⟨m', hm', htm⟩ := hal.takes_all (n := q) (by omega) (i + 1) (List.getElem?_eq_some_iff.1 hi).1
  obtain ⟨r, hr, hr1, hr2⟩ := passes (f := fun n => (wireAt id useC token acts n).taken) htaken hm' htm
  have harr : acts r = .arrive ∧ (wireAt id useC token acts r).request.isSome = true := by
    rw [wireAt_succ] at hr2
    by_contra hno
    have : ((wireAt id useC token acts r).step (acts r)).taken = (wireAt id useC token acts r).taken := by
      simp only [Wire.step]
      split
      · next ha =>
        rw [if_neg (fun h => hno ⟨ha, h⟩)]
      · rfl
    omega
  obtain ⟨msg, hmsg⟩ := Option.isSome_iff_exists.1 harr.2
  obtain ⟨⟨info, hready⟩, hget⟩ := Wire.request_some hmsg
  have hir : (wireAt id useC token acts r).taken = i := by
    have : (wireAt id useC token acts (r + 1)).taken ≤ (wireAt id useC token acts r).taken + 1 := by
      rw [wireAt_succ]
      simp only [Wire.step]
      split
      · split <;> omega
      · omega
    omega
  rw [hir, wire_get (WireAlive.requests_mono (id := id) (useC := useC) (token := token) (acts := acts) hr) hi] at hget
  obtain rfl := Option.some.inj hget
  rcases hconv r (by omega) with hsent | hwait
  · exact (h.inTime r conv hsent).2 harr.1 hmsg
  · refine h.endless (r + 1) (by omega) ?_
    have e : (wireAt id useC token acts (r + 1)).link.server = (wireAt id useC token acts r).link.server.step (.receive id (.ack conv)) := by
      rw [wireAt_succ, harr.1]
      simp only [Wire.step, Wire.acts, hmsg, wireAt_id]
      rfl
    rw [e]
    rw [wireAt_conn] at hready
    show ((EvServer.receive _ id (.ack conv)).calls call).state id = _
    unfold EvServer.receive
    rw [hready]
    show (if id = id ∧ ((wireAt id useC token acts r).link.server.calls call).state id = .waiting conv then Delivery.done else _) = _
    rw [if_pos ⟨rfl, hwait⟩]

end NoteStuck
end HatEvent
