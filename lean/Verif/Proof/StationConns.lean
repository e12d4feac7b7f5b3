import Verif.Proof.StationBackend
import Verif.Proof.WireLive
import Verif.Proof.EventerHost

/-!
# Connections of an event server
-/

namespace HatEvent
open Spec

namespace EvServer

/-- A loop handles a request because it did before or because the request was received. -/
theorem busy_from {s : EvServer} {a : EvAct} {id : Nat} {info : ConnInfo} {m : ClientMsg}
    (h : ((s.step a).conns id).phase = .busy info m) :
    (s.conns id).phase = .busy info m ∨ (a = .receive id m ∧ (s.conns id).phase = .ready info) := by
  by_cases hab : a.about = some id
  · cases a with
    | receive i msg =>
      cases hab
      have hrej : ∀ {info m}, ((s.reject id).conns id).phase ≠ .busy info m := by
        intro info m hb
        rcases Host.reject_phase s id with h' | h' <;> rw [h'] at hb <;> cases hb
      have hend : ∀ {info m}, ((s.endLoop id).conns id).phase ≠ .busy info m := by
        intro info m hb
        rw [Host.endLoop_phase] at hb
        cases hb
      simp only [step, receive] at h
      split at h
      · split at h
        · unfold initConn at h
          split at h
          · exact absurd h hrej
          · split at h
            · rw [setConn_self] at h; cases h
            · exact absurd h hrej
        · exact absurd h hend
      · next i hr =>
        unfold process at h
        split at h
        · rw [acknowledge_conns, if_pos rfl] at h
          exact .inl (by simpa using h)
        · rw [handle, setConn_self] at h
          cases h
          exact .inr ⟨rfl, hr⟩
        · rw [handle, setConn_self] at h
          cases h
          exact .inr ⟨rfl, hr⟩
        · exact absurd h hend
        · exact absurd h hend
      · exact .inl h
    | connected i ok =>
      cases hab
      left
      by_cases hc : ∃ info, (s.conns id).phase = .connecting info
      · obtain ⟨i', hc⟩ := hc
        cases ok with
        | true =>
          rcases Host.connected_true_phase hc with h' | h' <;> rw [h'] at h <;> cases h
        | false =>
          rcases Host.connected_false_phase hc with h' | h' <;> rw [h'] at h <;> cases h
      · simp only [step, connected] at h
        split at h
        · next i' hi => exact absurd ⟨i', hi⟩ hc
        · exact h
    | reply i r =>
      cases hab
      left
      by_cases hc : ∃ info m, (s.conns id).phase = .busy info m
      · obtain ⟨i', m', hc⟩ := hc
        rcases Host.reply_phase (r := r) hc with h' | h' | h' <;> rw [h'] at h <;> first | exact h' ▸ h | cases h
        exact hc
      · simp only [step, reply] at h
        split at h
        · next i' m' hi => exact absurd ⟨i', m', hi⟩ hc
        · exact h
    | giveUp i =>
      cases hab
      left
      simp only [step, giveUp] at h
      split at h
      · split at h
        · rw [Host.endLoop_phase] at h; cases h
        · exact h
      · split at h
        · rw [Host.endLoop_phase] at h; cases h
        · exact h
      · rw [Host.endLoop_phase] at h; cases h
      · exact h
    | _ => cases hab
  · left
    by_cases hacc : a = .accept ∧ id = s.nextConn
    · obtain ⟨rfl, rfl⟩ := hacc
      have h' : ((s.setConn s.nextConn fun c => { c with phase := .waiting }).conns s.nextConn).phase = .busy info m := h
      rw [setConn_self] at h'
      cases h'
    · rw [phase_other hab (fun e hn => hacc ⟨e, hn⟩)] at h
      exact h

/-- What the loop of a connection handles was asked for, and its responses are good. -/
structure ConnOk (asked : ClientMsg → Prop) (good : ClientMsg → Answer → Prop) (c : Conn) : Prop where
  busy : ∀ info m, c.phase = .busy info m → asked m
  answers : ∀ conv x, (conv, x) ∈ answersOf c.sent → ∃ m, asked m ∧ asksFor m = some conv ∧ good m x

theorem ConnOk.mono {asked asked' : ClientMsg → Prop} {good good' : ClientMsg → Answer → Prop} {c : Conn} (h : ConnOk asked good c)
    (h1 : ∀ m, asked m → asked' m) (h2 : ∀ m x, asked m → good m x → good' m x) : ConnOk asked' good' c :=
  ⟨fun info m hb => h1 m (h.busy info m hb), fun conv x hx => by
    obtain ⟨m, a, b, d⟩ := h.answers conv x hx
    exact ⟨m, h1 m a, b, h2 m x a d⟩⟩

theorem connOk_step {s : EvServer} {a : EvAct} {id : Nat} {asked : ClientMsg → Prop} {good : ClientMsg → Answer → Prop}
    (h : ConnOk asked good (s.conns id)) (hrecv : ∀ m info, a = .receive id m → (s.conns id).phase = .ready info → asked m)
    (hrep : ∀ r info m x, a = .reply id r → (s.conns id).phase = .busy info m → answerOf r = some x → Suits m x → good m x) :
    ConnOk asked good ((s.step a).conns id) := by
  refine ⟨fun info m hb => ?_, ?_⟩
  · rcases busy_from hb with hb | ⟨rfl, hr⟩
    · exact h.busy info m hb
    · exact hrecv m info rfl hr
  have hch := change_step s a id
  generalize (s.step a).conns id = c at hch
  intro conv x hx
  cases hch with
  | same _ _ h1 h2 => rw [h1] at hx; exact h.answers conv x hx
  | handle msg _ h0 h1 h2 => rw [h1] at hx; exact h.answers conv x hx
  | answer result _ info msg conv' x' h1 h2 h3 h6 h4 h5 =>
    rw [h4, List.mem_append, List.mem_singleton] at hx
    rcases hx with hx | hx
    · exact h.answers conv x hx
    · obtain ⟨rfl, rfl⟩ := Prod.mk.injEq .. ▸ hx
      exact ⟨msg, h.busy info msg h1, h2, hrep result info msg x rfl h1 h3 h6⟩

end EvServer

namespace Host
open EvServer

theorem settle_conns (s : Host) (i : Nat) (info : ConnInfo) (id : Nat) : (s.settle i info).server.conns id = s.server.conns id := by
  rw [settle_server]

theorem onDisconnected_calls (s : Host) (i : Nat) (info : ConnInfo) :
    ∃ new, (s.onDisconnected i info).calls = s.calls ++ new ∧ ∀ x ∈ new, x.conn = i := by
  unfold onDisconnected
  split
  · exact ⟨_, rfl, by simp⟩
  · exact ⟨[], by simp, by simp⟩

theorem settle_calls (s : Host) (i : Nat) (info : ConnInfo) :
    ∃ new, (s.settle i info).calls = s.calls ++ new ∧ ∀ x ∈ new, x.conn = i ∧ (s.server.conns i).phase = .ended := by
  unfold settle
  split
  · next h =>
    obtain ⟨new, h1, h2⟩ := s.onDisconnected_calls i info
    exact ⟨new, h1, fun x hx => ⟨h2 x hx, h⟩⟩
  · exact ⟨[], by simp, by simp⟩

/-- The calls of the engine in an action, and the requests that are being handled after it. -/
def Begins (s : Host) (a : HostAct) (id : Nat) (t : Host) : Prop :=
  ∃ new, t.calls = s.calls ++ new ∧ ∀ info m, (t.server.conns id).phase = .busy info m →
    ((s.server.conns id).phase = .busy info m ∧ ∀ x ∈ new, x.conn ≠ id) ∨
    (a = .receive id m ∧ (s.server.conns id).phase = .ready info ∧ ∀ conv evs last, m = .register conv evs last →
      ∃ e, s.engine = some e ∧ new = [⟨e, id, .register evs⟩])

theorem begins_serve (s : Host) (a : HostAct) (id : Nat) (act : EvAct) (hact : ∀ m, act ≠ .receive id m) :
    Begins s a id (s.serve act) := by
  refine ⟨[], by simp [serve], fun info m hb => .inl ⟨?_, by simp⟩⟩
  rcases busy_from hb with hb | ⟨hb, _⟩
  · exact hb
  · exact absurd hb (hact m)

theorem begins_settle (s : Host) (a : HostAct) (id i : Nat) (act : EvAct) (info : ConnInfo) (hact : ∀ m, act ≠ .receive id m) :
    Begins s a id ((s.serve act).settle i info) := by
  obtain ⟨new, h1, h2⟩ := (s.serve act).settle_calls i info
  refine ⟨new, h1, fun info' m hb => ?_⟩
  rw [settle_server] at hb
  refine .inl ⟨?_, fun x hx he => ?_⟩
  · rcases busy_from hb with hb | ⟨hb, _⟩
    · exact hb
    · exact absurd hb (hact m)
  · obtain ⟨e1, e2⟩ := h2 x hx
    rw [← e1, he, hb] at e2
    cases e2

theorem begins_receive (s : Host) (i : Nat) (msg : ClientMsg) (id : Nat) : Begins s (.receive i msg) id (s.step (.receive i msg)) := by
  show Begins s (.receive i msg) id ((s.serve (.receive i msg)).afterReceive i (s.server.conns i).phase)
  have hfrom : ∀ {info m}, ((s.serve (.receive i msg)).server.conns id).phase = .busy info m →
      (s.server.conns id).phase = .busy info m ∨ (i = id ∧ msg = m ∧ (s.server.conns id).phase = .ready info) := by
    intro info m hb
    rcases busy_from hb with hb | ⟨hb, hr⟩
    · exact .inl hb
    · cases hb; exact .inr ⟨rfl, rfl, hr⟩
  -- the loop of the connection is in no request afterwards
  have hquick : ∀ (act : EvAct) (info0 : ConnInfo), (∀ j m, act ≠ .receive j m) →
      (∀ info m, (((s.serve (.receive i msg)).serve act).server.conns i).phase ≠ .busy info m) →
      Begins s (.receive i msg) id (((s.serve (.receive i msg)).serve act).settle i info0) := by
    intro act info0 hact hno
    obtain ⟨new, h1, h2⟩ := ((s.serve (.receive i msg)).serve act).settle_calls i info0
    refine ⟨new, h1, fun info m hb => ?_⟩
    rw [settle_server] at hb
    have hne : i ≠ id := by rintro rfl; exact hno _ _ hb
    rcases busy_from hb with hb' | ⟨hb', _⟩
    · rcases hfrom hb' with hb' | ⟨rfl, _⟩
      · exact .inl ⟨hb', fun x hx he => hne ((h2 x hx).1.symm.trans he)⟩
      · exact absurd rfl hne
    · exact absurd hb' (hact _ _)
  unfold afterReceive
  split
  · next info0 hp hc =>
    unfold onConnected
    split
    · next e he =>
      refine ⟨[⟨e, i, _⟩], rfl, fun info m hb => ?_⟩
      have hne : i ≠ id := by
        rintro rfl
        have hb' : ((s.serve (.receive i msg)).server.conns i).phase = .busy info m := hb
        rw [hc] at hb'
        cases hb'
      rcases hfrom hb with hb' | ⟨rfl, _⟩
      · exact .inl ⟨hb', by simpa using hne⟩
      · exact absurd rfl hne
    · refine hquick _ _ (by simp) fun info m hb => ?_
      rcases connected_true_phase hc with h' | h'
      · exact absurd (h'.symm.trans hb) (by simp)
      · exact absurd (h'.symm.trans hb) (by simp)
  · next info0 info1 conv evs last hp hc =>
    have hno : ∀ r, ∀ info m, (((s.serve (.receive i msg)).serve (.reply i (.registered r))).server.conns i).phase ≠ .busy info m := by
      intro r info m hb
      rcases busy_reply hc (.register conv evs last r) with h' | ⟨h', _⟩
      · exact absurd (h'.symm.trans hb) (by simp)
      · exact absurd (h'.symm.trans hb) (by simp)
    unfold onRegister
    split
    · exact hquick _ _ (by simp) (hno _)
    · next e he =>
      split
      · exact hquick _ _ (by simp) (hno _)
      · refine ⟨[⟨e, i, .register evs⟩], rfl, fun info m hb => ?_⟩
        rcases hfrom hb with hb' | ⟨rfl, rfl, hr⟩
        · refine .inl ⟨hb', ?_⟩
          have hne : i ≠ id := by
            rintro rfl
            rw [hp] at hb'
            cases hb'
          simpa using hne
        · refine .inr ⟨rfl, hr, fun conv' evs' last' hm => ⟨e, he, ?_⟩⟩
          have hb' : ((s.serve (.receive i msg)).server.conns i).phase = .busy info msg := hb
          rw [hc, hm] at hb'
          cases hb'
          rfl
  · next info0 hp hc =>
    obtain ⟨new, h1, h2⟩ := (s.serve (.receive i msg)).onDisconnected_calls i info0
    refine ⟨new, h1, fun info m hb => ?_⟩
    rw [onDisconnected_server] at hb
    have hne : i ≠ id := by
      rintro rfl
      rw [hc] at hb
      cases hb
    rcases hfrom hb with hb' | ⟨rfl, _⟩
    · exact .inl ⟨hb', fun x hx he => hne ((h2 x hx).symm.trans he)⟩
    · exact absurd rfl hne
  · next h1 h2 h3 =>
    refine ⟨[], by simp [serve], fun info m hb => ?_⟩
    rcases hfrom hb with hb' | ⟨rfl, rfl, hr⟩
    · exact .inl ⟨hb', by simp⟩
    · refine .inr ⟨rfl, hr, fun conv evs last hm => ?_⟩
      subst hm
      exact absurd hb (h2 _ _ _ _ _ hr)

theorem begins_step (s : Host) (a : HostAct) (id : Nat) : Begins s a id (s.step a) := by
  have hsame : ∀ t : Host, t.calls = s.calls → t.server = s.server → Begins s a id t :=
    fun t h1 h2 => ⟨[], by simp [h1], fun info m hb => .inl ⟨by rw [← h2]; exact hb, by simp⟩⟩
  cases a with
  | receive i msg => exact begins_receive s i msg id
  | giveUp i =>
    show Begins s _ id (s.giveUp i)
    unfold giveUp
    split
    · exact begins_settle s _ id i _ _ (by simp)
    · exact begins_serve s _ id _ (by simp)
  | answer i result =>
    show Begins s _ id (s.answer i result)
    unfold answer
    split
    · split
      · exact begins_settle s _ id i _ _ (by simp)
      · exact begins_serve s _ id _ (by simp)
    · exact begins_settle s _ id i _ _ (by simp)
    · exact hsame _ rfl rfl
  | queried i result =>
    show Begins s _ id (s.queried i result)
    unfold queried
    split
    · split <;> exact begins_settle s _ id i _ _ (by simp)
    · exact hsame _ rfl rfl
  | setStatus st e =>
    show Begins s _ id (s.setStatus st e)
    unfold setStatus
    split
    · obtain ⟨new, h1, h2⟩ := begins_serve s (.setStatus st e) id (.setStatus st) (by simp)
      exact ⟨new, h1, h2⟩
    · exact hsame _ rfl rfl
  | closeEngine e => exact hsame _ rfl rfl
  | accept => exact begins_serve s _ id _ (by simp)
  | lose i => exact begins_serve s _ id _ (by simp)
  | statusStep task => exact begins_serve s _ id _ (by simp)
  | notify es p w => exact begins_serve s _ id _ (by simp)
  | send k i => exact begins_serve s _ id _ (by simp)
  | await_ k i => exact begins_serve s _ id _ (by simp)

/-- What the loop of a connection handles was asked for, and its responses are good. -/
theorem connOk_host {s : Host} {a : HostAct} {id : Nat} {asked : ClientMsg → Prop} {good : ClientMsg → Answer → Prop}
    (h : ConnOk asked good (s.server.conns id)) (hnone : ∀ conv evs last, good (.register conv evs last) (.events none))
    (hnil : ∀ conv last, good (.register conv [] last) (.events (some [])))
    (hrecv : ∀ m info, a = .receive id m → (s.server.conns id).phase = .ready info → asked m)
    (hans : ∀ r info conv evs last, a = .answer id (.registered r) → (s.server.conns id).phase = .busy info (.register conv evs last) →
      good (.register conv evs last) (.events r))
    (hq : ∀ r info conv params, a = .queried id (some r) → (s.server.conns id).phase = .busy info (.query conv params) →
      good (.query conv params) (.result r)) :
    ConnOk asked good ((s.step a).server.conns id) := by
  have hother : ∀ (t : EvServer) (act : EvAct), ConnOk asked good (t.conns id) → (∀ m, act ≠ .receive id m) → (∀ r, act ≠ .reply id r) →
      ConnOk asked good ((t.step act).conns id) :=
    fun t act ht h1 h2 => connOk_step ht (fun m _ e => absurd e (h1 m)) (fun r _ _ _ e => absurd e (h2 r))
  cases a with
  | receive i msg =>
    show ConnOk asked good (((s.serve (.receive i msg)).afterReceive i (s.server.conns i).phase).server.conns id)
    have h1 : ConnOk asked good ((s.serve (.receive i msg)).server.conns id) :=
      connOk_step h (fun m info e hr => by cases e; exact hrecv msg info rfl hr) (fun r _ _ _ e => by cases e)
    have hrep : ∀ r info conv evs last, ((s.serve (.receive i msg)).server.conns i).phase = .busy info (.register conv evs last) →
        good (.register conv evs last) (.events r) →
        ConnOk asked good (((s.serve (.receive i msg)).serve (.reply i (.registered r))).server.conns id) := by
      intro r info conv evs last hb hg
      refine connOk_step h1 (fun m _ e => by cases e) fun r' info' m x e hb' hx hsuit => ?_
      cases e
      rw [hb] at hb'
      cases hb'
      cases hx
      exact hg
    unfold afterReceive
    split
    · unfold onConnected
      split
      · exact h1
      · rw [settle_conns]
        exact hother _ _ h1 (fun _ e => nomatch e) (fun _ e => nomatch e)
    · next hc =>
      unfold onRegister
      split
      · rw [settle_conns]
        exact hrep _ _ _ _ _ hc (hnone _ _ _)
      · split
        · next hemp =>
          rw [settle_conns]
          refine hrep _ _ _ _ _ hc ?_
          rw [List.isEmpty_iff.1 hemp]
          exact hnil _ _
        · exact h1
    · rw [onDisconnected_server]; exact h1
    · exact h1
  | giveUp i =>
    show ConnOk asked good ((s.giveUp i).server.conns id)
    unfold giveUp
    split
    · rw [settle_conns]; exact hother _ _ h (fun _ e => nomatch e) (fun _ e => nomatch e)
    · exact hother _ _ h (fun _ e => nomatch e) (fun _ e => nomatch e)
  | answer i result =>
    show ConnOk asked good ((s.answer i result).server.conns id)
    unfold answer
    split
    · split
      · rw [settle_conns]; exact hother _ _ h (fun _ e => nomatch e) (fun _ e => nomatch e)
      · exact hother _ _ h (fun _ e => nomatch e) (fun _ e => nomatch e)
    · next hb =>
      rw [settle_conns]
      refine connOk_step h (fun m _ e => by cases e) fun r' info' m x e hb' hx hsuit => ?_
      cases e
      rw [hb] at hb'
      cases hb'
      cases result with
      | registered r => cases hx; exact hans r _ _ _ _ rfl hb
      | raised => cases hx
    · exact h
  | queried i result =>
    show ConnOk asked good ((s.queried i result).server.conns id)
    unfold queried
    split
    · next hb =>
      split
      · rw [settle_conns]
        refine connOk_step h (fun m _ e => by cases e) fun r' info' m x e hb' hx hsuit => ?_
        cases e
        rw [hb] at hb'
        cases hb'
        cases hx
        exact hq _ _ _ _ rfl hb
      · rw [settle_conns]
        refine connOk_step h (fun m _ e => by cases e) fun r' info' m x e hb' hx hsuit => ?_
        cases e
        cases hx
    · exact h
  | setStatus st e =>
    show ConnOk asked good ((s.setStatus st e).server.conns id)
    unfold setStatus
    split
    · exact hother _ _ h (fun _ e => nomatch e) (fun _ e => nomatch e)
    · exact h
  | closeEngine e => exact h
  | accept => exact hother s.server .accept h (fun _ e => nomatch e) (fun _ e => nomatch e)
  | lose i => exact hother s.server (.lose i) h (fun _ e => nomatch e) (fun _ e => nomatch e)
  | statusStep task => exact hother s.server (.statusStep task) h (fun _ e => nomatch e) (fun _ e => nomatch e)
  | notify es p w => exact hother s.server (.notify es p w) h (fun _ e => nomatch e) (fun _ e => nomatch e)
  | send k i => exact hother s.server (.send k i) h (fun _ e => nomatch e) (fun _ e => nomatch e)
  | await_ k i => exact hother s.server (.await_ k i) h (fun _ e => nomatch e) (fun _ e => nomatch e)

end Host
end HatEvent
