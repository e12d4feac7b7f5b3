import Verif.Proof.EventerServer

/-!
# Connections of the eventer server
-/

namespace HatEvent
open Spec
namespace EvServer

theorem endLoop_conns (s : EvServer) (id i : Nat) : (s.endLoop id).conns i =
    if i = id then { s.conns i with phase := .ended, lost := true } else s.conns i := rfl

theorem endLoop_infos (s : EvServer) (id : Nat) : (s.endLoop id).infos = s.infos.filter fun p => p.1 ≠ id := rfl

theorem reject_conns (s : EvServer) (id i : Nat) : (s.reject id).conns i =
    if i = id then
      if (s.conns id).lost then { s.conns i with phase := .ended, lost := true }
      else { s.conns i with sent := (s.conns i).sent ++ [.initError], phase := .rejected }
    else s.conns i := by
  unfold reject
  by_cases hl : (s.conns id).lost = true
  · rw [if_pos hl, if_pos hl, endLoop_conns]
  · rw [if_neg hl, if_neg hl, setConn_conns]
    by_cases hi : i = id
    · simp only [hi, if_true, post, setConn_self]
    · simp only [hi, if_false, post, setConn_other _ hi]

theorem respond_conns (s : EvServer) (id i : Nat) (info : ConnInfo) (m : ServerMsg) : (s.respond id info m).conns i =
    if i = id then
      if (s.conns id).lost then { s.conns i with phase := .ended, lost := true }
      else { s.conns i with sent := (s.conns i).sent ++ [m], phase := .ready info }
    else s.conns i := by
  unfold respond
  by_cases hl : (s.conns id).lost = true
  · rw [if_pos hl, if_pos hl, endLoop_conns]
  · rw [if_neg hl, if_neg hl, setConn_conns]
    by_cases hi : i = id
    · simp only [hi, if_true, post, setConn_self]
    · simp only [hi, if_false, post, setConn_other _ hi]

theorem acknowledge_conns (s : EvServer) (id conv i : Nat) : (s.acknowledge id conv).conns i =
    if i = id then { s.conns i with acks := (s.conns i).acks ++ [conv] } else s.conns i := rfl

/-! ### Known clients -/

/-- The request was accepted. -/
def GoodInfo (s : EvServer) (info : ConnInfo) : Prop :=
  Permitted s.token info.req.clientToken ∧ createSubscription s.useC info.req.subscriptions = .ok info.subscription

/-- The loop of a known client. -/
def Serving (c : Conn) (info : ConnInfo) : Prop := c.phase = .ready info ∨ ∃ m, c.phase = .busy info m

structure InfosOk (s : EvServer) : Prop where
  nodup : (s.infos.map Prod.fst).Nodup
  serving : ∀ p ∈ s.infos, Serving (s.conns p.1) p.2
  good : ∀ p ∈ s.infos, GoodInfo s p.2
  connecting : ∀ id info, (s.conns id).phase = .connecting info → GoodInfo s info

theorem infosOk_set {s s' : EvServer} {id : Nat} {f : Conn → Conn} (h : InfosOk s)
    (hc : ∀ i, s'.conns i = if i = id then f (s.conns i) else s.conns i) (hi : s'.infos = s.infos)
    (ht : s'.token = s.token) (hu : s'.useC = s.useC)
    (h1 : ∀ info, Serving (s.conns id) info → Serving (f (s.conns id)) info)
    (h2 : ∀ info, (f (s.conns id)).phase = .connecting info → GoodInfo s info) : InfosOk s' := by
  have hg : ∀ info, GoodInfo s info → GoodInfo s' info := by
    intro info h; unfold GoodInfo at *; rw [ht, hu]; exact h
  constructor
  · rw [hi]; exact h.nodup
  · intro p hp
    rw [hi] at hp
    rw [hc]
    split
    · next he =>
      rw [he]
      exact h1 _ (he ▸ h.serving p hp)
    · exact h.serving p hp
  · intro p hp
    rw [hi] at hp
    exact hg _ (h.good p hp)
  · intro i info hp
    rw [hc] at hp
    split at hp
    · next he => rw [he] at hp; exact hg _ (h2 _ hp)
    · exact hg _ (h.connecting i info hp)

theorem infosOk_endLoop {s : EvServer} {id : Nat} (h : InfosOk s) : InfosOk (s.endLoop id) := by
  constructor
  · rw [endLoop_infos]
    exact h.nodup.sublist (List.filter_sublist.map _)
  · intro p hp
    rw [endLoop_infos, List.mem_filter] at hp
    rw [endLoop_conns, if_neg (by simpa using hp.2)]
    exact h.serving p hp.1
  · intro p hp
    rw [endLoop_infos, List.mem_filter] at hp
    exact h.good p hp.1
  · intro i info hp
    rw [endLoop_conns] at hp
    split at hp
    · cases hp
    · exact h.connecting i info hp

theorem infosOk_reject {s : EvServer} {id : Nat} (h : InfosOk s) (hn : ∀ info, ¬ Serving (s.conns id) info) :
    InfosOk (s.reject id) := by
  by_cases hl : (s.conns id).lost = true
  · have e : s.reject id = s.endLoop id := by unfold reject; rw [if_pos hl]
    rw [e]; exact infosOk_endLoop h
  · refine infosOk_set (s := s) (id := id)
      (f := fun c => { c with sent := c.sent ++ [.initError], phase := .rejected }) h ?_ ?_ ?_ ?_ ?_ ?_
    · intro i
      rw [reject_conns]
      simp only [hl]
      rfl
    · unfold reject; rw [if_neg hl]; rfl
    · exact (calm_reject s id).token
    · exact (calm_reject s id).useC
    · intro info hs; exact absurd hs (hn info)
    · intro info hs; cases hs

theorem infosOk_respond {s : EvServer} {id : Nat} {info : ConnInfo} {m : ServerMsg} {msg : ClientMsg} (h : InfosOk s)
    (hp : (s.conns id).phase = .busy info msg) : InfosOk (s.respond id info m) := by
  by_cases hl : (s.conns id).lost = true
  · have e : s.respond id info m = s.endLoop id := by unfold respond; rw [if_pos hl]
    rw [e]; exact infosOk_endLoop h
  · refine infosOk_set (s := s) (id := id)
      (f := fun c => { c with sent := c.sent ++ [m], phase := .ready info }) h ?_ ?_ ?_ ?_ ?_ ?_
    · intro i
      rw [respond_conns]
      simp only [hl]
      rfl
    · unfold respond; rw [if_neg hl]; rfl
    · unfold respond; rw [if_neg hl]; rfl
    · unfold respond; rw [if_neg hl]; rfl
    · intro info' hs
      left
      rcases hs with hs | ⟨m', hs⟩
      · rw [hp] at hs; cases hs
      · rw [hp] at hs; cases hs; rfl
    · intro info hs; cases hs

theorem tokenOk_iff {s : EvServer} {req : InitReq} : s.tokenOk req = true ↔ Permitted s.token req.clientToken := by
  unfold tokenOk Permitted
  simp

theorem infosOk_step {s : EvServer} (a : EvAct) (h : InfosOk s) (hnew : (s.conns s.nextConn).phase = .absent) :
    InfosOk (s.step a) := by
  have hnot : ∀ {id : Nat} {ph : LoopPhase}, (s.conns id).phase = ph → (∀ info, ph ≠ .ready info) →
      (∀ info m, ph ≠ .busy info m) → ∀ info, ¬ Serving (s.conns id) info := by
    rintro id ph hp h1 h2 info (hs | ⟨m, hs⟩)
    · exact h1 info (hp.symm.trans hs)
    · exact h2 info m (hp.symm.trans hs)
  cases a with
  | accept =>
    refine infosOk_set (s := s) (id := s.nextConn) (f := fun c => { c with phase := .waiting }) h (fun _ => rfl)
      rfl rfl rfl ?_ ?_
    · intro info hs
      exact absurd hs (hnot hnew (by simp) (by simp) info)
    · intro info hs; cases hs
  | lose id =>
    refine infosOk_set (s := s) (id := id) (f := fun c => { c with lost := true }) h (fun _ => rfl)
      rfl rfl rfl ?_ ?_
    · intro info hs; exact hs
    · intro info hs; exact h.connecting id info hs
  | receive id msg =>
    simp only [step, receive]
    split
    · next hp =>
      have hn := hnot hp (by simp) (by simp)
      split
      · next req =>
        unfold initConn
        split
        · exact infosOk_reject h hn
        · next sub hsub =>
          split
          · next htok =>
            refine infosOk_set (s := s) (id := id) (f := fun c => { c with phase := .connecting ⟨req, sub⟩ }) h
              (fun _ => rfl) rfl rfl rfl ?_ ?_
            · intro info hs; exact absurd hs (hn info)
            · intro info hs
              cases hs
              exact ⟨tokenOk_iff.1 htok, hsub⟩
          · exact infosOk_reject h hn
      · exact infosOk_endLoop h
    · next info hp =>
      have hh : ∀ m, InfosOk (s.handle id info m) := by
        intro m
        refine infosOk_set (s := s) (id := id)
          (f := fun c => { c with phase := .busy info m, handled := c.handled ++ [m] }) h
          (fun _ => rfl) rfl rfl rfl ?_ ?_
        · rintro info' (hs | ⟨m', hs⟩)
          · rw [hp] at hs; cases hs; exact .inr ⟨m, rfl⟩
          · rw [hp] at hs; cases hs
        · intro info hs; cases hs
      unfold process
      split
      · next conv =>
        exact infosOk_set (s := s) (id := id) (f := fun c => { c with acks := c.acks ++ [conv] }) h
          (fun _ => rfl) rfl rfl rfl (fun info hs => hs) (fun info hs => h.connecting id info hs)
      · exact hh _
      · exact hh _
      · exact infosOk_endLoop h
      · exact infosOk_endLoop h
    · exact h
  | connected id ok =>
    simp only [step, connected]
    split
    · next info hp =>
      have hn := hnot hp (by simp) (by simp)
      split
      · split
        · exact infosOk_endLoop h
        · constructor
          · simp only [establish, List.map_append, List.map_cons, List.map_nil]
            rw [List.nodup_append]
            refine ⟨h.nodup, List.nodup_singleton _, ?_⟩
            intro x hx y hy hxy
            rw [List.mem_singleton] at hy
            obtain ⟨p, hp', rfl⟩ := List.mem_map.1 hx
            have := h.serving p hp'
            rw [hxy, hy] at this
            exact hn _ this
          · intro p hp'
            rcases List.mem_append.1 hp' with hp' | hp'
            · have hne : p.1 ≠ id := by
                intro he
                have := h.serving p hp'
                rw [he] at this
                exact hn _ this
              rw [establish_conns, if_neg hne]
              exact h.serving p hp'
            · rw [List.mem_singleton] at hp'
              rw [hp']
              left
              rw [establish_conns, if_pos rfl]
          · intro p hp'
            rcases List.mem_append.1 hp' with hp' | hp'
            · exact h.good p hp'
            · rw [List.mem_singleton] at hp'
              rw [hp']
              exact h.connecting id info hp
          · intro i info' hp'
            rw [establish_conns] at hp'
            split at hp'
            · cases hp'
            · exact h.connecting i info' hp'
      · exact infosOk_reject h hn
    · exact h
  | reply id result =>
    simp only [step, reply]
    split
    · next info msg hp =>
      split
      · exact infosOk_endLoop h
      · split
        · refine infosOk_set (s := s) (id := id) (f := fun c => { c with phase := .ready info }) h
            (fun _ => rfl) rfl rfl rfl ?_ ?_
          · rintro info' (hs | ⟨m', hs⟩)
            · rw [hp] at hs; cases hs
            · rw [hp] at hs; cases hs; exact .inl rfl
          · intro info hs; cases hs
        · exact infosOk_respond h hp
      · exact infosOk_respond h hp
      · exact h
    · exact h
  | giveUp id =>
    simp only [step, giveUp]
    split
    · split
      · exact infosOk_endLoop h
      · exact h
    · split
      · exact infosOk_endLoop h
      · exact h
    · exact infosOk_endLoop h
    · exact h
  | setStatus status =>
    simp only [step, setStatus]
    split
    · exact h
    · exact ⟨h.nodup, h.serving, h.good, h.connecting⟩
  | statusStep task =>
    simp only [step, statusStep]
    split
    · exact h
    · next id rest _ =>
      split
      · exact ⟨h.nodup, h.serving, h.good, h.connecting⟩
      · exact infosOk_set (s := s) (id := id) (f := fun c => { c with sent := c.sent ++ [.status s.status] }) h
          (fun _ => rfl) rfl rfl rfl (fun info hs => hs) (fun info hs => h.connecting id info hs)
  | notify events persisted withAck => exact ⟨h.nodup, h.serving, h.good, h.connecting⟩
  | send call id =>
    simp only [step, send]
    split
    · next t _ _ =>
      split
      · split
        · exact ⟨h.nodup, h.serving, h.good, h.connecting⟩
        · exact infosOk_set (s := s) (id := id) (f := fun c => { c with sent := c.sent ++ [.events call s.nextConv t.2] }) h
            (fun _ => rfl) rfl rfl rfl (fun info hs => hs) (fun info hs => h.connecting id info hs)
      · exact h
    · exact h
  | await_ call id =>
    simp only [step, awaitAck]
    split
    · exact ⟨h.nodup, h.serving, h.good, h.connecting⟩
    · exact h

/-! ### Clients that are not known -/

/-- A connection whose client was never known. -/
structure OutConn (c : Conn) : Prop where
  ready : ∀ info, c.phase ≠ .ready info
  busy : ∀ info m, c.phase ≠ .busy info m
  handled : c.handled = []
  sent : c.sent = [] ∨ (c.sent = [.initError] ∧ (c.phase = .rejected ∨ c.phase = .ended))

structure Out (s : EvServer) (id : Nat) : Prop where
  conn : OutConn (s.conns id)
  infos : ∀ info, (id, info) ∉ s.infos
  tasks : ∀ k, id ∉ s.tasks k
  targets : ∀ k es, (id, es) ∉ (s.calls k).targets

theorem out_calm {s s' : EvServer} {id : Nat} (h : Calm s s') (ho : Out s id) (hc : OutConn (s'.conns id)) :
    Out s' id where
  conn := hc
  infos info hm := ho.infos info (h.infos.subset hm)
  tasks k := by rw [h.tasks]; exact ho.tasks k
  targets k es := by rw [h.targets]; exact ho.targets k es

theorem outConn_ended {c : Conn} (h : OutConn c) : OutConn { c with phase := .ended, lost := true } where
  ready := by simp
  busy := by simp
  handled := h.handled
  sent := by
    rcases h.sent with h | h
    · exact .inl h
    · exact .inr ⟨h.1, .inr rfl⟩

theorem outConn_endLoop {s : EvServer} {id i : Nat} (h : OutConn (s.conns i)) : OutConn ((s.endLoop id).conns i) := by
  rw [endLoop_conns]
  split
  · exact outConn_ended h
  · exact h

theorem outConn_reject {s : EvServer} {id i : Nat} (h : OutConn (s.conns i)) (hs : i = id → (s.conns i).sent = []) :
    OutConn ((s.reject id).conns i) := by
  rw [reject_conns]
  split
  · next hi =>
    split
    · exact outConn_ended h
    · exact ⟨by simp, by simp, h.handled, .inr ⟨by simp [hs hi], .inl rfl⟩⟩
  · exact h

theorem OutConn.sent_nil {c : Conn} (h : OutConn c) (h1 : c.phase ≠ .rejected) (h2 : c.phase ≠ .ended) : c.sent = [] := by
  rcases h.sent with h | ⟨_, h | h⟩
  · exact h
  · exact absurd h h1
  · exact absurd h h2

theorem out_step {s : EvServer} {id : Nat} (a : EvAct) (h : Out s id)
    (hnew : (s.conns s.nextConn).phase = .absent)
    (ha : ∀ info, (s.conns id).phase = .connecting info → a ≠ .connected id true) : Out (s.step a) id := by
  have hc := h.conn
  cases a with
  | accept =>
    refine out_calm (calm_accept s) h ?_
    show OutConn ((s.setConn s.nextConn fun c => { c with phase := .waiting }).conns id)
    rw [setConn_conns]
    split
    · next hi =>
      refine ⟨by simp, by simp, hc.handled, .inl ?_⟩
      rw [hi] at hc ⊢
      exact hc.sent_nil (by rw [hnew]; simp) (by rw [hnew]; simp)
    · exact hc
  | lose i =>
    refine out_calm (calm_lose s i) h ?_
    show OutConn ((s.setConn i fun c => { c with lost := true }).conns id)
    rw [setConn_conns]
    split
    · exact ⟨hc.ready, hc.busy, hc.handled, hc.sent⟩
    · exact hc
  | receive i msg =>
    refine out_calm (calm_receive s i msg) h ?_
    simp only [step, receive]
    split
    · next hp =>
      have hrej : OutConn ((s.reject i).conns id) := by
        refine outConn_reject hc ?_
        rintro rfl
        exact hc.sent_nil (by rw [hp]; simp) (by rw [hp]; simp)
      split
      · unfold initConn
        split
        · exact hrej
        · split
          · rw [setConn_conns]
            split
            · next hi =>
              refine ⟨by simp, by simp, hc.handled, .inl ?_⟩
              rw [← hi] at hp
              exact hc.sent_nil (by rw [hp]; simp) (by rw [hp]; simp)
            · exact hc
          · exact hrej
      · exact outConn_endLoop hc
    · next info hp =>
      have hi : id ≠ i := by rintro rfl; exact hc.ready info hp
      unfold process
      split
      · rw [acknowledge_conns, if_neg hi]; exact hc
      · rw [handle, setConn_other _ hi]; exact hc
      · rw [handle, setConn_other _ hi]; exact hc
      · exact outConn_endLoop hc
      · exact outConn_endLoop hc
    · exact hc
  | connected i ok =>
    by_cases hi : id = i
    · simp only [step, connected]
      split
      · next info hp =>
        rw [← hi] at hp
        split
        · next hok => exact absurd (by rw [hok, hi]) (ha info hp)
        · refine out_calm (calm_reject s i) h (outConn_reject hc ?_)
          intro _
          exact hc.sent_nil (by rw [hp]; simp) (by rw [hp]; simp)
      · exact h
    · simp only [step, connected]
      split
      · split
        · split
          · exact out_calm (calm_endLoop s i) h (outConn_endLoop hc)
          · refine ⟨?_, ?_, h.tasks, h.targets⟩
            · rw [establish_conns, if_neg hi]
              exact hc
            · intro info' hm
              rcases List.mem_append.1 hm with hm | hm
              · exact h.infos info' hm
              · rw [List.mem_singleton, Prod.mk.injEq] at hm
                exact hi hm.1
        · exact out_calm (calm_reject s i) h (outConn_reject hc fun he => absurd he hi)
      · exact h
  | reply i result =>
    refine out_calm (calm_reply s i result) h ?_
    simp only [step, reply]
    split
    · next info msg hp =>
      have hi : id ≠ i := by rintro rfl; exact hc.busy info msg hp
      split
      · exact outConn_endLoop hc
      · split
        · rw [setConn_other _ hi]; exact hc
        · rw [respond_conns, if_neg hi]; exact hc
      · rw [respond_conns, if_neg hi]; exact hc
      · exact hc
    · exact hc
  | giveUp i =>
    refine out_calm (calm_giveUp s i) h ?_
    simp only [step, giveUp]
    split
    · split
      · exact outConn_endLoop hc
      · exact hc
    · split
      · exact outConn_endLoop hc
      · exact hc
    · exact outConn_endLoop hc
    · exact hc
  | setStatus status =>
    simp only [step, setStatus]
    split
    · exact h
    · refine ⟨hc, h.infos, ?_, h.targets⟩
      intro k hm
      simp only at hm
      split at hm
      · obtain ⟨p, hp, he⟩ := List.mem_map.1 hm
        exact h.infos p.2 (he ▸ hp)
      · exact h.tasks k hm
  | statusStep task =>
    simp only [step, statusStep]
    split
    · exact h
    · next i rest heq =>
      have hi : id ≠ i := by
        rintro rfl
        exact h.tasks task (by rw [heq]; exact List.mem_cons_self)
      have htasks : ∀ k, id ∉ (if k = task then rest else s.tasks k) := by
        intro k hm
        split at hm
        · exact h.tasks task (by rw [heq]; exact List.mem_cons_of_mem _ hm)
        · exact h.tasks k hm
      split
      · exact ⟨hc, h.infos, htasks, h.targets⟩
      · refine ⟨?_, h.infos, htasks, h.targets⟩
        rw [post, setConn_other _ hi]
        exact hc
  | notify events persisted withAck =>
    refine ⟨hc, h.infos, h.tasks, ?_⟩
    intro k es hm
    simp only [step, notify] at hm
    split at hm
    · obtain ⟨p, hp, he⟩ := List.mem_filterMap.1 hm
      unfold target at he
      split at he
      · cases he
      · split at he
        · cases he
        · simp only [Option.some.injEq, Prod.mk.injEq] at he
          exact h.infos p.2 (he.1 ▸ hp)
    · exact h.targets k es hm
  | send call i =>
    have htar : ∀ (s' : EvServer) (k c j : Nat) (d : Delivery) es, (∀ k es, (id, es) ∉ (s'.calls k).targets) →
        (id, es) ∉ ((s'.setDelivery c j d).calls k).targets := by
      intro s' k c j d es hs' hm
      simp only [setDelivery] at hm
      split at hm
      · exact hs' _ _ hm
      · exact hs' _ _ hm
    simp only [step, send]
    split
    · next t hf hst =>
      have hi : id ≠ i := by
        rintro rfl
        have h1 := List.mem_of_find?_eq_some hf
        have h2 := List.find?_some hf
        simp only [decide_eq_true_eq] at h2
        exact h.targets call t.2 (by rw [← h2]; exact h1)
      split
      · split
        · exact ⟨hc, h.infos, h.tasks, fun k es => htar s k _ _ _ es h.targets⟩
        · refine ⟨?_, h.infos, h.tasks, fun k es => htar _ k _ _ _ es h.targets⟩
          show OutConn ((s.post i _).conns id)
          rw [post, setConn_other _ hi]
          exact hc
      · exact h
    · exact h
  | await_ call i =>
    simp only [step, awaitAck]
    split
    · refine ⟨hc, h.infos, h.tasks, ?_⟩
      intro k es hm
      simp only [setDelivery] at hm
      split at hm
      · exact h.targets _ _ hm
      · exact h.targets _ _ hm
    · exact h

/-! ### Phases -/

/-- The actions that may change the phase of a connection. -/
def _root_.HatEvent.EvAct.about : EvAct → Option Nat
  | .receive id _ => some id
  | .connected id _ => some id
  | .reply id _ => some id
  | .giveUp id => some id
  | _ => none

theorem nextConn_step (s : EvServer) (a : EvAct) : (s.step a).nextConn = s.nextConn ∨
    (a = .accept ∧ (s.step a).nextConn = s.nextConn + 1) := by
  cases a with
  | accept => exact .inr ⟨rfl, rfl⟩
  | lose id => exact .inl rfl
  | receive id msg =>
    left
    have hrej : (s.reject id).nextConn = s.nextConn := by unfold reject; split <;> rfl
    simp only [step, receive]
    split
    · split
      · unfold initConn
        split
        · exact hrej
        · split
          · rfl
          · exact hrej
      · rfl
    · unfold process
      split <;> rfl
    · rfl
  | connected id ok =>
    left
    have hrej : (s.reject id).nextConn = s.nextConn := by unfold reject; split <;> rfl
    simp only [step, connected]
    split
    · split
      · split <;> rfl
      · exact hrej
    · rfl
  | reply id result =>
    left
    have hres : ∀ info m, (s.respond id info m).nextConn = s.nextConn := by
      intro info m; unfold respond; split <;> rfl
    simp only [step, reply]
    split
    · split
      · rfl
      · split
        · rfl
        · exact hres _ _
      · exact hres _ _
      · rfl
    · rfl
  | giveUp id =>
    left
    simp only [step, giveUp]
    split
    · split <;> rfl
    · split <;> rfl
    · rfl
    · rfl
  | setStatus status => left; simp only [step, setStatus]; split <;> rfl
  | statusStep task =>
    left
    simp only [step, statusStep]
    split
    · rfl
    · split <;> rfl
  | notify events persisted withAck => left; rfl
  | send call id =>
    left
    simp only [step, send]
    split
    · split
      · split <;> rfl
      · rfl
    · rfl
  | await_ call id => left; simp only [step, awaitAck]; split <;> rfl

/-- Actions of other connections do not change a phase. -/
theorem phase_other {s : EvServer} {a : EvAct} {id : Nat} (ha : a.about ≠ some id)
    (hacc : a = .accept → id ≠ s.nextConn) : ((s.step a).conns id).phase = (s.conns id).phase := by
  cases a with
  | accept =>
    show ((s.setConn s.nextConn fun c => { c with phase := .waiting }).conns id).phase = _
    rw [setConn_other _ (hacc rfl)]
  | lose i =>
    show ((s.setConn i fun c => { c with lost := true }).conns id).phase = _
    rw [setConn_conns]
    split <;> rfl
  | receive i msg =>
    have hi : id ≠ i := fun h => ha (by rw [h]; rfl)
    simp only [step, receive]
    split
    · split
      · unfold initConn
        split
        · rw [reject_conns, if_neg hi]
        · split
          · rw [setConn_other _ hi]
          · rw [reject_conns, if_neg hi]
      · rw [endLoop_conns, if_neg hi]
    · unfold process
      split
      · rw [acknowledge_conns, if_neg hi]
      · rw [handle, setConn_other _ hi]
      · rw [handle, setConn_other _ hi]
      · rw [endLoop_conns, if_neg hi]
      · rw [endLoop_conns, if_neg hi]
    · rfl
  | connected i ok =>
    have hi : id ≠ i := fun h => ha (by rw [h]; rfl)
    simp only [step, connected]
    split
    · split
      · split
        · rw [endLoop_conns, if_neg hi]
        · rw [establish_conns, if_neg hi]
      · rw [reject_conns, if_neg hi]
    · rfl
  | reply i result =>
    have hi : id ≠ i := fun h => ha (by rw [h]; rfl)
    simp only [step, reply]
    split
    · split
      · rw [endLoop_conns, if_neg hi]
      · split
        · rw [setConn_other _ hi]
        · rw [respond_conns, if_neg hi]
      · rw [respond_conns, if_neg hi]
      · rfl
    · rfl
  | giveUp i =>
    have hi : id ≠ i := fun h => ha (by rw [h]; rfl)
    simp only [step, giveUp]
    split
    · split
      · rw [endLoop_conns, if_neg hi]
      · rfl
    · split
      · rw [endLoop_conns, if_neg hi]
      · rfl
    · rw [endLoop_conns, if_neg hi]
    · rfl
  | setStatus status => simp only [step, setStatus]; split <;> rfl
  | statusStep task =>
    simp only [step, statusStep]
    split
    · rfl
    · split
      · rfl
      · rw [post, setConn_conns]
        split <;> rfl
  | notify events persisted withAck => rfl
  | send call i =>
    simp only [step, send]
    split
    · split
      · split
        · rfl
        · next t _ _ _ _ =>
          show ((s.post i (.events call s.nextConv t.2)).conns id).phase = _
          rw [post, setConn_conns]
          split <;> rfl
      · rfl
    · rfl
  | await_ call i => simp only [step, awaitAck]; split <;> rfl

/-- Actions of other connections do not lose a connection. -/
theorem lost_other {s : EvServer} {a : EvAct} {id : Nat} (ha : a.about ≠ some id)
    (hlose : a ≠ .lose id) : ((s.step a).conns id).lost = (s.conns id).lost := by
  cases a with
  | accept =>
    show ((s.setConn s.nextConn fun c => { c with phase := .waiting }).conns id).lost = _
    rw [setConn_conns]
    split <;> rfl
  | lose i =>
    show ((s.setConn i fun c => { c with lost := true }).conns id).lost = _
    rw [setConn_other _ (fun h => hlose (by rw [h]))]
  | receive i msg =>
    have hi : id ≠ i := fun h => ha (by rw [h]; rfl)
    simp only [step, receive]
    split
    · split
      · unfold initConn
        split
        · rw [reject_conns, if_neg hi]
        · split
          · rw [setConn_other _ hi]
          · rw [reject_conns, if_neg hi]
      · rw [endLoop_conns, if_neg hi]
    · unfold process
      split
      · rw [acknowledge_conns, if_neg hi]
      · rw [handle, setConn_other _ hi]
      · rw [handle, setConn_other _ hi]
      · rw [endLoop_conns, if_neg hi]
      · rw [endLoop_conns, if_neg hi]
    · rfl
  | connected i ok =>
    have hi : id ≠ i := fun h => ha (by rw [h]; rfl)
    simp only [step, connected]
    split
    · split
      · split
        · rw [endLoop_conns, if_neg hi]
        · rw [establish_conns, if_neg hi]
      · rw [reject_conns, if_neg hi]
    · rfl
  | reply i result =>
    have hi : id ≠ i := fun h => ha (by rw [h]; rfl)
    simp only [step, reply]
    split
    · split
      · rw [endLoop_conns, if_neg hi]
      · split
        · rw [setConn_other _ hi]
        · rw [respond_conns, if_neg hi]
      · rw [respond_conns, if_neg hi]
      · rfl
    · rfl
  | giveUp i =>
    have hi : id ≠ i := fun h => ha (by rw [h]; rfl)
    simp only [step, giveUp]
    split
    · split
      · rw [endLoop_conns, if_neg hi]
      · rfl
    · split
      · rw [endLoop_conns, if_neg hi]
      · rfl
    · rw [endLoop_conns, if_neg hi]
    · rfl
  | setStatus status => simp only [step, setStatus]; split <;> rfl
  | statusStep task =>
    simp only [step, statusStep]
    split
    · rfl
    · split
      · rfl
      · rw [post, setConn_conns]
        split <;> rfl
  | notify events persisted withAck => rfl
  | send call i =>
    simp only [step, send]
    split
    · split
      · split
        · rfl
        · next t _ _ _ _ =>
          show ((s.post i (.events call s.nextConv t.2)).conns id).lost = _
          rw [post, setConn_conns]
          split <;> rfl
      · rfl
    · rfl
  | await_ call i => simp only [step, awaitAck]; split <;> rfl

/-- A phase nothing happens in. -/
theorem phase_idle {s : EvServer} {a : EvAct} {id : Nat}
    (hp : (s.conns id).phase = .absent ∨ (s.conns id).phase = .ended)
    (hacc : a = .accept → id ≠ s.nextConn) : ((s.step a).conns id).phase = (s.conns id).phase := by
  by_cases ha : a.about = some id
  · cases a with
    | receive i msg =>
      simp only [EvAct.about, Option.some.injEq] at ha
      subst ha
      simp only [step, receive]
      rcases hp with hp | hp <;> simp only [hp]
    | connected i ok =>
      simp only [EvAct.about, Option.some.injEq] at ha
      subst ha
      simp only [step, connected]
      rcases hp with hp | hp <;> simp only [hp]
    | reply i result =>
      simp only [EvAct.about, Option.some.injEq] at ha
      subst ha
      simp only [step, reply]
      rcases hp with hp | hp <;> simp only [hp]
    | giveUp i =>
      simp only [EvAct.about, Option.some.injEq] at ha
      subst ha
      simp only [step, giveUp]
      rcases hp with hp | hp <;> simp only [hp]
    | _ => simp [EvAct.about] at ha
  · exact phase_other ha hacc

/-- Connections that do not exist yet. -/
def Fresh (s : EvServer) : Prop := ∀ id, s.nextConn ≤ id → (s.conns id).phase = .absent

theorem fresh_step {s : EvServer} (a : EvAct) (h : Fresh s) : Fresh (s.step a) := by
  intro id hid
  have hle : s.nextConn ≤ id ∧ (a = .accept → id ≠ s.nextConn) := by
    rcases nextConn_step s a with hn | ⟨ha, hn⟩
    · rw [hn] at hid
      refine ⟨hid, ?_⟩
      intro ha
      rw [ha] at hn
      simp only [step] at hn
      omega
    · rw [hn] at hid
      exact ⟨by omega, fun _ => by omega⟩
  rw [phase_idle (.inl (h id hle.1)) hle.2]
  exact h id hle.1

theorem fresh_run (useC : Bool) (token : Option String) (acts : List EvAct) : Fresh ((init useC token).run acts) := by
  induction acts using List.reverseRecOn with
  | nil => intro id _; rfl
  | append_singleton acts a ih => rw [run_snoc]; exact fresh_step a ih

theorem infosOk_run (useC : Bool) (token : Option String) (acts : List EvAct) :
    InfosOk ((init useC token).run acts) := by
  induction acts using List.reverseRecOn with
  | nil =>
    constructor
    · exact List.nodup_nil
    · intro p hp; simp [run, init] at hp
    · intro p hp; simp [run, init] at hp
    · intro id info hp; simp [run, init] at hp
  | append_singleton acts a ih =>
    rw [run_snoc]
    exact infosOk_step a ih (fresh_run useC token acts _ (Nat.le_refl _))

/-- Phases before a client is known. -/
def _root_.HatEvent.LoopPhase.early : LoopPhase → Bool
  | .absent => true
  | .waiting => true
  | .connecting _ => true
  | .rejected => true
  | _ => false

theorem early_step {s : EvServer} {a : EvAct} {id : Nat} (h : ((s.step a).conns id).phase.early = true)
    (hf : Fresh s) : (s.conns id).phase.early = true ∧
      ∀ info, (s.conns id).phase = .connecting info → a ≠ .connected id true := by
  by_cases ha : a.about = some id
  · cases a with
    | receive i msg =>
      simp only [EvAct.about, Option.some.injEq] at ha
      subst ha
      refine ⟨?_, by simp⟩
      by_contra hc
      cases hp : (s.conns i).phase with
      | ready info =>
        simp only [step, receive, hp, process] at h
        split at h
        · rw [acknowledge_conns, if_pos rfl] at h; rw [hp] at h; cases h
        · rw [handle, setConn_self] at h; cases h
        · rw [handle, setConn_self] at h; cases h
        · rw [endLoop_conns, if_pos rfl] at h; cases h
        · rw [endLoop_conns, if_pos rfl] at h; cases h
      | busy info m => simp only [step, receive, hp] at h; cases h
      | ended => simp only [step, receive, hp] at h; cases h
      | _ => rw [hp] at hc; exact hc rfl
    | connected i ok =>
      simp only [EvAct.about, Option.some.injEq] at ha
      subst ha
      cases hp : (s.conns i).phase with
      | connecting info =>
        refine ⟨rfl, ?_⟩
        intro _ _ ha
        simp only [EvAct.connected.injEq, true_and] at ha
        subst ha
        simp only [step, connected, hp, if_true] at h
        split at h
        · rw [endLoop_conns, if_pos rfl] at h; cases h
        · rw [establish_conns, if_pos rfl] at h; cases h
      | ready info => simp only [step, connected, hp] at h; cases h
      | busy info m => simp only [step, connected, hp] at h; cases h
      | ended => simp only [step, connected, hp] at h; cases h
      | _ => exact ⟨rfl, by simp⟩
    | reply i result =>
      simp only [EvAct.about, Option.some.injEq] at ha
      subst ha
      refine ⟨?_, by simp⟩
      by_contra hc
      cases hp : (s.conns i).phase with
      | busy info m =>
        simp only [step, reply, hp] at h
        split at h
        · rw [endLoop_conns, if_pos rfl] at h; cases h
        · split at h
          · rw [setConn_self] at h; cases h
          · rw [respond_conns, if_pos rfl] at h; split at h <;> cases h
        · rw [respond_conns, if_pos rfl] at h; split at h <;> cases h
        · rw [hp] at h; cases h
      | ready info => simp only [step, reply, hp] at h; cases h
      | ended => simp only [step, reply, hp] at h; cases h
      | _ => rw [hp] at hc; exact hc rfl
    | giveUp i =>
      simp only [EvAct.about, Option.some.injEq] at ha
      subst ha
      refine ⟨?_, by simp⟩
      by_contra hc
      cases hp : (s.conns i).phase with
      | ready info =>
        simp only [step, giveUp, hp] at h
        split at h
        · rw [endLoop_conns, if_pos rfl] at h; cases h
        · rw [hp] at h; cases h
      | busy info m => simp only [step, giveUp, hp] at h; cases h
      | ended => simp only [step, giveUp, hp] at h; cases h
      | _ => rw [hp] at hc; exact hc rfl
    | _ => simp [EvAct.about] at ha
  · have hne : ∀ info, (s.conns id).phase = .connecting info → a ≠ .connected id true := by
      intro info _ he
      rw [he] at ha
      exact ha rfl
    by_cases hacc : a = .accept ∧ id = s.nextConn
    · rw [hacc.2, hf _ (Nat.le_refl _)]
      exact ⟨rfl, by simp⟩
    · rw [phase_other ha (fun h1 h2 => hacc ⟨h1, h2⟩)] at h
      exact ⟨h, hne⟩

theorem out_run {useC : Bool} {token : Option String} {acts : List EvAct} {id : Nat}
    (h : (((init useC token).run acts).conns id).phase.early = true) : Out ((init useC token).run acts) id := by
  induction acts using List.reverseRecOn with
  | nil =>
    exact ⟨⟨by simp [run, init], by simp [run, init], rfl, .inl rfl⟩, by simp [run, init], by simp [run, init],
      by simp [run, init]⟩
  | append_singleton acts a ih =>
    rw [run_snoc] at h ⊢
    obtain ⟨h1, h2⟩ := early_step h (fresh_run useC token acts)
    exact out_step a (ih h1) (fresh_run useC token acts _ (Nat.le_refl _)) h2

/-- A client that was turned away stays away. -/
theorem away_step {s : EvServer} {a : EvAct} {id : Nat} (hf : Fresh s)
    (hp : (s.conns id).phase = .rejected ∨ (s.conns id).phase = .ended) (h : Out s id) :
    (((s.step a).conns id).phase = .rejected ∨ ((s.step a).conns id).phase = .ended) ∧ Out (s.step a) id := by
  have hne : ∀ info, (s.conns id).phase = .connecting info → a ≠ .connected id true := by
    intro info hc
    rw [hc] at hp
    simp at hp
  refine ⟨?_, out_step a h (hf _ (Nat.le_refl _)) hne⟩
  have hacc : a = .accept → id ≠ s.nextConn := by
    rintro _ rfl
    rw [hf _ (Nat.le_refl _)] at hp
    simp at hp
  rcases hp with hp | hp
  · by_cases ha : a.about = some id
    · cases a with
      | receive i msg =>
        simp only [EvAct.about, Option.some.injEq] at ha
        subst ha
        simp only [step, receive, hp]
        exact .inl trivial
      | connected i ok =>
        simp only [EvAct.about, Option.some.injEq] at ha
        subst ha
        simp only [step, connected, hp]
        exact .inl trivial
      | reply i result =>
        simp only [EvAct.about, Option.some.injEq] at ha
        subst ha
        simp only [step, reply, hp]
        exact .inl trivial
      | giveUp i =>
        simp only [EvAct.about, Option.some.injEq] at ha
        subst ha
        simp only [step, giveUp, hp]
        right
        rw [endLoop_conns, if_pos rfl]
      | _ => simp [EvAct.about] at ha
    · rw [phase_other ha hacc]; exact .inl hp
  · rw [phase_idle (.inr hp) hacc]; exact .inr hp

/-! ### The configuration never changes, messages are never taken back -/

/-- Only the state that changes. -/
structure Later (s s' : EvServer) : Prop where
  token : s'.token = s.token
  useC : s'.useC = s.useC
  sent : ∀ id, (s.conns id).sent <+: (s'.conns id).sent

theorem Later.refl (s : EvServer) : Later s s := ⟨rfl, rfl, fun _ => List.prefix_refl _⟩

theorem later_set {s s' : EvServer} {id : Nat} {f : Conn → Conn} (ht : s'.token = s.token) (hu : s'.useC = s.useC)
    (hc : ∀ i, s'.conns i = if i = id then f (s.conns i) else s.conns i)
    (hf : (s.conns id).sent <+: (f (s.conns id)).sent) : Later s s' where
  token := ht
  useC := hu
  sent i := by
    rw [hc]
    split
    · next h => subst h; exact hf
    · exact List.prefix_refl _

theorem later_endLoop (s : EvServer) (id : Nat) : Later s (s.endLoop id) :=
  later_set (s := s) (f := fun c => { c with phase := .ended, lost := true }) rfl rfl (endLoop_conns s id)
    (List.prefix_refl _)

theorem later_reject (s : EvServer) (id : Nat) : Later s (s.reject id) := by
  unfold reject
  split
  · exact later_endLoop s id
  · exact later_set (s := s) (id := id) (f := fun c => { c with sent := c.sent ++ [.initError], phase := .rejected }) rfl rfl
      (fun i => by unfold post setConn; dsimp only; split <;> rfl) (List.prefix_append _ _)

theorem later_respond (s : EvServer) (id : Nat) (info : ConnInfo) (m : ServerMsg) : Later s (s.respond id info m) := by
  unfold respond
  split
  · exact later_endLoop s id
  · exact later_set (s := s) (id := id) (f := fun c => { c with sent := c.sent ++ [m], phase := .ready info }) rfl rfl
      (fun i => by unfold post setConn; dsimp only; split <;> rfl) (List.prefix_append _ _)

theorem later_setConn (s : EvServer) (id : Nat) (f : Conn → Conn) (hf : (s.conns id).sent <+: (f (s.conns id)).sent) :
    Later s (s.setConn id f) :=
  later_set (s := s) (id := id) (f := f) rfl rfl (fun _ => setConn_conns ..) hf

theorem later_step (s : EvServer) (a : EvAct) : Later s (s.step a) := by
  cases a with
  | accept =>
    exact later_set (s := s) (s' := s.step .accept) (id := s.nextConn) (f := fun c => { c with phase := .waiting }) rfl rfl
      (fun i => setConn_conns s s.nextConn i (fun c => { c with phase := .waiting })) (List.prefix_refl _)
  | lose id => exact later_setConn s id (fun c => { c with lost := true }) (List.prefix_refl _)
  | receive id msg =>
    simp only [step, receive]
    split
    · split
      · unfold initConn
        split
        · exact later_reject s id
        · split
          · exact later_setConn s id _ (List.prefix_refl _)
          · exact later_reject s id
      · exact later_endLoop s id
    · unfold process
      split
      · exact later_set (s := s) (id := id) (f := fun c => { c with acks := c.acks ++ [_] }) rfl rfl
          (acknowledge_conns s id _) (List.prefix_refl _)
      · exact later_setConn s id _ (List.prefix_refl _)
      · exact later_setConn s id _ (List.prefix_refl _)
      · exact later_endLoop s id
      · exact later_endLoop s id
    · exact .refl s
  | connected id ok =>
    simp only [step, connected]
    split
    · next info hp =>
      split
      · split
        · exact later_endLoop s id
        · exact later_set (s := s) (id := id)
            (f := fun c => { c with sent := c.sent ++ [.initOk s.status], phase := .ready info }) rfl rfl
            (fun _ => establish_conns ..) (List.prefix_append _ _)
      · exact later_reject s id
    · exact .refl s
  | reply id result =>
    simp only [step, reply]
    split
    · split
      · exact later_endLoop s id
      · split
        · exact later_setConn s id _ (List.prefix_refl _)
        · exact later_respond s id _ _
      · exact later_respond s id _ _
      · exact .refl s
    · exact .refl s
  | giveUp id =>
    simp only [step, giveUp]
    split
    · split
      · exact later_endLoop s id
      · exact .refl s
    · split
      · exact later_endLoop s id
      · exact .refl s
    · exact later_endLoop s id
    · exact .refl s
  | setStatus status =>
    simp only [step, setStatus]
    split
    · exact .refl s
    · exact ⟨rfl, rfl, fun _ => List.prefix_refl _⟩
  | statusStep task =>
    simp only [step, statusStep]
    split
    · exact .refl s
    · next id rest _ =>
      split
      · exact ⟨rfl, rfl, fun _ => List.prefix_refl _⟩
      · exact later_set (s := s) (id := id) (f := fun c => { c with sent := c.sent ++ [.status s.status] }) rfl rfl
          (fun i => by unfold post setConn; dsimp only) (List.prefix_append _ _)
  | notify events persisted withAck => exact ⟨rfl, rfl, fun _ => List.prefix_refl _⟩
  | send call id =>
    simp only [step, send]
    split
    · next t _ _ =>
      split
      · split
        · exact ⟨rfl, rfl, fun _ => List.prefix_refl _⟩
        · exact later_set (s := s) (id := id)
            (f := fun c => { c with sent := c.sent ++ [.events call s.nextConv t.2] }) rfl rfl
            (fun i => by unfold setDelivery post setConn; dsimp only) (List.prefix_append _ _)
      · exact .refl s
    · exact .refl s
  | await_ call id =>
    simp only [step, awaitAck]
    split
    · exact ⟨rfl, rfl, fun _ => List.prefix_refl _⟩
    · exact .refl s

theorem token_run (useC : Bool) (token : Option String) (acts : List EvAct) :
    ((init useC token).run acts).token = token := by
  induction acts using List.reverseRecOn with
  | nil => rfl
  | append_singleton acts a ih => rw [run_snoc, (later_step _ a).token, ih]

theorem useC_run (useC : Bool) (token : Option String) (acts : List EvAct) :
    ((init useC token).run acts).useC = useC := by
  induction acts using List.reverseRecOn with
  | nil => rfl
  | append_singleton acts a ih => rw [run_snoc, (later_step _ a).useC, ih]

/-- While the connected callback runs. -/
theorem connecting_step {s : EvServer} {a : EvAct} {id : Nat} {info : ConnInfo} (hf : Fresh s)
    (hp : (s.conns id).phase = .connecting info) (h1 : a ≠ .lose id) (h2 : ∀ ok, a ≠ .connected id ok) :
    ((s.step a).conns id).phase = .connecting info ∧ ((s.step a).conns id).lost = (s.conns id).lost := by
  by_cases ha : a.about = some id
  · cases a with
    | receive i msg =>
      simp only [EvAct.about, Option.some.injEq] at ha
      subst ha
      simp only [step, receive, hp]
      exact ⟨trivial, trivial⟩
    | connected i ok =>
      simp only [EvAct.about, Option.some.injEq] at ha
      subst ha
      exact absurd rfl (h2 ok)
    | reply i r =>
      simp only [EvAct.about, Option.some.injEq] at ha
      subst ha
      simp only [step, reply, hp]
      exact ⟨trivial, trivial⟩
    | giveUp i =>
      simp only [EvAct.about, Option.some.injEq] at ha
      subst ha
      simp only [step, giveUp, hp]
      exact ⟨trivial, trivial⟩
    | _ => simp [EvAct.about] at ha
  · refine ⟨(phase_other ha ?_).trans hp, lost_other ha h1⟩
    rintro - rfl
    rw [hf _ (Nat.le_refl _)] at hp
    cases hp

theorem status_step (s : EvServer) (a : EvAct) : (s.step a).status = match a with
    | .setStatus status => status
    | _ => s.status := by
  have hrej : ∀ id, (s.reject id).status = s.status := by intro id; unfold reject; split <;> rfl
  have hres : ∀ id info m, (s.respond id info m).status = s.status := by intro id info m; unfold respond; split <;> rfl
  cases a with
  | receive id msg =>
    simp only [step, receive]
    split
    · split
      · unfold initConn
        split
        · exact hrej id
        · split
          · rfl
          · exact hrej id
      · rfl
    · unfold process
      split <;> rfl
    · rfl
  | connected id ok =>
    simp only [step, connected]
    split
    · split
      · split <;> rfl
      · exact hrej id
    · rfl
  | reply id result =>
    simp only [step, reply]
    split
    · split
      · rfl
      · split
        · rfl
        · exact hres _ _ _
      · exact hres _ _ _
      · rfl
    · rfl
  | giveUp id =>
    simp only [step, giveUp]
    split
    · split <;> rfl
    · split <;> rfl
    · rfl
    · rfl
  | setStatus status =>
    simp only [step, setStatus]
    split
    · assumption
    · rfl
  | statusStep task =>
    simp only [step, statusStep]
    split
    · rfl
    · split <;> rfl
  | send call id =>
    simp only [step, send]
    split
    · split
      · split <;> rfl
      · rfl
    · rfl
  | await_ call id =>
    simp only [step, awaitAck]
    split <;> rfl
  | _ => rfl

end EvServer

end HatEvent
