import Verif.Proof.RelayOffer
import Verif.Proof.HostActs

/-!
# The engines of an event server that goes on
-/

namespace HatEvent
open Spec

namespace Station

/-- The eventer server in an action. -/
theorem server_step (cf : StationConf) (s : Station) (act : StationAct) :
    ∃ l, (s.step cf act).host.server = s.host.server.run l ∧ ∀ c id, act = .host (.send c id) → l = [.send c id] := by
  have hh : ∀ a : HostAct, ∃ l, (s.hostStep cf a).host.server = s.host.server.run l ∧ ∀ c id, a = .send c id → l = [.send c id] := by
    intro a
    obtain ⟨l, hl⟩ := Host.acts_step s.host a
    exact ⟨l, by rw [(hostStep_calls cf s a).host]; exact hl.run, hl.single⟩
  have same : ∀ {t : Station}, t.host = s.host → (∀ c id, act ≠ .host (.send c id)) →
      ∃ l, t.host.server = s.host.server.run l ∧ ∀ c id, act = .host (.send c id) → l = [.send c id] :=
    fun h hne => ⟨[], by rw [h]; rfl, fun c id h => absurd h (hne c id)⟩
  cases act with
  | host act =>
    simp only [step]
    split
    · obtain ⟨l, h1, h2⟩ := hh act
      exact ⟨l, h1, fun c id h => h2 c id (by cases h; rfl)⟩
    · next hp =>
      refine ⟨[], rfl, fun c id h => ?_⟩
      cases h
      exact absurd rfl hp
  | arrive i =>
    simp only [step, arrive]
    split
    · split
      · obtain ⟨l, h1, _⟩ := hh (.receive i _)
        exact ⟨l, h1, by simp⟩
      · exact same rfl (by simp)
    · exact same rfl (by simp)
  | connect i => simp only [step, connect]; split <;> exact same rfl (by simp)
  | client i act => cases act <;> exact same rfl (by simp)
  | deliver i =>
    simp only [step, deliver]
    split
    · split <;> exact same rfl (by simp)
    · exact same rfl (by simp)
  | answered i =>
    simp only [step, answered]
    split
    · split
      · obtain ⟨l, h1, _⟩ := hh (.answer i _)
        exact ⟨l, h1, by simp⟩
      · exact same rfl (by simp)
    · exact same rfl (by simp)
  | queried i =>
    simp only [step, queried]
    split
    · obtain ⟨l, h1, _⟩ := hh (.queried i _)
      exact ⟨l, h1, by simp⟩
    · exact same rfl (by simp)
  | start modules =>
    simp only [step, start]
    split
    · split <;> exact same rfl (by simp)
    · split <;> exact same rfl (by simp)
    · exact same rfl (by simp)
  | engine i act => simp only [step, engineStep]; split <;> exact same rfl (by simp)
  | keep op => cases op <;> exact same rfl (by simp)
  | remote events => exact same rfl (by simp)

end Station

namespace Relay

theorem server_step (cf : StationConf) (s : Relay) (act : RelayAct) :
    ∃ l, (s.step cf act).station.host.server = s.station.host.server.run l ∧ ∀ c id, act = .station (.host (.send c id)) → l = [.send c id] := by
  unfold step
  split
  · next e now =>
    split
    · obtain ⟨l, h, _⟩ := Station.server_step cf s.station (.engine e (.registered .same now))
      exact ⟨l, h, by simp⟩
    · exact ⟨[], rfl, by simp⟩
  · next act _ =>
    obtain ⟨l, h1, h2⟩ := Station.server_step cf s.station act
    exact ⟨l, h1, fun c id h => h2 c id (by cases h; rfl)⟩
  · unfold tell
    split
    · next events _ _ _ _ =>
      obtain ⟨l, h, _⟩ := Station.server_step cf s.station (.host (.notify events false false))
      exact ⟨l, h, by simp⟩
    · exact ⟨[], rfl, by simp⟩

/-- The callback of the call of `Backend.register` an engine is in. -/
theorem said_stays {cf : StationConf} {s : Relay} {act : RelayAct} {e c : Nat} (h : s.said e = some c)
    (hp : passed (s.step cf act).station e = passed s.station e) : (s.step cf act).said e = some c := by
  have hadv : ∀ a, passed (s.advance cf a).station e = passed s.station e → (s.advance cf a).said e = some c := by
    intro a ha
    show (if passed s.station e < passed (s.station.step cf a) e then none else s.said e) = some c
    rw [if_neg]
    · exact h
    · have : passed (s.station.step cf a) e = passed s.station e := ha
      omega
  unfold step at hp ⊢
  split at hp
  · split at hp
    · next hr => simp only [hr, if_true]; exact hadv _ hp
    · next hr => simp only [hr]; exact h
  · exact hadv _ hp
  · next i =>
    unfold tell
    split
    · next evs _ hs _ _ =>
      show (if e = i then _ else s.said e) = some c
      rw [if_neg]
      · exact h
      · rintro rfl
        rw [h] at hs
        cases hs
    · exact h

/-- The calls of the callback. -/
def SaidOk (s : Relay) : Prop :=
  ∀ e c, s.said e = some c → c < s.station.host.server.nextCall ∧ (s.station.host.server.calls c).withAck = false

theorem saidOk_step {cf : StationConf} {s : Relay} (h : SaidOk s) (act : RelayAct) : SaidOk (s.step cf act) := by
  obtain ⟨l, hl, hl'⟩ := server_step cf s act
  have old : ∀ c, c < s.station.host.server.nextCall ∧ (s.station.host.server.calls c).withAck = false →
      c < (s.step cf act).station.host.server.nextCall ∧ ((s.step cf act).station.host.server.calls c).withAck = false := by
    rintro c ⟨h1, h2⟩
    rw [hl]
    obtain ⟨g1, _, g3⟩ := EvServer.targets_run l h1
    exact ⟨g1, g3.trans h2⟩
  have hadv : ∀ a e c, (s.advance cf a).said e = some c → s.said e = some c := by
    intro a e c hc
    have hc : (if passed s.station e < passed (s.station.step cf a) e then none else s.said e) = some c := hc
    split at hc
    · cases hc
    · exact hc
  intro e c hc
  have : s.said e = some c ∨ ∃ evs, (s.step cf act).station = s.station.step cf (.host (.notify evs false false)) ∧ c = s.station.host.server.nextCall := by
    unfold step at hc ⊢
    split at hc
    · split at hc
      · exact .inl (hadv _ _ _ hc)
      · exact .inl hc
    · exact .inl (hadv _ _ _ hc)
    · next i =>
      unfold tell at hc ⊢
      split at hc
      · next evs _ hs ho hb =>
        have hc : (if e = i then some s.station.host.server.nextCall else s.said e) = some c := hc
        split at hc
        · exact .inr ⟨evs, by simp only [hs, ho, hb], (Option.some.inj hc).symm⟩
        · exact .inl hc
      · exact .inl hc
  rcases this with h' | ⟨evs, h', rfl⟩
  · exact old c (h e c h')
  · rw [h', show (s.station.step cf (.host (.notify evs false false))).host.server = s.station.host.server.notify evs false false from by
      show (s.station.hostStep cf _).host.server = _
      rw [(Station.hostStep_calls cf s.station _).host]
      rfl]
    simp [EvServer.notify]

end Relay

section
variable {cf : StationConf} {past : List BackendOp} {acts : Nat → RelayAct}

theorem relayAt_succ (n : Nat) : relayAt cf past acts (n + 1) = (relayAt cf past acts n).step cf (acts n) := by
  unfold relayAt
  rw [upTo_succ, Relay.run_snoc]

theorem relay_saidOk (n : Nat) : Relay.SaidOk (relayAt cf past acts n) := by
  induction n with
  | zero => intro e c h; cases h
  | succ n ih => rw [relayAt_succ]; exact Relay.saidOk_step ih _

theorem relay_engine_made {n e : Nat} {eng : Engine} (h : (relayAt cf past acts n).station.engines[e]? = some eng) :
    ∃ conf last l, eng = (Engine.create conf last).run l := by
  obtain ⟨xs, hx⟩ := Relay.station_run cf (Relay.init cf past) (upTo acts n)
  have := Station.made_run cf past xs
  unfold relayAt at h
  rw [hx] at h
  exact this eng (List.mem_of_getElem? h)

theorem relay_finishing {n e : Nat} {eng : Engine} (h : (relayAt cf past acts n).station.engines[e]? = some eng)
    (hp : eng.phase = .finishing) : eng.sent ≠ [] := by
  obtain ⟨conf, last, l, rfl⟩ := relay_engine_made h
  have := phase_run conf last l
  rw [hp] at this
  obtain ⟨_, _, _, ho⟩ := this
  rw [ho.sent]
  simp

theorem relay_plain (n : Nat) : EvServer.Plain (relayAt cf past acts n).station.host.server := by
  obtain ⟨xs, hx⟩ := Relay.station_run cf (Relay.init cf past) (upTo acts n)
  unfold relayAt
  rw [hx]
  obtain ⟨evs, he⟩ := Station.host_run cf past xs
  have he : (Station.run cf (Relay.init cf past).station xs).host.server = _ := he
  rw [he]
  exact EvServer.plain_run _ _ _

/-- The action for engine `e`. -/
def Must (cf : StationConf) (past : List BackendOp) (acts : Nat → RelayAct) (e n : Nat) (x : EngineAct) : Prop :=
  acts n = .station (.engine e x) ∧ ∀ now, x = .registered .same now → (relayAt cf past acts n).returns e = true ∨
    ∀ eng, (relayAt cf past acts n).station.engines[e]? = some eng → Relay.offered eng = none

theorem relay_block (e n : Nat) : EngineBlock (relayAt cf past acts n).station (relayAt cf past acts (n + 1)).station e (Must cf past acts e n) := by
  rw [relayAt_succ]
  exact Relay.block_step cf _ _ e fun eng he hp => relay_finishing he hp

theorem relay_persists {e n : Nat} {eng : Engine} (h : (relayAt cf past acts n).station.engines[e]? = some eng) {m : Nat} (hm : n ≤ m) :
    ∃ l, (relayAt cf past acts m).station.engines[e]? = some (eng.run l) := by
  induction m, hm using Nat.le_induction with
  | base => exact ⟨[], h⟩
  | succ m _ ih =>
    obtain ⟨l, hl⟩ := ih
    obtain ⟨l', hl', _⟩ := relay_block e m _ hl
    exact ⟨l ++ l', by rw [hl']; simp [Engine.run]⟩

/-- The creation of an engine. -/
theorem relay_created {e n : Nat} {eng : Engine} (h : (relayAt cf past acts n).station.engines[e]? = some eng) :
    ∃ t conf last, t ≤ n ∧ (∀ m < t, (relayAt cf past acts m).station.engines[e]? = none) ∧
      (relayAt cf past acts t).station.engines[e]? = some (Engine.create conf last) := by
  induction n generalizing eng with
  | zero => cases h
  | succ n ih =>
    cases h0 : (relayAt cf past acts n).station.engines[e]? with
    | some x =>
      obtain ⟨t, conf, last, ht, h1, h2⟩ := ih h0
      exact ⟨t, conf, last, by omega, h1, h2⟩
    | none =>
      have hne : ∀ m < n + 1, (relayAt cf past acts m).station.engines[e]? = none := by
        intro m hm
        cases hx : (relayAt cf past acts m).station.engines[e]? with
        | none => rfl
        | some x =>
          obtain ⟨l, hl⟩ := relay_persists hx (show m ≤ n by omega)
          rw [h0] at hl
          cases hl
      have : ∃ conf last, eng = Engine.create conf last := by
        rw [relayAt_succ] at h
        rcases Relay.station_step cf (relayAt cf past acts n) (acts n) with hs | ⟨x, hs⟩
        · rw [hs, h0] at h; cases h
        · rw [hs] at h
          exact Station.engine_new h0 h
      obtain ⟨conf, last, rfl⟩ := this
      exact ⟨n + 1, conf, last, Nat.le_refl _, hne, h⟩

/-- Engine `e` from its creation at time `t` on, and what is done to it. -/
structure EngineView (cf : StationConf) (past : List BackendOp) (acts : Nat → RelayAct) (e t : Nat) (E : Nat → Engine) (L : Nat → List EngineAct) : Prop where
  at_ : ∀ n, t ≤ n → (relayAt cf past acts n).station.engines[e]? = some (E n)
  run : ∀ n, t ≤ n → E (n + 1) = (E n).run (L n)
  must : ∀ n, t ≤ n → ∀ x, Must cf past acts e n x → L n = [x]
  only : ∀ n, t ≤ n → ∀ x ∈ L n, Must cf past acts e n x ∨ ∃ src evs, x = .register src evs
  before : ∀ m < t, (relayAt cf past acts m).station.engines[e]? = none
  start : ∃ conf last, E t = Engine.create conf last

theorem exists_view {e n : Nat} {eng : Engine} (h : (relayAt cf past acts n).station.engines[e]? = some eng) :
    ∃ t E L, t ≤ n ∧ E n = eng ∧ EngineView cf past acts e t E L := by
  obtain ⟨t, conf, last, ht, hb, hc⟩ := relay_created h
  have hE : ∀ n, ∃ x, t ≤ n → (relayAt cf past acts n).station.engines[e]? = some x := by
    intro n
    by_cases hn : t ≤ n
    · obtain ⟨l, hl⟩ := relay_persists hc hn
      exact ⟨_, fun _ => hl⟩
    · exact ⟨eng, fun h => absurd h hn⟩
  choose E hE using hE
  have hL : ∀ n, ∃ l, t ≤ n → E (n + 1) = (E n).run l ∧ (∀ x, Must cf past acts e n x → l = [x]) ∧
      ∀ x ∈ l, Must cf past acts e n x ∨ ∃ src evs, x = .register src evs := by
    intro n
    by_cases hn : t ≤ n
    · obtain ⟨l, h1, h2, h3⟩ := relay_block e n _ (hE n hn)
      rw [hE (n + 1) (by omega)] at h1
      exact ⟨l, fun _ => ⟨Option.some.inj h1, h2, h3⟩⟩
    · exact ⟨[], fun h => absurd h hn⟩
  choose L hL using hL
  refine ⟨t, E, L, ht, ?_, hE, fun n hn => (hL n hn).1, fun n hn => (hL n hn).2.1, fun n hn => (hL n hn).2.2, hb, conf, last, ?_⟩
  · have := hE n ht
    rw [h] at this
    exact (Option.some.inj this).symm
  · have := hE t (Nat.le_refl _)
    rw [hc] at this
    exact (Option.some.inj this).symm

variable {e t : Nat} {E : Nat → Engine} {L : Nat → List EngineAct}

/-- The server at a later time. -/
theorem relay_call {n m : Nat} (hm : n ≤ m) {c : Nat} (hc : c < (relayAt cf past acts n).station.host.server.nextCall) :
    c < (relayAt cf past acts m).station.host.server.nextCall ∧
      ((relayAt cf past acts m).station.host.server.calls c).targets = ((relayAt cf past acts n).station.host.server.calls c).targets ∧
      ∀ i, ((relayAt cf past acts n).station.host.server.calls c).state i = .done → ((relayAt cf past acts m).station.host.server.calls c).state i = .done := by
  induction m, hm using Nat.le_induction with
  | base => exact ⟨hc, rfl, fun _ h => h⟩
  | succ m _ ih =>
    obtain ⟨h1, h2, h3⟩ := ih
    obtain ⟨l, hl, _⟩ := Relay.server_step cf (relayAt cf past acts m) (acts m)
    rw [relayAt_succ, hl]
    obtain ⟨g1, g2, _⟩ := EvServer.targets_run l h1
    refine ⟨g1, g2.trans h2, fun i hi => ?_⟩
    have hst : ∀ (l : List EvAct) (s : EvServer), c < s.nextCall → (s.calls c).state i = .done → ((s.run l).calls c).state i = .done := by
      intro l
      induction l with
      | nil => exact fun s _ h => h
      | cons a l ih' =>
        intro s hs h
        exact ih' (s.step a) (EvServer.targets_step a hs).1 ((EvServer.stays_step s a).done c i hs h)
    exact hst l _ h1 (h3 i hi)

/-- A call of the callback comes to its end. -/
theorem relay_over (hp : ProcessGoesOn cf past acts) {n c : Nat} (hc : c < (relayAt cf past acts n).station.host.server.nextCall)
    (hw : ((relayAt cf past acts n).station.host.server.calls c).withAck = false) :
    ∃ m, n ≤ m ∧ ∀ j, m ≤ j → (relayAt cf past acts j).over c = true := by
  have hws : ∀ m, n ≤ m → ((relayAt cf past acts m).station.host.server.calls c).withAck = false := by
    intro m hm
    induction m, hm using Nat.le_induction with
    | base => exact hw
    | succ m hm ih =>
      obtain ⟨l, hl, _⟩ := Relay.server_step cf (relayAt cf past acts m) (acts m)
      rw [relayAt_succ, hl]
      exact (EvServer.targets_run l (relay_call hm hc).1).2.2.trans ih
  have key : ∀ (l pre : List (Nat × List Event)), ((relayAt cf past acts n).station.host.server.calls c).targets = pre ++ l →
      (∃ m, n ≤ m ∧ ∀ x ∈ pre, ((relayAt cf past acts m).station.host.server.calls c).state x.1 = .done) →
      ∃ m, n ≤ m ∧ ∀ x ∈ pre ++ l, ((relayAt cf past acts m).station.host.server.calls c).state x.1 = .done := by
    intro l
    induction l with
    | nil => intro pre _ h; simpa using h
    | cons y l ih =>
      rintro pre ht ⟨m, hm, hd⟩
      obtain ⟨k, hk, ha⟩ := hp.send n c y (by rw [ht]; simp) m
      have := ih (pre ++ [y]) (by simpa using ht) ⟨k + 1, by omega, fun x hx => ?_⟩
      · simpa using this
      · rcases List.mem_append.1 hx with hx | hx
        · exact (relay_call (show m ≤ k + 1 by omega) (relay_call hm hc).1).2.2 x.1 (hd x hx)
        · obtain rfl := List.mem_singleton.1 hx
          obtain ⟨l', hl', hs⟩ := Relay.server_step cf (relayAt cf past acts k) (acts k)
          rw [relayAt_succ, hl', hs c x.1 ha]
          exact EvServer.send_done (relay_plain k) (hws k (by omega)) (((relay_call (show n ≤ k by omega) hc).2.1).trans ht)
            fun z hz => (relay_call hk (relay_call hm hc).1).2.2 z.1 (hd z hz)
  obtain ⟨m, hm, hd⟩ := key _ [] rfl ⟨n, Nat.le_refl _, by simp⟩
  refine ⟨m, hm, fun j hj => ?_⟩
  unfold Relay.over
  rw [List.all_eq_true]
  intro x hx
  rw [(relay_call (show n ≤ j by omega) hc).2.1] at hx
  simpa using (relay_call hj (relay_call hm hc).1).2.2 x.1 (hd x (by simpa using hx))

/-- Calls of `Backend.register` return. -/
theorem view_registered (hp : ProcessGoesOn cf past acts) (hv : EngineView cf past acts e t E L) {n : Nat} (hn : t ≤ n) :
    ∃ m, n ≤ m ∧ ∃ r now, .registered r now ∈ L m := by
  by_contra hcon
  push Not at hcon
  -- the reply of the backend waits
  have held : ∀ m, n ≤ m → ∀ now, acts m = .station (.engine e (.registered .same now)) →
      (relayAt cf past acts m).returns e = false ∧ Relay.offered (E m) ≠ none := by
    intro m hm now ha
    by_contra hx
    have hx : (relayAt cf past acts m).returns e = true ∨ Relay.offered (E m) = none := by
      by_contra hy
      rw [not_or] at hy
      exact hx ⟨by simpa using hy.1, hy.2⟩
    have : L m = [.registered .same now] := hv.must m (by omega) _ ⟨ha, fun _ _ => by
      rcases hx with hx | hx
      · exact .inl hx
      · refine .inr fun eng he => ?_
        rw [hv.at_ m (by omega)] at he
        cases he
        exact hx⟩
    exact hcon m hm .same now (by rw [this]; simp)
  have noreg : ∀ m, n ≤ m → ∀ a ∈ L m, ∀ rep now, a ≠ .registered rep now := by
    rintro m hm a ha rep now rfl
    exact hcon m hm rep now ha
  have open_ : ∀ m, n ≤ m → (E m).phase ≠ .closed := by
    intro m hm hc
    obtain ⟨k, hk, now, ha⟩ := (hp.engines e t _ (hv.at_ t (Nat.le_refl _))).registered m
    have : (E k).phase = .closed := by
      clear ha
      induction k, hk using Nat.le_induction with
      | base => exact hc
      | succ k hk ih => rw [hv.run k (by omega)]; exact closed_run ih _
    refine (held k (by omega) now ha).2 ?_
    unfold Relay.offered
    rw [this]
  obtain ⟨m0, hm0, now0, ha0⟩ := (hp.engines e t _ (hv.at_ t (Nat.le_refl _))).registered n
  have fin : ∀ m, n ≤ m → (E m).phase = .finishing → (E m).sent ≠ [] := fun m hm => relay_finishing (hv.at_ m (by omega))
  have off0 : Offers (E m0) := (offers_iff (fin m0 hm0)).2 (held m0 hm0 now0 ha0).2
  have offs : ∀ m, m0 ≤ m → Offers (E m) := by
    intro m hm
    induction m, hm using Nat.le_induction with
    | base => exact off0
    | succ m hm ih =>
      have hst := offerStep_run ih (L m) (noreg m (by omega))
      rw [← hv.run m (by omega)] at hst
      rcases hst with ⟨h1, _⟩ | ⟨h1, r, evs, h2⟩ | h1
      · unfold Offers; rw [h1]; exact ih
      · exact .inr (h1 r evs h2)
      · exact absurd h1 (open_ _ (by omega))
  -- the call it is in at last
  obtain ⟨m1, hm1, same⟩ : ∃ m1, m0 ≤ m1 ∧ ∀ m, m1 ≤ m → (E m).sent = (E m1).sent := by
    by_cases hf : ∃ m, m0 ≤ m ∧ (E m).phase = .finishing
    · obtain ⟨m1, hm1, hf⟩ := hf
      refine ⟨m1, hm1, fun m hm => ?_⟩
      have : (E m).phase = .finishing ∧ (E m).sent = (E m1).sent := by
        induction m, hm using Nat.le_induction with
        | base => exact ⟨hf, rfl⟩
        | succ m hm ih =>
          have hst := offerStep_run (offs m (by omega)) (L m) (noreg m (by omega))
          rw [← hv.run m (by omega)] at hst
          rcases hst with ⟨h1, h2⟩ | ⟨_, r, evs, h2⟩ | h1
          · exact ⟨h1.trans ih.1, h2.trans ih.2⟩
          · rw [ih.1] at h2; cases h2
          · exact absurd h1 (open_ _ (by omega))
      exact this.2
    · push Not at hf
      refine ⟨m0, Nat.le_refl _, fun m hm => ?_⟩
      induction m, hm using Nat.le_induction with
      | base => rfl
      | succ m hm ih =>
        have hst := offerStep_run (offs m (by omega)) (L m) (noreg m (by omega))
        rw [← hv.run m (by omega)] at hst
        rcases hst with ⟨h1, h2⟩ | ⟨h1, r, evs, h2⟩ | h1
        · exact h2.trans ih
        · exact absurd (h1 r evs h2) (hf _ (by omega))
        · exact absurd h1 (open_ _ (by omega))
  have pass : ∀ m, m1 ≤ m → Relay.passed (relayAt cf past acts m).station e = (E m1).sent.length := by
    intro m hm
    unfold Relay.passed
    rw [hv.at_ m (by omega)]
    simp [same m hm]
  -- the callback is called
  obtain ⟨m2, hm2, c, hsaid⟩ : ∃ m2, m1 ≤ m2 ∧ ∃ c, (relayAt cf past acts m2).said e = some c := by
    obtain ⟨k, hk, ha⟩ := (hp.engines e t _ (hv.at_ t (Nat.le_refl _))).tell m1
    cases hs : (relayAt cf past acts k).said e with
    | some c => exact ⟨k, hk, c, hs⟩
    | none =>
      refine ⟨k + 1, by omega, (relayAt cf past acts k).station.host.server.nextCall, ?_⟩
      rw [relayAt_succ, ha]
      have ho := (offers_iff (fin k (by omega))).1 (offs k (by omega))
      obtain ⟨evs, ho⟩ := Option.ne_none_iff_exists'.1 ho
      have hmem := hp.open_ k
      obtain ⟨b, hb⟩ := Option.isSome_iff_exists.1 hmem
      simp only [Relay.step, Relay.tell, hs, hv.at_ k (by omega), Option.bind_some, ho, hb, if_true]
  have saids : ∀ m, m2 ≤ m → (relayAt cf past acts m).said e = some c := by
    intro m hm
    induction m, hm using Nat.le_induction with
    | base => exact hsaid
    | succ m hm ih =>
      rw [relayAt_succ]
      refine Relay.said_stays ih ?_
      rw [← relayAt_succ, pass m (by omega), pass (m + 1) (by omega)]
  obtain ⟨h1, h2⟩ := relay_saidOk m2 e c hsaid
  obtain ⟨m3, hm3, hover⟩ := relay_over hp h1 h2
  obtain ⟨k, hk, now, ha⟩ := (hp.engines e t _ (hv.at_ t (Nat.le_refl _))).registered m3
  have hret := (held k (by omega) now ha).1
  unfold Relay.returns at hret
  rw [saids k (by omega)] at hret
  simp only at hret
  rw [hover k hk] at hret
  cases hret

/-- An action that changes nothing, and the end of closing wherever it is one. -/
def padOf (s : Engine) : EngineAct :=
  match s.phase with
  | .finishing => .wake s.putters.length
  | _ => .finished

theorem pad_step (s : Engine) : s.step (padOf s) = s := by
  unfold padOf
  split
  · simp [Engine.step, Engine.wake]
  · next h =>
    simp only [Engine.step]

theorem pad_finished {s : Engine} (h : s.phase ≠ .finishing) : padOf s = .finished := by
  unfold padOf
  split
  · next h' => exact absurd h' h
  · rfl

theorem records_run (s : Engine) (l : List EngineAct) : EngineGrows s (s.run l) := by
  induction l using List.reverseRecOn with
  | nil => exact .refl s
  | append_singleton l a ih => rw [engine_snoc]; exact ih.trans (records_step _ a)

/-- Each call of `register` of an engine gets its outcome. -/
theorem relay_answered (hp : ProcessGoesOn cf past acts) {n i : Nat} {eng : Engine}
    (h : (relayAt cf past acts n).station.engines[e]? = some eng) (hi : i < eng.requests.length) :
    ∃ m x, n ≤ m ∧ (relayAt cf past acts m).station.engines[e]? = some x ∧ Answered x i := by
  obtain ⟨t, E, L, htn, hEn, hv⟩ := exists_view h
  obtain ⟨conf, last, hE0⟩ := hv.start
  let b : Nat → List EngineAct := fun d => L (t + d) ++ [padOf (E (t + d + 1))]
  have hb : ∀ d, b d = L (t + d) ++ [padOf (E (t + d + 1))] := fun _ => rfl
  have hne : ∀ d, b d ≠ [] := fun d => by rw [hb]; simp
  obtain ⟨eacts, f, hf⟩ := exists_flat b hne
  have hT : ∀ d, (fun d => E (t + d)) (d + 1) = (b d).foldl Engine.step ((fun d => E (t + d)) d) := by
    intro d
    show E (t + d + 1) = _
    rw [hb, List.foldl_append]
    have := hv.run (t + d) (by omega)
    rw [Engine.run] at this
    show E (t + d + 1) = (List.foldl Engine.step (E (t + d)) (L (t + d))).step _
    rw [← this, pad_step]
  have hat : ∀ d j, j ≤ (b d).length → engineAt conf last eacts (f d + j) = (E (t + d)).run ((b d).take j) := by
    intro d j hj
    have := hf.run (step := Engine.step) (t := fun d => E (t + d)) hT d j hj
    simp only [Nat.add_zero, hE0] at this
    exact this
  have hat0 : ∀ d, engineAt conf last eacts (f d) = E (t + d) := by
    intro d
    have := hat d 0 (Nat.zero_le _)
    simpa [Engine.run] using this
  -- what happens again and again
  have often : ∀ (k : LoopStep), (∀ d, ∃ d', d ≤ d' ∧ ∃ a ∈ b d', loopStep a = some k) → ∀ n, ∃ m, n ≤ m ∧ loopStep (eacts m) = some k :=
    fun k hk => hf.often hne hk
  have must : ∀ {m x}, t ≤ m → Must cf past acts e m x → x ∈ b (m - t) := by
    intro m x hm hx
    rw [hb, show t + (m - t) = m by omega, hv.must m hm x hx]
    simp
  have other : ∀ {m x}, acts m = .station (.engine e x) → (∀ now, x ≠ .registered .same now) → Must cf past acts e m x :=
    fun ha hx => ⟨ha, fun now h => absurd h (hx now)⟩
  have hfair : LoopFair eacts := by
    intro k
    have hg := hp.engines e n eng h
    cases k with
    | take =>
      refine often _ fun d => ?_
      obtain ⟨m, hm, now, ha⟩ := hg.take (t + d)
      exact ⟨m - t, by omega, _, must (by omega) (other ha (by simp)), rfl⟩
    | next =>
      refine often _ fun d => ?_
      obtain ⟨m, hm, ha⟩ := hg.next (t + d)
      exact ⟨m - t, by omega, _, must (by omega) (other ha (by simp)), rfl⟩
    | told =>
      refine often _ fun d => ?_
      obtain ⟨m, hm, ha⟩ := hg.told (t + d)
      exact ⟨m - t, by omega, _, must (by omega) (other ha (by simp)), rfl⟩
    | processed =>
      refine often _ fun d => ?_
      obtain ⟨m, hm, outs, ha⟩ := hg.processed (t + d)
      exact ⟨m - t, by omega, _, must (by omega) (other ha (by simp)), rfl⟩
    | registered =>
      refine often _ fun d => ?_
      obtain ⟨m, hm, r, now, ha⟩ := view_registered hp hv (n := t + d) (by omega)
      refine ⟨m - t, by omega, .registered r now, ?_, rfl⟩
      rw [hb, show t + (m - t) = m by omega]
      simp [ha]
    | finished =>
      refine often _ fun d => ?_
      obtain ⟨m, hm, r, now, ha⟩ := view_registered hp hv (n := t + d + 1) (by omega)
      by_cases hph : (E m).phase = .finishing
      · refine ⟨m - t, by omega, .finished, ?_, rfl⟩
        rw [hb, show t + (m - t) = m by omega, pad_finished]
        · simp
        · have hL : L m = [.registered r now] := by
            rcases hv.only m (by omega) _ ha with hx | ⟨_, _, hx⟩
            · exact hv.must m (by omega) _ hx
            · cases hx
          rw [hv.run m (by omega), hL]
          show ((E m).step (.registered r now)).phase ≠ .finishing
          simp only [Engine.step, Engine.registered, hph]
          simp
      · refine ⟨m - 1 - t, by omega, .finished, ?_, rfl⟩
        rw [hb, show t + (m - 1 - t) = m - 1 by omega, show m - 1 + 1 = m by omega, pad_finished hph]
        simp
  have hcalm : Calm conf last eacts := by
    intro session
    obtain ⟨N, hN⟩ := hp.calm e session
    refine ⟨N, fun k => ?_⟩
    obtain ⟨d, j, hj, rfl⟩ := hf.at_ k
    rw [hat d j (by omega)]
    have h1 : (E (t + d + 1)).made = (((E (t + d)).run ((b d).take j)).run ((b d).drop j)).made := by
      rw [show E (t + d + 1) = (b d).foldl Engine.step (E (t + d)) from hT d, Engine.run, Engine.run, ← List.foldl_append, List.take_append_drop]
    refine Nat.le_trans (madeIn_le ?_ session) (hN (t + d + 1) (E (t + d + 1)) (hv.at_ _ (by omega)))
    rw [h1]
    exact module_events_run _ _
  obtain ⟨ms, x, hx, hcr, hsp⟩ := hp.started e n eng h
  have htm : t ≤ ms := by
    by_contra hlt
    rw [hv.before ms (by omega)] at hx
    cases hx
  have hxE : x = E ms := by
    rw [hv.at_ ms htm] at hx
    exact (Option.some.inj hx).symm
  subst hxE
  have hk0 : (engineAt conf last eacts (f (ms - t))).phase = .creating := by
    rw [hat0, show t + (ms - t) = ms by omega]; exact hcr
  have hk1 : eacts (f (ms - t)) = .spawn := by
    have hlen : 0 < (b (ms - t)).length := List.length_pos_iff.2 (hne _)
    have h1 := hf.acts (ms - t) 0 hlen
    rw [Nat.add_zero] at h1
    rw [h1]
    have hL := hv.must ms htm _ (other hsp (by simp))
    have hbe : b (ms - t) = [EngineAct.spawn, padOf (E (ms + 1))] := by rw [hb, show t + (ms - t) = ms by omega, hL]; rfl
    simp only [hbe, List.getElem_cons_zero]
  have hstart : Started conf last eacts := ⟨_, hk0, hk1⟩
  -- at a time when the engine is started
  let d := max (n - t) (ms - t + 1)
  have hdn : n ≤ t + d := by omega
  have hgr : EngineGrows eng (E (t + d)) := by
    obtain ⟨l, hl⟩ := relay_persists h hdn
    rw [hv.at_ _ (by omega)] at hl
    rw [Option.some.inj hl]
    exact records_run _ _
  have hi' : i < (engineAt conf last eacts (f d)).requests.length := by
    rw [hat0]; exact Nat.lt_of_lt_of_le hi hgr.requests.length_le
  have back : (∃ k, f d ≤ k ∧ Answered (engineAt conf last eacts k) i) →
      ∃ m x, n ≤ m ∧ (relayAt cf past acts m).station.engines[e]? = some x ∧ Answered x i := by
    rintro ⟨k, hk, o, ho⟩
    have hkf : k ≤ f (d + k) := Nat.le_trans (by omega) (hf.ge hne (d + k))
    refine ⟨t + (d + k), E (t + (d + k)), by omega, hv.at_ _ (by omega), o, ?_⟩
    rw [← hat0]
    obtain ⟨l, hl⟩ := upTo_prefix eacts hkf
    have : engineAt conf last eacts (f (d + k)) = (engineAt conf last eacts k).run l := by
      unfold engineAt
      rw [← hl]
      simp [Engine.run]
    rw [this]
    exact (records_run _ l).outcomes.subset ho
  apply back
  have hok := phase_run conf last (upTo eacts (f d))
  have hput : (engineAt conf last eacts (f d)).putters = [] := by
    rw [hat0]; exact hp.room e _ _ (hv.at_ _ (by omega))
  have hspn : Spawned (engineAt conf last eacts (f d)) := by
    refine started_at hk0 hk1 ?_
    have h1 : f (ms - t + 1) ≤ f d := hf.le (by omega)
    have h2 := hf.succ (ms - t)
    have h3 : 0 < (b (ms - t)).length := List.length_pos_iff.2 (hne _)
    omega
  rcases (calls_run conf last (upTo eacts (f d))).all i hi' with h' | ⟨r, hr, hri⟩
  · exact ⟨_, Nat.le_refl _, h'⟩
  · rcases List.mem_append.1 hr with hr | hr
    · rcases List.mem_append.1 hr with hr | hr
      · exact accepted_answered hfair hcalm hstart (current_accepted hok (by simpa using hr)) hri
      · by_cases hpc : (engineAt conf last eacts (f d)).phase = .closed
        · have hqc := hspn.2 hpc
          exfalso
          have hok' : PhaseOk last (engineAt conf last eacts (f d)) (engineAt conf last eacts (f d)).phase := hok
          rw [hpc] at hok'
          rcases hok' with ⟨_, h0⟩ | ⟨_, _, _, ho⟩
          · rw [h0] at hqc; cases hqc
          · have : r ∈ (engineAt conf last eacts (f d)).queue := hr
            rw [ho.queue] at this
            cases this
        · exact accepted_answered hfair hcalm hstart (queue_accepted hok r hr hpc) hri
    · have : r ∈ (engineAt conf last eacts (f d)).putters := hr
      rw [hput] at this
      cases this

end
end HatEvent
