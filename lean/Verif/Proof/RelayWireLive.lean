import Verif.Proof.RelayWire
import Verif.Proof.Flatten
import Mathlib.Data.Nat.Init

/-!
# Connections of an event server that goes on
-/

namespace HatEvent
open Spec

namespace EvServer

/-- A loop stops handling a request only with a result for it. -/
theorem busy_leaves {s : EvServer} {a : EvAct} {id : Nat} {info : ConnInfo} {msg : ClientMsg} (h : (s.conns id).phase = .busy info msg)
    (hf : (s.conns s.nextConn).phase = .absent) : ((s.step a).conns id).phase = .busy info msg ∨ ∃ r, a = .reply id r ∧ ReplyFits msg r := by
  by_cases hab : a.about = some id
  · cases a with
    | receive i msg =>
      cases hab
      left
      simp only [step, receive, h]
    | connected i ok =>
      cases hab
      left
      simp only [step, connected, h]
    | reply i r =>
      cases hab
      cases r with
      | raised => exact .inr ⟨_, rfl, .raised _⟩
      | registered r =>
        cases msg with
        | register conv evs last => exact .inr ⟨_, rfl, .register _ _ _ _⟩
        | _ => left; simp only [step, reply, h]
      | queried r =>
        cases msg with
        | query conv params => exact .inr ⟨_, rfl, .query _ _ _⟩
        | _ => left; simp only [step, reply, h]
    | giveUp i =>
      cases hab
      left
      simp only [step, giveUp, h]
    | _ => cases hab
  · left
    rw [phase_other hab]
    · exact h
    · rintro rfl rfl
      rw [hf] at h
      cases h

/-- Requests that are passed to callbacks. -/
def IsRequest (m : ClientMsg) : Prop := (∃ conv evs last, m = .register conv evs last) ∨ ∃ conv params, m = .query conv params

theorem busy_request (useC : Bool) (token : Option String) (l : List EvAct) {id : Nat} {info : ConnInfo} {m : ClientMsg}
    (h : (((init useC token).run l).conns id).phase = .busy info m) : IsRequest m := by
  induction l using List.reverseRecOn with
  | nil => cases h
  | append_singleton l a ih =>
    rw [run_snoc] at h
    rcases busy_from h with h' | ⟨rfl, hr⟩
    · exact ih h'
    · cases m with
      | register conv evs last => exact .inl ⟨_, _, _, rfl⟩
      | query conv params => exact .inr ⟨_, _, rfl⟩
      | ack conv =>
        simp only [step, receive, hr, process] at h
        rw [acknowledge_conns, if_pos rfl] at h
        rw [hr] at h
        cases h
      | init req =>
        simp only [step, receive, hr, process] at h
        rw [Host.endLoop_phase] at h
        cases h
      | other =>
        simp only [step, receive, hr, process] at h
        rw [Host.endLoop_phase] at h
        cases h

end EvServer

namespace ReqClient

theorem closed_run (status : Status) (l : List ReqAct) (h : ((init status).run l).isOpen = false) : ((init status).run l).loop ≠ .spawned := by
  induction l using List.reverseRecOn with
  | nil => cases h
  | append_singleton l a ih =>
    rw [run_snoc] at h ⊢
    generalize (init status).run l = c at *
    revert h
    cases a <;> simp only [step, start, request, sendDone, resume, cancel, receive, process, callbackDone, afterCallback, acknowledge, close, stop, endLoop, setCall] <;>
      (repeat' split) <;> simp_all

end ReqClient

/-- The actions of a connection in an action of the process. -/
structure RelayBlock (cf : StationConf) (a : Nat) (s : Relay) (act : RelayAct) (l : List WireAct) : Prop where
  run : wireOf a (s.step cf act).station = (wireOf a s.station).run l
  kind : (∃ x, l = [x]) ∨ ∀ x ∈ l, (∃ y, x = .server y) ∨ x = .arrive
  arrive : act = .station (.arrive a) → .arrive ∈ l
  deliver : act = .station (.deliver a) ↔ .deliver ∈ l
  client : ∀ x, act = .station (.client a x) ↔ .client x ∈ l
  answer : ∀ info conv evs last call o, act = .station (.answered a) → (s.station.conn a).phase = .busy info (.register conv evs last) →
    s.station.waits a = some call → s.station.outcome call = some o → ∃ r, .server (.reply a r) ∈ l ∧ ReplyFits (.register conv evs last) r
  query : ∀ info conv params, act = .station (.queried a) → (s.station.conn a).phase = .busy info (.query conv params) →
    ∃ r, .server (.reply a r) ∈ l ∧ ReplyFits (.query conv params) r

namespace Relay

theorem station_block {cf : StationConf} {a : Nat} {s : Relay} {act : StationAct} {l : List WireAct} (h : WireBlock cf a s.station act l)
    (hs : (s.step cf (.station act)).station = s.station.step cf act) : RelayBlock cf a s (.station act) l where
  run := by rw [hs]; exact h.run
  kind := h.kind
  arrive e := h.arrive (by cases e; rfl)
  deliver := by rw [← h.deliver]; simp
  client x := by rw [← h.client]; simp
  answer info conv evs last call o e := h.answer info conv evs last call o (by cases e; rfl)
  query info conv params e := h.query info conv params (by cases e; rfl)

theorem wire_step (cf : StationConf) {a : Nat} (hid : cf.foreign a = false) (s : Relay) (act : RelayAct) : ∃ l, RelayBlock cf a s act l := by
  have stays : ∀ {act : RelayAct}, (s.step cf act).station = s.station → act ≠ .station (.arrive a) → act ≠ .station (.deliver a) →
      (∀ x, act ≠ .station (.client a x)) → act ≠ .station (.answered a) → act ≠ .station (.queried a) → ∃ l, RelayBlock cf a s act l :=
    fun h h1 h2 h3 h4 h5 => ⟨[], by rw [h]; rfl, .inr (by simp), fun e => absurd e h1, by simp [h2], fun x => by simp [h3],
      fun _ _ _ _ _ _ e => absurd e h4, fun _ _ _ e => absurd e h5⟩
  cases act with
  | station x =>
    by_cases hx : ∃ e now, x = .engine e (.registered .same now) ∧ s.returns e = false
    · obtain ⟨e, now, rfl, hr⟩ := hx
      exact stays (by simp [step, hr]) (by simp) (by simp) (by simp) (by simp) (by simp)
    · obtain ⟨l, hl⟩ := Station.wire_step cf hid s.station x
      refine ⟨l, station_block hl ?_⟩
      unfold step
      split
      · next e now heq =>
        cases heq
        cases hr : s.returns e with
        | false => exact absurd ⟨e, now, rfl, hr⟩ hx
        | true => rfl
      · next heq => cases heq; rfl
      · next heq => cases heq
  | tell e =>
    by_cases hx : (s.tell cf e).station = s.station
    · exact stays hx (by simp) (by simp) (by simp) (by simp) (by simp)
    · obtain ⟨events, he⟩ : ∃ events, (s.tell cf e).station = s.station.hostStep cf (.notify events false false) := by
        unfold tell at hx ⊢
        split
        · exact ⟨_, rfl⟩
        · next h => exfalso; apply hx; split <;> simp_all
      obtain ⟨l, hl, hs, _⟩ := Station.wire_host cf a s.station (.notify events false false) (by simp)
      refine ⟨l, by rw [← hl]; exact congrArg _ he, .inr fun x hx => .inl (hs x hx), by simp, ⟨by simp, fun h => ?_⟩, fun x => ⟨by simp, fun h => ?_⟩, by simp, by simp⟩
      · obtain ⟨y, hy⟩ := hs _ h; cases hy
      · obtain ⟨y, hy⟩ := hs _ h; cases hy

end Relay

section
variable {cf : StationConf} {past : List BackendOp} {acts : Nat → RelayAct} {a : Nat}

/-- The connection at each time. -/
def wireWhen (cf : StationConf) (past : List BackendOp) (acts : Nat → RelayAct) (a n : Nat) : Wire := wireOf a (relayAt cf past acts n).station

theorem wireWhen_reached (hid : cf.foreign a = false) (n : Nat) : ∃ l, wireWhen cf past acts a n = (Wire.init a cf.useC cf.token).run l := by
  induction n with
  | zero => exact ⟨[], rfl⟩
  | succ n ih =>
    obtain ⟨l, hl⟩ := ih
    obtain ⟨l', h'⟩ := Relay.wire_step cf hid (relayAt cf past acts n) (acts n)
    refine ⟨l ++ l', ?_⟩
    rw [Wire.run_append, ← hl]
    unfold wireWhen
    rw [relayAt_succ]
    exact h'.run

/-- What closes a block: both sides agree on whether the connection is closed, or nothing. -/
noncomputable def wirePad (s : Station) (a : Nat) : WireAct := by
  classical exact if Agree s a then .notice else .client (.receive .other)

theorem wirePad_step {s : Station} (hr : ∃ l, wireOf a s = (Wire.init a cf.useC cf.token).run l) : (wireOf a s).step (wirePad s a) = wireOf a s := by
  unfold wirePad
  split
  · next h =>
    have hconn : (wireOf a s).conn = s.conn a := rfl
    have hcl : (wireOf a s).link.client = s.clients a := rfl
    rcases h with ⟨h1, h2⟩ | ⟨h1, h2⟩
    · have : (wireOf a s).closed = false := by
        simp only [Wire.closed, hconn, h1, hcl, Bool.false_or]
        split
        · next c hc => simp [h2 c hc]
        · rfl
      simp only [Wire.step, Wire.acts, this]
      rfl
    · have : (wireOf a s).closed = true := by simp [Wire.closed, hconn, h1]
      simp only [Wire.step, Wire.acts, this, if_true, Link.run, List.foldl_cons, List.foldl_nil, Link.step]
      have hlose : (wireOf a s).link.server.step (.lose (wireOf a s).link.id) = s.host.server := by
        show s.host.server.setConn a (fun c => { c with lost := true }) = s.host.server
        unfold EvServer.setConn
        have : (fun i => if i = a then { s.host.server.conns i with lost := true } else s.host.server.conns i) = s.host.server.conns := by
          funext i
          split
          · next hi => subst hi; have h1' : (s.host.server.conns i).lost = true := h1; rw [← h1']
          · rfl
        rw [this]
      rw [hlose]
      unfold wireOf Link.clientStep
      cases hc : s.clients a with
      | none => simp
      | some c =>
        obtain ⟨l, hl⟩ := hr
        obtain ⟨l', hok⟩ := Wire.ok_run a cf.useC cf.token l
        obtain ⟨status, cacts, hreach⟩ := Link.reached a cf.useC cf.token l' (by rw [← hok.link, ← hl]; exact hc)
        have hnot : c.loop ≠ .spawned := by
          rw [hreach]
          exact ReqClient.closed_run status cacts (by rw [← hreach]; exact h2 c hc)
        have : c.close = c := by
          unfold ReqClient.close
          cases c with
          | mk isOpen loop status nextConv nextCall calls sent told notified =>
            have := h2 _ hc
            simp only at this hnot ⊢
            subst this
            cases loop <;> simp_all
        simp [ReqClient.step, this]
  · simp only [Wire.step, Wire.acts, Link.run, List.foldl_cons, List.foldl_nil, Link.step, Link.clientStep]

theorem relay_linked (hid : cf.foreign a = false) (n : Nat) : Station.Linked (fun _ _ _ => True) a (relayAt cf past acts n).station := by
  induction n with
  | zero => exact Station.linked_init cf past _ a
  | succ n ih =>
    rw [relayAt_succ]
    have hst : ∀ act, Station.Linked (fun _ _ _ => True) a ((relayAt cf past acts n).station.step cf act) :=
      fun act => Station.linked_step hid ih act fun _ _ _ _ _ _ _ => trivial
    unfold Relay.step
    split
    · next e now _ =>
      split
      · exact hst (.engine e (.registered .same now))
      · exact ih
    · next act _ _ => exact hst act
    · unfold Relay.tell
      split
      · next events _ _ _ _ => exact hst (.host (.notify events false false))
      · exact ih

/-- While a request is handled, the call of the engine stays. -/
theorem Station.waits_step (cf : StationConf) (s : Station) (act : StationAct) {info : ConnInfo} {m : ClientMsg} (h : (s.conn a).phase = .busy info m)
    (h' : ((s.step cf act).conn a).phase = .busy info m) : (s.step cf act).waits a = s.waits a := by
  have hh : ∀ x : HostAct, ((s.hostStep cf x).conn a).phase = .busy info m → (s.hostStep cf x).waits a = s.waits a := by
    intro x hb
    have hhost := (hostStep_calls cf s x).host
    have hb' : ((s.host.step x).server.conns a).phase = .busy info m := by
      have : ((s.hostStep cf x).host.server.conns a).phase = .busy info m := hb
      rw [hhost] at this
      exact this
    obtain ⟨new, h1, h2⟩ := Host.begins_step s.host x a
    unfold hostStep
    rw [h1, List.drop_left]
    rcases h2 info m hb' with ⟨_, hn⟩ | ⟨_, hr, _⟩
    · exact waits_all cf _ new hn
    · have : (s.host.server.conns a).phase = .busy info m := h
      rw [hr] at this
      cases this
  cases act with
  | host x =>
    simp only [step] at h' ⊢
    split at h'
    · next hp => rw [if_pos hp]; exact hh x h'
    · next hp => rw [if_neg hp]
  | arrive i =>
    simp only [step, arrive] at h' ⊢
    split
    · next h1 h2 =>
      split
      · next msg h3 =>
        simp only [h1, h2, h3] at h'
        exact hh _ h'
      · rfl
    · rfl
  | answered i =>
    simp only [step, answered] at h' ⊢
    split
    · next h1 =>
      split
      · next o h2 =>
        simp only [h1, h2] at h'
        exact hh _ h'
      · rfl
    · rfl
  | queried i =>
    simp only [step, queried] at h' ⊢
    split
    · next h1 =>
      simp only [h1] at h'
      exact hh _ h'
    · rfl
  | connect i => simp only [step, connect]; split <;> rfl
  | client i x => cases x <;> rfl
  | deliver i =>
    simp only [step, deliver]
    split
    · split <;> rfl
    · rfl
  | start modules =>
    simp only [step, start]
    split
    · split <;> rfl
    · split <;> rfl
    · rfl
  | engine i act => simp only [step, engineStep]; split <;> rfl
  | keep op => cases op <;> rfl
  | remote events => rfl

theorem relay_waits {n : Nat} {info : ConnInfo} {m : ClientMsg}
    (h : ∀ k, n ≤ k → ((relayAt cf past acts k).station.conn a).phase = .busy info m) {k : Nat} (hk : n ≤ k) :
    (relayAt cf past acts k).station.waits a = (relayAt cf past acts n).station.waits a := by
  induction k, hk using Nat.le_induction with
  | base => rfl
  | succ k hk ih =>
    rw [← ih]
    have h1 := h k hk
    have h2 := h (k + 1) (by omega)
    rw [relayAt_succ] at h2 ⊢
    unfold Relay.step at h2 ⊢
    split
    · next e now heq =>
      simp only [heq] at h2
      split
      · next hr =>
        rw [if_pos hr] at h2
        exact Station.waits_step cf _ _ h1 h2
      · rfl
    · next act hne heq =>
      split at h2
      · next heq' => rw [heq] at heq'; cases heq'; exact absurd rfl (hne _ _)
      · next heq' => rw [heq] at heq'; cases heq'; exact Station.waits_step cf _ _ h1 h2
      · next heq' => rw [heq] at heq'; cases heq'
    · next e heq =>
      simp only [heq] at h2
      unfold Relay.tell at h2 ⊢
      split
      · next events _ h3 h4 h5 =>
        simp only [h3, h4, h5] at h2
        exact Station.waits_step cf _ _ h1 h2
      · rfl

theorem outcome_some {s : Station} {e k : Nat} {x : Engine} (h : s.engines[e]? = some x) (ha : Answered x k) : ∃ o, s.outcome (e, k) = some o := by
  obtain ⟨o, ho⟩ := ha
  unfold Station.outcome
  simp only [h]
  cases hf : x.outcomes.find? fun o => o.1 = k with
  | some y => exact ⟨_, rfl⟩
  | none =>
    have := List.find?_eq_none.1 hf _ ho
    simp at this

/-- The schedule of the process as a schedule of the connection. -/
structure WireFlat (cf : StationConf) (past : List BackendOp) (acts : Nat → RelayAct) (a : Nat) (L : Nat → List WireAct) (wacts : Nat → WireAct) (f : Nat → Nat) : Prop where
  block : ∀ n, RelayBlock cf a (relayAt cf past acts n) (acts n) (L n)
  flat : Flat (fun n => L n ++ [wirePad (relayAt cf past acts (n + 1)).station a]) wacts f
  own : cf.foreign a = false

theorem exists_wireFlat (hid : cf.foreign a = false) (past : List BackendOp) (acts : Nat → RelayAct) : ∃ L wacts f, WireFlat cf past acts a L wacts f := by
  choose L hL using fun n => Relay.wire_step cf hid (relayAt cf past acts n) (acts n)
  obtain ⟨wacts, f, hf⟩ := exists_flat (fun n => L n ++ [wirePad (relayAt cf past acts (n + 1)).station a]) (by simp)
  exact ⟨L, wacts, f, hL, hf, hid⟩

namespace WireFlat
variable {L : Nat → List WireAct} {wacts : Nat → WireAct} {f : Nat → Nat}

theorem next (h : WireFlat cf past acts a L wacts f) (n : Nat) :
    wireWhen cf past acts a (n + 1) = (wireWhen cf past acts a n).run (L n) := by
  unfold wireWhen
  rw [relayAt_succ]
  exact (h.block n).run

theorem succ (h : WireFlat cf past acts a L wacts f) (n : Nat) : wireWhen cf past acts a (n + 1) =
    (L n ++ [wirePad (relayAt cf past acts (n + 1)).station a]).foldl Wire.step (wireWhen cf past acts a n) := by
  rw [List.foldl_append]
  show _ = Wire.step ((wireWhen cf past acts a n).run (L n)) _
  rw [← h.next]
  exact (wirePad_step (cf := cf) (wireWhen_reached h.own (n + 1))).symm

theorem state (h : WireFlat cf past acts a L wacts f) (n j : Nat) (hj : j ≤ (L n).length + 1) :
    wireAt a cf.useC cf.token wacts (f n + j) =
      (wireWhen cf past acts a n).run ((L n ++ [wirePad (relayAt cf past acts (n + 1)).station a]).take j) :=
  h.flat.run (step := Wire.step) (t := wireWhen cf past acts a) h.succ n j (by simpa using hj)

theorem at_ (h : WireFlat cf past acts a L wacts f) (n : Nat) : wireAt a cf.useC cf.token wacts (f n) = wireWhen cf past acts a n := by
  have := h.state n 0 (by omega)
  rw [Nat.add_zero] at this
  exact this

theorem place (h : WireFlat cf past acts a L wacts f) (i : Nat) : ∃ n j, j ≤ (L n).length ∧ i = f n + j := by
  obtain ⟨n, j, h1, h2⟩ := h.flat.at_ i
  exact ⟨n, j, by simp at h1; omega, h2⟩

theorem start (h : WireFlat cf past acts a L wacts f) (n : Nat) : f (n + 1) = f n + (L n).length + 1 := by
  rw [h.flat.succ]; simp; omega

theorem mono (h : WireFlat cf past acts a L wacts f) {m n : Nat} (hmn : m ≤ n) : f m ≤ f n := h.flat.le hmn

theorem strict (h : WireFlat cf past acts a L wacts f) {m n : Nat} (hmn : m < n) : f m < f n := by
  have h1 := h.mono (show m + 1 ≤ n from hmn)
  have h2 := h.start m
  omega

theorem ge (h : WireFlat cf past acts a L wacts f) (n : Nat) : n ≤ f n := h.flat.ge (by simp) n

/-- What is done at a time is done in a block or closes one. -/
theorem act_at (h : WireFlat cf past acts a L wacts f) (n j : Nat) (hj : j ≤ (L n).length) :
    (∃ hl : j < (L n).length, wacts (f n + j) = (L n)[j]) ∨ (j = (L n).length ∧ wacts (f n + j) = wirePad (relayAt cf past acts (n + 1)).station a) := by
  have h1 := h.flat.acts n j (by simp; omega)
  rw [h1]
  by_cases hl : j < (L n).length
  · exact .inl ⟨hl, List.getElem_append_left hl⟩
  · have : j = (L n).length := by omega
    subst this
    exact .inr ⟨rfl, by simp⟩

theorem mem_at (h : WireFlat cf past acts a L wacts f) {n : Nat} {x : WireAct} (hx : x ∈ L n) : ∃ j, j < (L n).length ∧ wacts (f n + j) = x := by
  obtain ⟨j, hj, rfl⟩ := List.mem_iff_getElem.1 hx
  rcases h.act_at n j (by omega) with ⟨_, h1⟩ | ⟨h1, _⟩
  · exact ⟨j, hj, h1⟩
  · omega

theorem pad_at (h : WireFlat cf past acts a L wacts f) (n : Nat) : wacts (f n + (L n).length) = wirePad (relayAt cf past acts (n + 1)).station a := by
  rcases h.act_at n (L n).length (Nat.le_refl _) with ⟨h1, _⟩ | ⟨_, h1⟩
  · omega
  · exact h1

/-- The client at each time. -/
theorem client_at (h : WireFlat cf past acts a L wacts f) (n j : Nat) (hj : j ≤ (L n).length + 1) :
    (j = 0 ∧ (wireAt a cf.useC cf.token wacts (f n + j)).link.client = (relayAt cf past acts n).station.clients a) ∨
    (1 ≤ j ∧ (wireAt a cf.useC cf.token wacts (f n + j)).link.client = (relayAt cf past acts (n + 1)).station.clients a) := by
  rcases Nat.eq_zero_or_pos j with rfl | hpos
  · exact .inl ⟨rfl, by rw [Nat.add_zero, h.at_]; rfl⟩
  refine .inr ⟨hpos, ?_⟩
  have hnext : (wireWhen cf past acts a (n + 1)).link.client = (relayAt cf past acts (n + 1)).station.clients a := rfl
  by_cases hend : j = (L n).length + 1
  · subst hend
    rw [← Nat.add_assoc, ← h.start, h.at_]
    rfl
  · rw [h.state n j hj, List.take_append_of_le_length (by omega)]
    rcases (h.block n).kind with ⟨x, hx⟩ | hx
    · have : j = (L n).length := by rw [hx] at hj hend ⊢; simp at hj hend ⊢; omega
      subst this
      rw [List.take_length, ← h.next]
      exact hnext
    · rw [Wire.client_servers _ (fun y hy => hx y (List.mem_of_mem_take hy))]
      rw [← hnext, h.next, Wire.client_servers _ hx]

theorem often (h : WireFlat cf past acts a L wacts f) {P : WireAct → Prop} (hp : ∀ n, ∃ m, n ≤ m ∧ ∃ x ∈ L m, P x) (n : Nat) : ∃ m, n ≤ m ∧ P (wacts m) := by
  obtain ⟨m, hm, x, hx, hP⟩ := hp n
  obtain ⟨j, _, hj⟩ := h.mem_at hx
  exact ⟨f m + j, by have := h.ge m; omega, by rw [hj]; exact hP⟩

theorem often_client (h : WireFlat cf past acts a L wacts f) {x : ReqAct} (ho : Often acts (.station (.client a x))) : Often wacts (.client x) :=
  h.often (P := (· = .client x)) fun n => by
    obtain ⟨m, hm, he⟩ := ho n
    exact ⟨m, hm, _, ((h.block m).client x).1 he, rfl⟩

theorem conn_at (h : WireFlat cf past acts a L wacts f) (n : Nat) : (wireAt a cf.useC cf.token wacts (f n)).conn = (relayAt cf past acts n).station.conn a := by
  rw [h.at_]; rfl

/-- A loop handles a request until there is a result for it. -/
theorem busy_until {i : Nat} {info : ConnInfo} {msg : ClientMsg} (hb : (wireAt a cf.useC cf.token wacts i).conn.phase = .busy info msg)
    (hno : ¬ ∃ m, i ≤ m ∧ ∃ r, wacts m = .server (.reply a r) ∧ ReplyFits msg r) {k : Nat} (hk : i ≤ k) :
    (wireAt a cf.useC cf.token wacts k).conn.phase = .busy info msg := by
  induction k, hk using Nat.le_induction with
  | base => exact hb
  | succ k hk ih =>
    obtain ⟨l, hok⟩ := Wire.ok_run a cf.useC cf.token (upTo wacts k)
    have hid : (wireAt a cf.useC cf.token wacts k).link.id = a := hok.id_eq
    have hfr : ((wireAt a cf.useC cf.token wacts k).link.server.conns (wireAt a cf.useC cf.token wacts k).link.server.nextConn).phase = .absent := by
      have := EvServer.fresh_run cf.useC cf.token (serverActs l)
      rw [← (Link.server_run a cf.useC cf.token l).2, ← hok.link] at this
      have hx := this _ (Nat.le_refl _)
      unfold wireAt
      rw [hx]
    rw [wireAt_succ]
    unfold Wire.conn at ih ⊢
    rw [Wire.id_step]
    rcases Wire.server_step (wireAt a cf.useC cf.token wacts k) (wacts k) with h1 | ⟨act, h1, _, h2⟩
    · rw [h1]; exact ih
    · rw [h1]
      rcases EvServer.busy_leaves (a := act) ih hfr with h3 | ⟨r, h3, h4⟩
      · exact h3
      · subst h3
        rcases h2 with h2 | ⟨_, h2⟩ | h2
        · rw [hid] at h2
          exact absurd ⟨k, hk, r, h2, h4⟩ hno
        · cases h2
        · cases h2

theorem goesOn (h : WireFlat cf past acts a L wacts f) (hp : ProcessGoesOn cf past acts) (hc : ClientGoesOn cf past acts a) :
    WireGoesOn (wireAt a cf.useC cf.token wacts) wacts where
  arrive := h.often (P := (· = .arrive)) fun n => by
    obtain ⟨m, hm, he⟩ := hc.arrive n
    exact ⟨m, hm, _, (h.block m).arrive he, rfl⟩
  deliver := h.often (P := (· = .deliver)) fun n => by
    obtain ⟨m, hm, he⟩ := hc.deliver n
    exact ⟨m, hm, _, (h.block m).deliver.1 he, rfl⟩
  notice n := by
    obtain ⟨m, hm, he⟩ := hc.notice (n + 1)
    obtain ⟨k, rfl⟩ : ∃ k, m = k + 1 := ⟨m - 1, by omega⟩
    refine ⟨f k + (L k).length, by have := h.ge k; omega, ?_⟩
    rw [h.pad_at]
    unfold wirePad
    rw [if_pos he]
  start := h.often_client hc.start
  stop := h.often_client hc.stop
  callback := h.often (P := fun x => ∃ ok, x = .client (.callbackDone ok)) fun n => by
    obtain ⟨m, hm, ok, he⟩ := hc.callback n
    exact ⟨m, hm, _, ((h.block m).client _).1 he, ok, rfl⟩
  reply i info msg hb := by
    obtain ⟨l, hok⟩ := Wire.ok_run a cf.useC cf.token (upTo wacts i)
    have hid : (wireAt a cf.useC cf.token wacts i).link.id = a := hok.id_eq
    rw [hid]
    by_contra hno
    have hall := fun k hk => busy_until hb hno (k := k) hk
    obtain ⟨n, j, hj, rfl⟩ := h.place i
    have hst := h.start n
    have hlater : ∀ k, n + 1 ≤ k → ((relayAt cf past acts k).station.conn a).phase = .busy info msg := by
      intro k hk
      rw [← h.conn_at]
      have := h.mono hk
      exact hall _ (by omega)
    have hfound : ∀ k r, n + 1 ≤ k → .server (.reply a r) ∈ L k → ¬ ReplyFits msg r := by
      intro k r hk hm hf
      obtain ⟨j', _, hj'⟩ := h.mem_at hm
      have := h.mono hk
      exact hno ⟨f k + j', by omega, r, hj', hf⟩
    have hreq : EvServer.IsRequest msg := by
      have hb' := hb
      unfold Wire.conn wireAt at hb'
      rw [hok.link, (Link.server_run a cf.useC cf.token l).2] at hb'
      exact EvServer.busy_request _ _ _ hb'
    rcases hreq with ⟨conv, evs, last, rfl⟩ | ⟨conv, params, rfl⟩
    · obtain ⟨e, k, eng, hw, he, hr⟩ := (relay_linked h.own (n + 1)).waits info conv evs last (hlater _ (Nat.le_refl _))
      obtain ⟨m, x, hm, hx, hans⟩ := relay_answered hp he (List.getElem?_eq_some_iff.1 hr).1
      obtain ⟨M, hM, hact⟩ := hc.answered m
      obtain ⟨l', hl'⟩ := relay_persists hx hM
      obtain ⟨o, ho⟩ := hans
      obtain ⟨o', ho'⟩ := outcome_some hl' ⟨o, (records_run x l').outcomes.subset ho⟩
      obtain ⟨r, hr1, hr2⟩ := (h.block M).answer info conv evs last (e, k) o' hact (hlater M (by omega))
        ((relay_waits hlater (by omega)).trans hw) ho'
      exact hfound M r (by omega) hr1 hr2
    · obtain ⟨M, hM, hact⟩ := hc.queried (n + 1)
      obtain ⟨r, hr1, hr2⟩ := (h.block M).query info conv params hact (hlater M hM)
      exact hfound M r hM hr1 hr2

theorem starts (h : WireFlat cf past acts a L wacts f) (hs : ReceiveStarts cf past acts a) : LoopStarts (wireAt a cf.useC cf.token wacts) := by
  intro i c hc
  obtain ⟨n, j, hj, rfl⟩ := h.place i
  rcases h.client_at n j (by omega) with ⟨_, h1⟩ | ⟨_, h1⟩
  · exact hs n c (by rw [← h1]; exact hc)
  · exact hs (n + 1) c (by rw [← h1]; exact hc)

theorem pad_not {n : Nat} {x : WireAct} (h : wirePad (relayAt cf past acts n).station a = x) : x = .notice ∨ x = .client (.receive .other) := by
  unfold wirePad at h
  split at h
  · exact .inl h.symm
  · exact .inr h.symm

theorem notOvertaken (h : WireFlat cf past acts a L wacts f) {k : Nat} (hs : SentFirst cf past acts a k) :
    NotOvertaken (wireAt a cf.useC cf.token wacts) wacts k := by
  intro i c conv w msg x ha hc hk hm
  obtain ⟨n, j, hj, rfl⟩ := h.place i
  rcases h.act_at n j hj with ⟨hl, h1⟩ | ⟨_, h1⟩
  · rw [h1] at ha
    have hmem : .deliver ∈ L n := ha ▸ List.getElem_mem hl
    have hact := (h.block n).deliver.2 hmem
    have hj0 : j = 0 := by
      rcases (h.block n).kind with ⟨y, hy⟩ | hy
      · rw [hy] at hl; simp at hl; exact hl
      · rcases hy _ hmem with ⟨y, hy⟩ | hy <;> cases hy
    subst hj0
    rw [Nat.add_zero, h.at_] at hc hm ⊢
    have := hs n c conv w msg x hact hc hk hm
    have hflag : (wireWhen cf past acts a n).lastFlag = (relayAt cf past acts n).station.lastFlag msg := by
      unfold Wire.lastFlag Station.lastFlag
      rw [hm]
      cases msg <;> rfl
    rw [hflag]
    exact this
  · rw [h1] at ha
    rcases pad_not ha with h | h <;> cases h

end WireFlat
end
end HatEvent
