import Verif.Proof.RelayEngineLive
import Verif.Proof.WireAlive
import Verif.Proof.StationRun

/-!
# What the schedule of an event server is for one of its clients
-/

namespace HatEvent
open Spec

/-- The connection of a client and its two sides. -/
def wireOf (a : Nat) (s : Station) : Wire := ⟨⟨a, s.host.server, s.clients a, s.read a⟩, s.taken a⟩

namespace Wire

theorem run_servers (l : List EvAct) (h : NoReceive l) : ∀ w : Wire, w.run (l.map .server) = { w with link := { w.link with server := w.link.server.run l } } := by
  induction l with
  | nil => intro w; rfl
  | cons x l ih =>
    intro w
    have hp : w.permits x = true := by
      cases x with
      | receive i m => exact absurd List.mem_cons_self (h i m)
      | _ => rfl
    have h1 : w.step (.server x) = { w with link := { w.link with server := w.link.server.step x } } := by
      simp only [step, acts, hp, if_true]
      rfl
    show (w.step (.server x)).run (l.map .server) = _
    rw [ih (fun i m hm => h i m (List.mem_cons_of_mem _ hm)), h1]
    rfl

theorem run_server {w : Wire} {x : EvAct} (h : w.permits x = true) : w.step (.server x) = { w with link := { w.link with server := w.link.server.step x } } := by
  simp only [step, acts, h, if_true]
  rfl

/-- The client of a connection, while only the server acts. -/
theorem client_servers (l : List WireAct) (h : ∀ x ∈ l, (∃ y, x = .server y) ∨ x = .arrive) : ∀ w : Wire, (w.run l).link.client = w.link.client := by
  induction l with
  | nil => intro w; rfl
  | cons x l ih =>
    intro w
    show ((w.step x).run l).link.client = _
    rw [ih fun y hy => h y (List.mem_cons_of_mem _ hy)]
    rcases h x List.mem_cons_self with ⟨y, rfl⟩ | rfl
    · simp only [step, acts]
      split <;> rfl
    · simp only [step, acts]
      split <;> rfl

end Wire

/-- The actions of a connection in an action of the event server. -/
structure WireBlock (cf : StationConf) (a : Nat) (s : Station) (act : StationAct) (l : List WireAct) : Prop where
  run : wireOf a (s.step cf act) = (wireOf a s).run l
  kind : (∃ x, l = [x]) ∨ ∀ x ∈ l, (∃ y, x = .server y) ∨ x = .arrive
  arrive : act = .arrive a → .arrive ∈ l
  deliver : act = .deliver a ↔ .deliver ∈ l
  client : ∀ x, act = .client a x ↔ .client x ∈ l
  answer : ∀ info conv evs last call o, act = .answered a → (s.conn a).phase = .busy info (.register conv evs last) → s.waits a = some call →
    s.outcome call = some o → ∃ r, .server (.reply a r) ∈ l ∧ ReplyFits (.register conv evs last) r
  query : ∀ info conv params, act = .queried a → (s.conn a).phase = .busy info (.query conv params) →
    ∃ r, .server (.reply a r) ∈ l ∧ ReplyFits (.query conv params) r

namespace Station

theorem wireOf_host (cf : StationConf) (a : Nat) (s : Station) (act : HostAct) :
    wireOf a (s.hostStep cf act) = { wireOf a s with link := { (wireOf a s).link with server := (s.host.step act).server } } := by
  have h := hostStep_calls cf s act
  unfold wireOf
  rw [h.host, h.clients, h.read, h.taken]

theorem handled_fits (conv : Nat) (evs : List RegisterEvent) (last : Bool) (r : EngineEnd) : ReplyFits (.register conv evs last) r.handled := by
  cases r with
  | registered r => exact .register _ _ _ _
  | raised => exact .raised _

/-- An action of the eventer server. -/
theorem wire_host (cf : StationConf) (a : Nat) (s : Station) (act : HostAct)
    (hp : ∀ m, act = .receive a m → (wireOf a s).permits (.receive a m) = true) :
    ∃ l, wireOf a (s.hostStep cf act) = (wireOf a s).run l ∧ (∀ x ∈ l, ∃ y, x = .server y) ∧
      (∀ r info conv evs last, act = .answer a r → (s.conn a).phase = .busy info (.register conv evs last) → .server (.reply a r.handled) ∈ l) ∧
      ∀ r info conv params, act = .queried a r → (s.conn a).phase = .busy info (.query conv params) →
        ∃ h, .server (.reply a h) ∈ l ∧ ReplyFits (.query conv params) h := by
  obtain ⟨l, hl⟩ := Host.acts_step s.host act
  refine ⟨l.map .server, ?_, ?_, ?_, ?_⟩
  · rw [wireOf_host, hl.run]
    by_cases hr : ∃ i m, act = .receive i m
    · obtain ⟨i, m, rfl⟩ := hr
      obtain ⟨l', rfl, hno⟩ := hl.receive i m rfl
      have hperm : (wireOf a s).permits (.receive i m) = true := by
        by_cases hi : i = a
        · subst hi; exact hp m rfl
        · have : i ≠ (wireOf a s).link.id := hi
          simp [Wire.permits, this]
      show _ = ((wireOf a s).step (.server (.receive i m))).run (l'.map .server)
      rw [Wire.run_server hperm, Wire.run_servers l' hno]
      rfl
    · push Not at hr
      rw [Wire.run_servers l (hl.other hr)]
      rfl
  · intro x hx
    obtain ⟨y, _, rfl⟩ := List.mem_map.1 hx
    exact ⟨y, rfl⟩
  · intro r info conv evs last ha hb
    exact List.mem_map.2 ⟨_, hl.answer a r info conv evs last ha hb, rfl⟩
  · intro r info conv params ha hb
    obtain ⟨h, h1, h2⟩ := hl.query a r info conv params ha hb
    exact ⟨h, List.mem_map.2 ⟨_, h1, rfl⟩, h2⟩

/-- Nothing happens to the connection. -/
theorem wire_nothing {cf : StationConf} {a : Nat} {s : Station} {act : StationAct} (h : wireOf a (s.step cf act) = wireOf a s)
    (h1 : act ≠ .arrive a) (h2 : act ≠ .deliver a) (h3 : ∀ x, act ≠ .client a x) (h4 : act = .answered a → s.waits a = none ∨ ∃ call, s.waits a = some call ∧ s.outcome call = none)
    (h5 : act = .queried a → ∀ info conv params, (s.conn a).phase ≠ .busy info (.query conv params)) : WireBlock cf a s act [] where
  run := h
  kind := .inr (by simp)
  arrive h := absurd h h1
  deliver := by simp [h2]
  client x := by simp [h3]
  answer info conv evs last call o ha _ hw ho := by
    rcases h4 ha with h | ⟨c, h, h'⟩
    · rw [h] at hw; cases hw
    · rw [h] at hw; cases hw; rw [h'] at ho; cases ho
  query info conv params ha hb := absurd hb (h5 ha info conv params)

theorem wire_step (cf : StationConf) {a : Nat} (hid : cf.foreign a = false) (s : Station) (act : StationAct) : ∃ l, WireBlock cf a s act l := by
  have quiet : ∀ {act : StationAct}, wireOf a (s.step cf act) = wireOf a s → act ≠ .arrive a → act ≠ .deliver a → (∀ x, act ≠ .client a x) →
      act ≠ .answered a → act ≠ .queried a → ∃ l, WireBlock cf a s act l :=
    fun h h1 h2 h3 h4 h5 => ⟨[], wire_nothing h h1 h2 h3 (fun h => absurd h h4) (fun h => absurd h h5)⟩
  -- only the eventer server acts
  have host : ∀ {act : StationAct} (x : HostAct), s.step cf act = s.hostStep cf x → (∀ m, x = .receive a m → (wireOf a s).permits (.receive a m) = true) →
      act ≠ .arrive a → act ≠ .deliver a → (∀ x, act ≠ .client a x) → act ≠ .answered a → act ≠ .queried a → ∃ l, WireBlock cf a s act l := by
    intro act x h hp h1 h2 h3 h4 h5
    obtain ⟨l, hl, hs, _⟩ := wire_host cf a s x hp
    refine ⟨l, by rw [h]; exact hl, .inr fun x hx => .inl (hs x hx), fun h => absurd h h1, ⟨fun h => absurd h h2, fun h => ?_⟩,
      fun x => ⟨fun h => absurd h (h3 x), fun h => ?_⟩, fun _ _ _ _ _ _ h => absurd h h4, fun _ _ _ h => absurd h h5⟩
    · obtain ⟨y, hy⟩ := hs _ h; cases hy
    · obtain ⟨y, hy⟩ := hs _ h; cases hy
  cases act with
  | host x =>
    by_cases hp : s.permits cf x = true
    · refine host x (by simp only [step, hp, if_true]) ?_ (by simp) (by simp) (by simp) (by simp) (by simp)
      rintro m rfl
      simp only [permits, hid, Bool.false_or] at hp
      simp only [Wire.permits, wireOf, if_true]
      exact hp
    · exact quiet (by simp only [step]; rw [if_neg hp]) (by simp) (by simp) (by simp) (by simp) (by simp)
  | arrive i =>
    by_cases hi : i = a
    · subst hi
      -- the request
      have hreq : (wireOf i s).request = match (s.conn i).phase, s.clients i with
          | .ready _, some client => client.sent[s.taken i]?
          | _, _ => none := rfl
      cases hr : (wireOf i s).request with
      | none =>
        have h0 : s.step cf (.arrive i) = s := by
          simp only [step, arrive]
          rw [hr] at hreq
          split
          · next h1 h2 =>
            rw [h1, h2] at hreq
            simp only at hreq
            rw [← hreq]
          · rfl
        refine ⟨[.arrive], ?_, .inl ⟨_, rfl⟩, fun _ => by simp, by simp, by simp, by simp, by simp⟩
        rw [h0]
        show _ = (wireOf i s).step .arrive
        simp only [Wire.step, Wire.acts, hr]
        rfl
      | some msg =>
        obtain ⟨l, hl⟩ := Host.acts_step s.host (.receive i msg)
        obtain ⟨l', rfl, hno⟩ := hl.receive i msg rfl
        have h0 : s.step cf (.arrive i) = { s.hostStep cf (.receive i msg) with taken := fun j => if j = i then s.taken j + 1 else s.taken j } := by
          simp only [step, arrive]
          rw [hr] at hreq
          split
          · next h1 h2 =>
            rw [h1, h2] at hreq
            simp only at hreq
            rw [← hreq]
          · next hx =>
            exfalso
            split at hreq
            · next h1 h2 => exact hx _ _ h1 h2
            · cases hreq
        refine ⟨.arrive :: l'.map .server, ?_, .inr ?_, fun _ => by simp, by simp, by simp, by simp, by simp⟩
        · have h1 : (wireOf i s).step .arrive = { (wireOf i s) with link := { (wireOf i s).link with server := s.host.server.step (.receive i msg) }, taken := s.taken i + 1 } := by
            simp only [Wire.step, Wire.acts, hr, Option.isSome_some, if_true]
            rfl
          show _ = ((wireOf i s).step .arrive).run (l'.map .server)
          rw [h1, Wire.run_servers l' hno, h0]
          have h2 := wireOf_host cf i s (.receive i msg)
          unfold wireOf at h2 ⊢
          simp only [Wire.mk.injEq, Link.mk.injEq] at h2 ⊢
          refine ⟨⟨h2.1.1, ?_, h2.1.2.2.1, h2.1.2.2.2⟩, by simp⟩
          rw [h2.1.2.1, hl.run]
          rfl
        · intro x hx
          rcases List.mem_cons.1 hx with rfl | hx
          · exact .inr rfl
          · obtain ⟨y, _, rfl⟩ := List.mem_map.1 hx
            exact .inl ⟨y, rfl⟩
    · have hsame : (∃ msg, s.step cf (.arrive i) = { s.hostStep cf (.receive i msg) with taken := fun j => if j = i then s.taken j + 1 else s.taken j }) ∨
          s.step cf (.arrive i) = s := by
        simp only [step, arrive]
        split
        · split
          · exact .inl ⟨_, rfl⟩
          · exact .inr rfl
        · exact .inr rfl
      have hne : StationAct.arrive i ≠ .arrive a := fun h => hi (by cases h; rfl)
      rcases hsame with ⟨msg, h0⟩ | h0
      · obtain ⟨l, hl, hs, _⟩ := wire_host cf a s (.receive i msg) (fun m h => absurd (by cases h; rfl) hi)
        refine ⟨l, ?_, .inr fun x hx => .inl (hs x hx), fun h => absurd h hne, ⟨(fun h => by cases h), fun h => ?_⟩, fun x => ⟨(fun h => by cases h), fun h => ?_⟩, by simp, by simp⟩
        · rw [h0, ← hl]
          unfold wireOf
          simp only [if_neg (fun h : a = i => hi h.symm)]
          rw [(hostStep_calls cf s _).taken]
        · obtain ⟨y, hy⟩ := hs _ h; cases hy
        · obtain ⟨y, hy⟩ := hs _ h; cases hy
      · exact quiet (by rw [h0]) hne (by simp) (by simp) (by simp) (by simp)
  | connect i =>
    by_cases hi : i = a
    · subst hi
      refine ⟨[.connect], ?_, .inl ⟨_, rfl⟩, by simp, by simp, by simp, by simp, by simp⟩
      show wireOf i (s.connect cf i) = (wireOf i s).step .connect
      simp only [connect, hid, conn, Wire.step, Wire.acts, Link.run, List.foldl_cons, List.foldl_nil, Link.step, Link.connect]
      cases hc : s.clients i with
      | some c => simp [wireOf, hc]
      | none =>
        cases hs : (s.host.server.conns i).sent with
        | nil => simp [wireOf, hc, hs]
        | cons m rest => cases m <;> simp [wireOf, hc, hs]
    · refine quiet ?_ (by simp) (by simp) (by simp) (by simp) (by simp)
      have hi' : a ≠ i := fun h => hi h.symm
      simp only [step, connect]
      split <;> simp [wireOf, hi']
  | client i x =>
    by_cases hi : i = a
    · subst hi
      refine ⟨[.client x], ?_, .inl ⟨_, rfl⟩, by simp, by simp, fun y => by simp [eq_comm], by simp, by simp⟩
      show wireOf i (s.clientStep i x) = (wireOf i s).step (.client x)
      cases x <;> simp [clientStep, setClient, wireOf, Wire.step, Wire.acts, Link.run, Link.step, Link.clientStep]
    · refine quiet ?_ (by simp) (by simp) (by simp [hi]) (by simp) (by simp)
      have hi' : a ≠ i := fun h => hi h.symm
      show wireOf a (s.clientStep i x) = _
      cases x <;> simp [clientStep, setClient, wireOf, hi']
  | deliver i =>
    by_cases hi : i = a
    · subst hi
      refine ⟨[.deliver], ?_, .inl ⟨_, rfl⟩, by simp, by simp, by simp, by simp, by simp⟩
      show wireOf i (s.deliver i) = (wireOf i s).step .deliver
      simp only [deliver, conn, Wire.step, Wire.acts, Link.run, List.foldl_cons, List.foldl_nil, Link.step, Link.deliver]
      cases hc : s.clients i with
      | none => simp [wireOf, hc]
      | some c =>
        cases hs : (s.host.server.conns i).sent[s.read i]? with
        | none => simp [wireOf, hc, hs]
        | some m =>
          have hflag : (wireOf i s).lastFlag = s.lastFlag m := by
            simp only [Wire.lastFlag, Wire.conn, wireOf, hs, lastFlag]
            cases m <;> rfl
          rw [hflag]
          cases hl : c.loop <;> simp [wireOf, hc, hs, hl, setClient, ReqClient.step]
    · refine quiet ?_ (by simp) (by simp [hi]) (by simp) (by simp) (by simp)
      have hi' : a ≠ i := fun h => hi h.symm
      simp only [step, deliver]
      split
      · split <;> simp [wireOf, hi', setClient]
      · rfl
  | answered i =>
    by_cases hw : ∃ call o, s.waits i = some call ∧ s.outcome call = some o
    · obtain ⟨call, o, h1, h2⟩ := hw
      have h0 : s.step cf (.answered i) = s.hostStep cf (.answer i (endOf o)) := by simp only [step, answered, h1, h2]
      obtain ⟨l, hl, hs, hans, _⟩ := wire_host cf a s (.answer i (endOf o)) (by simp)
      refine ⟨l, by rw [h0]; exact hl, .inr fun x hx => .inl (hs x hx), by simp, ⟨(fun h => by cases h), fun h => ?_⟩, fun x => ⟨(fun h => by cases h), fun h => ?_⟩, ?_, by simp⟩
      · obtain ⟨y, hy⟩ := hs _ h; cases hy
      · obtain ⟨y, hy⟩ := hs _ h; cases hy
      · intro info conv evs last call' o' hact hb _ _
        cases hact
        exact ⟨_, hans _ info conv evs last rfl hb, handled_fits _ _ _ _⟩
    · have h0 : s.step cf (.answered i) = s := by
        simp only [step, answered]
        split
        · next call h1 =>
          split
          · next o h2 => exact absurd ⟨call, o, h1, h2⟩ hw
          · rfl
        · rfl
      refine ⟨[], wire_nothing (by rw [h0]) (by simp) (by simp) (by simp) (fun h => ?_) (by simp)⟩
      cases h
      cases h1 : s.waits a with
      | none => exact .inl rfl
      | some call =>
        cases h2 : s.outcome call with
        | none => exact .inr ⟨call, rfl, h2⟩
        | some o => exact absurd ⟨call, o, h1, h2⟩ hw
  | queried i =>
    by_cases hb : ∃ info conv params, (s.conn i).phase = .busy info (.query conv params)
    · obtain ⟨info, conv, params, hb⟩ := hb
      have h0 : s.step cf (.queried i) = s.hostStep cf (.queried i (match s.backend cf |>.query params with | .ok r => some r | .error _ => none)) := by
        simp only [step, queried, hb]
        rfl
      obtain ⟨l, hl, hs, _, hq⟩ := wire_host cf a s (.queried i (match s.backend cf |>.query params with | .ok r => some r | .error _ => none)) (by simp)
      refine ⟨l, by rw [h0]; exact hl, .inr fun x hx => .inl (hs x hx), by simp, ⟨(fun h => by cases h), fun h => ?_⟩, fun x => ⟨(fun h => by cases h), fun h => ?_⟩, by simp, ?_⟩
      · obtain ⟨y, hy⟩ := hs _ h; cases hy
      · obtain ⟨y, hy⟩ := hs _ h; cases hy
      · intro info' conv' params' hact hb'
        cases hact
        exact hq _ info' conv' params' rfl hb'
    · have h0 : s.step cf (.queried i) = s := by
        simp only [step, queried]
        split
        · next info conv params h1 => exact absurd ⟨info, conv, params, h1⟩ hb
        · rfl
      refine ⟨[], wire_nothing (by rw [h0]) (by simp) (by simp) (by simp) (by simp) fun h info conv params hx => ?_⟩
      cases h
      exact hb ⟨info, conv, params, hx⟩
  | start modules =>
    refine quiet ?_ (by simp) (by simp) (by simp) (by simp) (by simp)
    simp only [step, start]
    split
    · split <;> rfl
    · split <;> rfl
    · rfl
  | engine i act =>
    refine quiet ?_ (by simp) (by simp) (by simp) (by simp) (by simp)
    simp only [step, engineStep]
    split <;> rfl
  | keep op => exact quiet (by cases op <;> rfl) (by simp) (by simp) (by simp) (by simp) (by simp)
  | remote events => exact quiet rfl (by simp) (by simp) (by simp) (by simp) (by simp)

end Station
end HatEvent
