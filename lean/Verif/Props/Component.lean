import Verif.Proof.Component

/-!
# Component (C52)
-/

namespace HatEvent

/-- Data of a server in the monitor state: its id, address and token can be read. -/
structure Describes (data : Json) (d : ServerData) : Prop where
  serverId : jsonGet data (.name "server_id") = .int d.addr.serverId ∨
    ∃ b, jsonGet data (.name "server_id") = .bool b ∧ d.addr.serverId = if b then 1 else 0
  host : jsonGet data (.array [.name "eventer_server", .name "host"]) = .str d.addr.host
  port : jsonGet data (.array [.name "eventer_server", .name "port"]) = .int d.addr.port ∨
    ∃ b, jsonGet data (.array [.name "eventer_server", .name "port"]) = .bool b ∧ d.addr.port = if b then 1 else 0
  token : (∃ t, jsonGet data (.name "server_token") = .str t ∧ d.token = some t) ∨
    (jsonGet data (.name "server_token") = .null ∧ d.token = none)

theorem asInt_some {j : Json} {n : Int} (h : j.asInt = some n) :
    j = .int n ∨ ∃ b, j = .bool b ∧ n = if b then 1 else 0 := by
  cases j <;> simp [Json.asInt] at h
  · next b => exact .inr ⟨b, rfl, h.symm⟩
  · exact .inl (by rw [h])

theorem readServerData_some {data : Json} {d : ServerData} : readServerData data = some d ↔ Describes data d := by
  constructor
  · intro h
    unfold readServerData at h
    split at h
    · next i ho p t h1 h2 h3 h4 =>
      cases h
      refine ⟨asInt_some h1, ?_, asInt_some h3, ?_⟩
      · generalize jsonGet data (.array [.name "eventer_server", .name "host"]) = j at h2
        cases j <;> simp [Json.asStr] at h2
        rw [h2]
      · generalize jsonGet data (.name "server_token") = j at h4
        cases j <;> simp [Json.asToken] at h4
        · exact .inr ⟨rfl, h4.symm⟩
        · exact .inl ⟨_, rfl, h4.symm⟩
    · cases h
  · rintro ⟨h1, h2, h3, h4⟩
    have e1 : (jsonGet data (.name "server_id")).asInt = some d.addr.serverId := by
      rcases h1 with h | ⟨b, h, h'⟩
      · rw [h]; rfl
      · rw [h, h']; rfl
    have e2 : (jsonGet data (.array [.name "eventer_server", .name "host"])).asStr = some d.addr.host := by rw [h2]; rfl
    have e3 : (jsonGet data (.array [.name "eventer_server", .name "port"])).asInt = some d.addr.port := by
      rcases h3 with h | ⟨b, h, h'⟩
      · rw [h]; rfl
      · rw [h, h']; rfl
    have e4 : (jsonGet data (.name "server_token")).asToken = some d.token := by
      rcases h4 with ⟨t, h, h'⟩ | ⟨h, h'⟩
      · rw [h, h']; rfl
      · rw [h, h']; rfl
    unfold readServerData
    rw [e1, e2, e3, e4]

/-- The active server of a monitor state for a component: the first component of the server group with a granted
blessing token, if its data can be read and its token is compatible. -/
def ActiveIn (serverGroup : String) (clientToken : Option String) (state : MonitorState) (d : ServerData) : Prop :=
  ∃ before info after, state.components = before ++ info :: after ∧
    (∀ i ∈ before, ¬ (i.group = serverGroup ∧ i.reqToken.isSome ∧ i.reqToken = i.resToken)) ∧
    info.group = serverGroup ∧ info.reqToken.isSome ∧ info.reqToken = info.resToken ∧
    Describes info.data d ∧ (clientToken = none ∨ clientToken = d.token)

theorem isActiveServer_iff {g : String} {i : MonitorInfo} :
    isActiveServer g i = true ↔ i.group = g ∧ i.reqToken.isSome ∧ i.reqToken = i.resToken := by
  unfold isActiveServer
  simp [and_assoc]

theorem activeServerData_iff {g : String} {t : Option String} {state : MonitorState} {d : ServerData} :
    activeServerData g t state = some d ↔ ActiveIn g t state d := by
  unfold activeServerData ActiveIn
  constructor
  · intro h
    split at h
    · cases h
    · next info hf =>
      split at h
      · cases h
      · next data hr =>
        split at h
        · cases h
        · next ht =>
          cases h
          obtain ⟨h1, as, bs, h2, h3⟩ := List.find?_eq_some_iff_append.1 hf
          obtain ⟨a1, a2, a3⟩ := isActiveServer_iff.1 h1
          refine ⟨as, info, bs, h2, ?_, a1, a2, a3, readServerData_some.1 hr, ?_⟩
          · intro i hi h
            have := h3 i hi
            rw [isActiveServer_iff.2 h] at this
            cases this
          · cases t with
            | none => exact .inl rfl
            | some t => right; simpa using ht
  · rintro ⟨as, info, bs, h2, h3, a1, a2, a3, hr, ht⟩
    have hf : state.components.find? (isActiveServer g) = some info := by
      rw [List.find?_eq_some_iff_append]
      refine ⟨isActiveServer_iff.2 ⟨a1, a2, a3⟩, as, bs, h2, ?_⟩
      intro i hi
      rw [Bool.not_eq_true', ← Bool.not_eq_true]
      exact fun h => h3 i hi (isActiveServer_iff.1 h)
    rw [hf]
    simp only [readServerData_some.2 hr]
    rw [if_neg]
    rcases ht with rfl | rfl <;> simp

/-- **C52** The component connects only to the active server of some monitor state it was given: a server of the server group whose
blessing token is granted and whose token is compatible. -/
theorem C52_connects (serverGroup : String) (clientToken : Option String) (capacity : Nat) (acts : List CompAct) (d : ServerData)
    (h : d ∈ ((Comp.init serverGroup clientToken capacity).run acts).connects) :
    ∃ state, .state state ∈ acts ∧ ActiveIn serverGroup clientToken state d := by
  have key : ∀ acts', (∀ a ∈ acts', a ∈ acts) →
      Comp.From (fun d => ∃ state, .state state ∈ acts ∧ ActiveIn serverGroup clientToken state d)
        ((Comp.init serverGroup clientToken capacity).run acts') := by
    intro acts'
    induction acts' using List.reverseRecOn with
    | nil =>
      intro _
      refine ⟨?_, by simp [Comp.run, Comp.init], by simp [Comp.run, Comp.init], by simp [Comp.run, Comp.init], trivial,
        by simp [Comp.run, Comp.init]⟩
      intro d hd
      cases hd
    | append_singleton acts' a ih =>
      intro hsub
      rw [Comp.run_snoc]
      refine Comp.from_step a (ih fun x hx => hsub x (List.mem_append_left _ hx)) ?_
      intro st hst d hd
      refine ⟨st, hst ▸ hsub a (List.mem_append_right _ (List.mem_singleton.2 rfl)), ?_⟩
      unfold Comp.active at hd
      rw [(Comp.conf_run _ _ _ _).1, (Comp.conf_run _ _ _ _).2.1] at hd
      exact activeServerData_iff.1 hd
  exact (key acts fun _ h => h).connects d h

/-- All states were passed to `_on_state`, which returned, the queue is empty and no client loop is being closed. -/
def CompSettled (s : Comp) : Prop :=
  s.pending = [] ∧ s.putting = none ∧ s.queue = some [] ∧ (s.loop = .idle ∨ ∃ d, s.loop = .serving d)

/-- **C52** When everything is settled, the running client loop is the one for the active server of the latest monitor state, and there is none
if there is no active server. -/
theorem C52_follows (serverGroup : String) (clientToken : Option String) (capacity : Nat) (acts : List CompAct)
    (h : CompSettled ((Comp.init serverGroup clientToken capacity).run acts)) (d : ServerData) :
    ((Comp.init serverGroup clientToken capacity).run acts).loop = .serving d ↔
      ActiveIn serverGroup clientToken ((Comp.init serverGroup clientToken capacity).run acts).state d := by
  have hok := Comp.ok_run serverGroup clientToken capacity acts
  obtain ⟨c1, c2, _⟩ := Comp.conf_run serverGroup clientToken capacity acts
  obtain ⟨h1, hp, h2, h3⟩ := h
  have hf := hok.fresh h1 (by rw [h2]; simp)
  unfold Comp.active at hf
  rw [c1, c2] at hf
  have he := hok.empty hp h2
  rw [← activeServerData_iff, ← hf]
  rcases h3 with h3 | ⟨x, h3⟩
  · rw [h3] at he ⊢
    rw [show ((Comp.init serverGroup clientToken capacity).run acts).current = none from he]
    simp
  · rw [h3] at he ⊢
    rw [show ((Comp.init serverGroup clientToken capacity).run acts).current = some x from he]
    simp

/-- The queue is emptied by at most one change of the client loop. -/
theorem comp_emptied {s : Comp} (hq : s.queue ≠ none) (hl : s.loop ≠ .ended) :
    let s' := ((s.step .get).step .closed).step .get
    s'.pending = s.pending ∧ s'.putting = s.putting ∧ s'.capacity = s.capacity ∧ s'.queue = some [] ∧
      (s'.loop = .idle ∨ ∃ d, s'.loop = .serving d) := by
  obtain ⟨q, hq⟩ := Option.ne_none_iff_exists'.1 hq
  have henter : ∀ (s₀ : Comp) (d : Option ServerData), s₀.pending = s.pending → s₀.putting = s.putting →
      s₀.capacity = s.capacity → s₀.queue = some [] →
      (let s' := (s₀.enter d).step .get
       s'.pending = s.pending ∧ s'.putting = s.putting ∧ s'.capacity = s.capacity ∧ s'.queue = some [] ∧
        (s'.loop = .idle ∨ ∃ d, s'.loop = .serving d)) ∧
      (let s' := ((s₀.enter d).step .closed).step .get
       s'.pending = s.pending ∧ s'.putting = s.putting ∧ s'.capacity = s.capacity ∧ s'.queue = some [] ∧
        (s'.loop = .idle ∨ ∃ d, s'.loop = .serving d)) := by
    intro s₀ d h1 h2 h3 h4
    cases d with
    | none =>
      simp only [Comp.enter, Comp.step, Comp.get, h4, Comp.closed]
      exact ⟨⟨h1, h2, h3, trivial, .inl trivial⟩, ⟨h1, h2, h3, trivial, .inl trivial⟩⟩
    | some d =>
      simp only [Comp.enter, Comp.step, Comp.get, h4, Comp.closed]
      exact ⟨⟨h1, h2, h3, trivial, .inr ⟨d, rfl⟩⟩, ⟨h1, h2, h3, trivial, .inr ⟨d, rfl⟩⟩⟩
  cases hloop : s.loop with
  | ended => exact absurd hloop hl
  | idle =>
    cases q with
    | nil =>
      have e : s.step .get = s := by simp only [Comp.step, Comp.get, hq]
      have e' : s.step .closed = s := by simp only [Comp.step, Comp.closed, hloop]
      rw [e, e', e]
      exact ⟨rfl, rfl, rfl, hq, .inl hloop⟩
    | cons x q =>
      simp only [Comp.step, Comp.get, hq, hloop]
      exact (henter { s with queue := some [] } _ rfl rfl rfl rfl).2
  | serving d =>
    cases q with
    | nil =>
      have e : s.step .get = s := by simp only [Comp.step, Comp.get, hq]
      have e' : s.step .closed = s := by simp only [Comp.step, Comp.closed, hloop]
      rw [e, e', e]
      exact ⟨rfl, rfl, rfl, hq, .inr ⟨d, hloop⟩⟩
    | cons x q =>
      have e : s.step .get = { s with queue := some [], loop := .switching d ((x :: q).getLast (by simp)) } := by
        simp only [Comp.step, Comp.get, hq, hloop]
      rw [e]
      exact (henter { s with queue := some [], loop := .switching d ((x :: q).getLast (by simp)) } _ rfl rfl rfl rfl).1
  | switching old n =>
    have e : s.step .get = s := by
      simp only [Comp.step, Comp.get, hq, hloop]
      cases q <;> rfl
    have e' : s.step .closed = s.enter n := by simp only [Comp.step, Comp.closed, hloop]
    rw [e, e']
    cases q with
    | nil => exact (henter s n rfl rfl rfl hq).1
    | cons x q =>
      have e2 : s.enter n = { s with loop := .idle } := by
        cases n with
        | none => rfl
        | some n => simp only [Comp.enter, hq]
      rw [e2]
      simp only [Comp.step, Comp.get, hq]
      cases hg : (x :: q).getLast (by simp) with
      | none => exact ⟨rfl, rfl, rfl, rfl, .inl rfl⟩
      | some y => exact ⟨rfl, rfl, rfl, rfl, .inr ⟨y, rfl⟩⟩

/-- **C52** It settles: when all states were passed to `_on_state` and the runner exists, at most two changes of the client loop are needed. -/
theorem C52_settles (serverGroup : String) (clientToken : Option String) (capacity : Nat) (acts : List CompAct)
    (hp : ((Comp.init serverGroup clientToken capacity).run acts).pending = [])
    (hl : ((Comp.init serverGroup clientToken capacity).run acts).loop ≠ .ended) :
    CompSettled ((Comp.init serverGroup clientToken capacity).run (acts ++ [.get, .closed, .get, .put, .get, .closed, .get])) := by
  have hok := Comp.ok_run serverGroup clientToken capacity acts
  rw [Comp.run_append]
  generalize (Comp.init serverGroup clientToken capacity).run acts = s at *
  show CompSettled ((((((s.step .get).step .closed).step .get).step .put |>.step .get).step .closed).step .get)
  obtain ⟨h1, h2, h3, h4, h5⟩ := comp_emptied (fun h => hl (hok.none h)) hl
  generalize ((s.step .get).step .closed).step .get = s₁ at *
  have hl1 : s₁.loop ≠ .ended := by
    rcases h5 with h5 | ⟨d, h5⟩ <;> rw [h5] <;> nofun
  obtain ⟨a1, a2, a3, a4⟩ : (s₁.step .put).pending = [] ∧ (s₁.step .put).putting = none ∧ (s₁.step .put).queue ≠ none ∧
      (s₁.step .put).loop ≠ .ended := by
    cases hp1 : s₁.putting with
    | none =>
      have e : s₁.step .put = s₁ := by simp only [Comp.step, Comp.put, hp1]
      rw [e]
      exact ⟨h1.trans hp, hp1, by rw [h4]; simp, hl1⟩
    | some d =>
      have hf : ¬ s₁.full [] := by
        rintro ⟨x, y⟩
        simp at y
        omega
      simp only [Comp.step, Comp.put, hp1, h4, if_neg hf]
      exact ⟨h1.trans hp, trivial, by simp, hl1⟩
  obtain ⟨b1, b2, b3, b4, b5⟩ := comp_emptied a3 a4
  exact ⟨b1.trans a1, b2.trans a2, b4, b5⟩

/-- A server in the monitor state. -/
def exInfo (id : Int) (active : Bool) : MonitorInfo :=
  ⟨id, 0, "event", "group", .obj [("server_id", .int id),
    ("eventer_server", .obj [("host", .str "127.0.0.1"), ("port", .int 23012)])], 1, some 7, if active then some 7 else none⟩

/-- The active server changes from 1 to 2 while the client loop for 1 runs. -/
def exComp : List CompAct :=
  [.state ⟨none, [exInfo 1 true, exInfo 2 false]⟩, .onState, .createRunner, .get, .connect,
    .state ⟨none, [exInfo 1 false, exInfo 2 true]⟩, .onState]

/-- Server 1. -/
def exServerData (id : Int) : ServerData := ⟨⟨id, "127.0.0.1", 23012⟩, none⟩

example : ((Comp.init "group" none 1).run exComp).pending = [] ∧
    ((Comp.init "group" none 1).run exComp).loop = .serving (exServerData 1) ∧
    ((Comp.init "group" none 1).run exComp).connects = [exServerData 1] ∧
    ((Comp.init "group" none 1).run (exComp ++ [.get, .closed, .get])).loop = .serving (exServerData 2) := by
  refine ⟨rfl, rfl, rfl, rfl⟩

example : CompSettled ((Comp.init "group" none 1).run (exComp ++ [.get, .closed, .get])) :=
  ⟨rfl, rfl, rfl, .inr ⟨exServerData 2, rfl⟩⟩

/-- The active server is lost again before the loop reads the queue, which has one place. -/
def exCompFull : List CompAct := exComp ++ [.state ⟨none, [exInfo 1 false, exInfo 2 false]⟩, .onState]

example : ((Comp.init "group" none 1).run exCompFull).pending = [] ∧
    ((Comp.init "group" none 1).run exCompFull).putting = some none ∧
    ((Comp.init "group" none 1).run exCompFull).loop = .serving (exServerData 1) ∧
    ((Comp.init "group" none 1).run (exCompFull ++ [.get, .closed, .get])).loop = .serving (exServerData 2) ∧
    ((Comp.init "group" none 1).run (exCompFull ++ [.get, .closed, .get, .put, .get, .closed, .get])).loop = .idle := by
  refine ⟨rfl, rfl, rfl, rfl, rfl⟩

end HatEvent
