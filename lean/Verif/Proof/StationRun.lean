import Verif.Proof.StationConns

/-!
# Histories of an event server with its clients
-/

namespace HatEvent
open Spec

/-- Engines go on. -/
def EnginesGrow (l l' : List Engine) : Prop :=
  ∀ (e : Nat) (eng : Engine), l[e]? = some eng → ∃ eng', l'[e]? = some eng' ∧ EngineGrows eng eng'

theorem EnginesGrow.refl (l : List Engine) : EnginesGrow l l := fun _ eng h => ⟨eng, h, .refl eng⟩

theorem EnginesGrow.trans {a b c : List Engine} (h : EnginesGrow a b) (h' : EnginesGrow b c) : EnginesGrow a c := by
  intro e eng he
  obtain ⟨x, hx, gx⟩ := h e eng he
  obtain ⟨y, hy, gy⟩ := h' e x hx
  exact ⟨y, hy, gx.trans gy⟩

theorem enginesGrow_set {l : List Engine} {e : Nat} {eng : Engine} (he : l[e]? = some eng) (a : EngineAct) :
    EnginesGrow l (l.set e (eng.step a)) := by
  have hlen : e < l.length := (List.getElem?_eq_some_iff.1 he).1
  intro i x hx
  by_cases hi : i = e
  · subst hi
    rw [he] at hx
    cases hx
    exact ⟨_, List.getElem?_set_self hlen, records_step _ a⟩
  · exact ⟨x, by rw [List.getElem?_set_ne (fun h => hi h.symm)]; exact hx, .refl x⟩

theorem enginesGrow_append (l m : List Engine) : EnginesGrow l (l ++ m) := by
  intro i x hx
  exact ⟨x, by rw [List.getElem?_append_left (List.getElem?_eq_some_iff.1 hx).1]; exact hx, .refl x⟩

theorem register_sent (s : Engine) (source : Source) (events : List RegisterEvent) :
    (s.step (.register source events)).sent = s.sent := by
  simp only [Engine.step, Engine.register]
  split
  · exact (resolve_core _ _ _).1.sent
  · exact (put_core _ _).1.sent

namespace Station
open EvServer

/-- Only engines were called. -/
structure CallsOnly (s t : Station) : Prop where
  host : t.host = s.host
  clients : t.clients = s.clients
  read : t.read = s.read
  taken : t.taken = s.taken
  past : t.past = s.past
  engines : EnginesGrow s.engines t.engines
  length : t.engines.length = s.engines.length

theorem CallsOnly.refl (s : Station) : CallsOnly s s := ⟨rfl, rfl, rfl, rfl, rfl, .refl _, rfl⟩

theorem CallsOnly.trans {a b c : Station} (h : CallsOnly a b) (h' : CallsOnly b c) : CallsOnly a c :=
  ⟨h'.host.trans h.host, h'.clients.trans h.clients, h'.read.trans h.read, h'.taken.trans h.taken, h'.past.trans h.past,
    h.engines.trans h'.engines, h'.length.trans h.length⟩

theorem callsOnly_one (cf : StationConf) (s : Station) (x : HostEntry) : CallsOnly s (s.callEngine cf x) := by
  unfold callEngine
  split
  · next eng he => exact ⟨rfl, rfl, rfl, rfl, rfl, enginesGrow_set he _, by simp⟩
  · exact .refl s

theorem callsOnly_all (cf : StationConf) (s : Station) (l : List HostEntry) : CallsOnly s (l.foldl (callEngine cf) s) := by
  induction l generalizing s with
  | nil => exact .refl s
  | cons x l ih => exact (callsOnly_one cf s x).trans (ih _)

theorem waits_one (cf : StationConf) (s : Station) (x : HostEntry) {id : Nat} (h : x.conn ≠ id) :
    (s.callEngine cf x).waits id = s.waits id := by
  unfold callEngine
  split
  · exact if_neg fun e => h e.symm
  · rfl

theorem waits_all (cf : StationConf) (s : Station) (l : List HostEntry) {id : Nat} (h : ∀ x ∈ l, x.conn ≠ id) :
    (l.foldl (callEngine cf) s).waits id = s.waits id := by
  induction l generalizing s with
  | nil => rfl
  | cons x l ih =>
    exact (ih _ fun y hy => h y (List.mem_cons_of_mem _ hy)).trans (waits_one cf s x (h x List.mem_cons_self))

theorem hostStep_calls (cf : StationConf) (s : Station) (a : HostAct) :
    CallsOnly { s with host := s.host.step a } (s.hostStep cf a) := callsOnly_all cf _ _

/-! ### What a connection has to do with its client -/

/-- The messages of the client of a connection. -/
def asked (s : Station) (id : Nat) (m : ClientMsg) : Prop := ∃ c, s.clients id = some c ∧ m ∈ c.sent

/-- A call of `Engine.register` for a connection that has a result. -/
def Registered (s : Station) (id : Nat) (evs : List RegisterEvent) (es : List Event) : Prop :=
  (evs = [] ∧ es = []) ∨ ∃ (e k : Nat) (eng : Engine), s.engines[e]? = some eng ∧ eng.requests[k]? = some (⟨.eventer, id⟩, evs) ∧
    (k, EngineOutcome.result (some es)) ∈ eng.outcomes

/-- Responses have what the engine and the backend have returned. -/
def Fair (s : Station) (V : Nat → QueryParams → QueryResult → Prop) (id : Nat) : ClientMsg → Answer → Prop
  | .register _ evs _, .events (some es) => s.Registered id evs es
  | .register _ _ _, .events none => True
  | .query conv params, .result r => V conv params r
  | _, _ => False

/-- A connection that belongs to a client. -/
structure Linked (V : Nat → QueryParams → QueryResult → Prop) (id : Nat) (s : Station) : Prop where
  engine : ∀ e, s.host.engine = some e → e < s.engines.length
  conn : ConnOk (s.asked id) (s.Fair V id) (s.conn id)
  waits : ∀ info conv evs last, (s.conn id).phase = .busy info (.register conv evs last) → ∃ (e k : Nat) (eng : Engine), s.waits id = some (e, k) ∧
    s.engines[e]? = some eng ∧ eng.requests[k]? = some (⟨.eventer, id⟩, evs)
  client : ∀ c, s.clients id = some c → ReqClient.ConvsOk c ∧ ReqClient.Unmade c

theorem request_grows {eng eng' : Engine} (g : EngineGrows eng eng') {k : Nat} {x : Source × List RegisterEvent}
    (h : eng.requests[k]? = some x) : eng'.requests[k]? = some x := by
  obtain ⟨more, hm⟩ := g.requests
  rw [← hm, List.getElem?_append_left (List.getElem?_eq_some_iff.1 h).1]
  exact h

theorem Registered.grow {s t : Station} (g : EnginesGrow s.engines t.engines) {id : Nat} {evs : List RegisterEvent} {es : List Event}
    (h : s.Registered id evs es) : t.Registered id evs es := by
  rcases h with h | ⟨e, k, eng, h1, h2, h3⟩
  · exact .inl h
  · obtain ⟨eng', h4, h5⟩ := g e eng h1
    exact .inr ⟨e, k, eng', h4, request_grows h5 h2, h5.outcomes.subset h3⟩

theorem Fair.grow {s t : Station} (g : EnginesGrow s.engines t.engines) {V : Nat → QueryParams → QueryResult → Prop} {id : Nat}
    {m : ClientMsg} {x : Answer} (h : s.Fair V id m x) : t.Fair V id m x := by
  unfold Fair at h ⊢
  split at h
  · exact Registered.grow g h
  · trivial
  · exact h
  · exact h.elim

/-- Clients and engines go on, the eventer server does nothing. -/
theorem Linked.quiet {V : Nat → QueryParams → QueryResult → Prop} {id : Nat} {s t : Station} (h : Linked V id s)
    (h1 : t.host = s.host) (g : EnginesGrow s.engines t.engines) (hlen : s.engines.length ≤ t.engines.length) (hw : t.waits = s.waits)
    (ha : ∀ m, s.asked id m → t.asked id m)
    (hc : ∀ c, t.clients id = some c → ReqClient.ConvsOk c ∧ ReqClient.Unmade c) : Linked V id t := by
  have hconn : t.conn id = s.conn id := by unfold Station.conn; rw [h1]
  refine ⟨fun e he => ?_, ?_, fun info conv evs last hb => ?_, hc⟩
  · rw [h1] at he
    exact Nat.lt_of_lt_of_le (h.engine e he) hlen
  · rw [hconn]
    exact h.conn.mono ha fun m x _ hx => hx.grow g
  · rw [hconn] at hb
    obtain ⟨e, k, eng, w1, w2, w3⟩ := h.waits info conv evs last hb
    obtain ⟨eng', h4, h5⟩ := g e eng w2
    exact ⟨e, k, eng', by rw [hw]; exact w1, h4, request_grows h5 w3⟩

/-- The eventer server does something. -/
theorem Linked.acted {cf : StationConf} {V : Nat → QueryParams → QueryResult → Prop} {id : Nat} {s : Station} (h : Linked V id s) (a : HostAct)
    (hset : ∀ st e, a = .setStatus st (some e) → e < s.engines.length)
    (hrecv : ∀ m info, a = .receive id m → (s.conn id).phase = .ready info → s.asked id m)
    (hans : ∀ r, a = .answer id (.registered r) → ∃ call, s.waits id = some call ∧ s.outcome call = some (.result r))
    (hq : ∀ r info conv params, a = .queried id (some r) → (s.conn id).phase = .busy info (.query conv params) → V conv params r) :
    Linked V id (s.hostStep cf a) := by
  have hco := hostStep_calls cf s a
  have hlen : (s.hostStep cf a).engines.length = s.engines.length := hco.length
  have hgrow : EnginesGrow s.engines (s.hostStep cf a).engines := hco.engines
  have hhost : (s.hostStep cf a).host = s.host.step a := hco.host
  have hcl : (s.hostStep cf a).clients = s.clients := hco.clients
  have hasked : ∀ m, s.asked id m → (s.hostStep cf a).asked id m := by
    intro m hm; unfold asked; rw [hcl]; exact hm
  refine ⟨fun e he => ?_, ?_, fun info conv evs last hb => ?_, by rw [hcl]; exact h.client⟩
  · rw [hhost] at he
    rw [hlen]
    by_cases hs : ∃ st e, a = .setStatus st e
    · obtain ⟨st, e', rfl⟩ := hs
      have he' : (s.host.setStatus st e').engine = some e := he
      unfold Host.setStatus at he'
      split at he'
      · have : e' = some e := he'
        subst this
        exact hset st e rfl
      · exact h.engine e he'
    · rw [(Host.kept_step s.host a fun st e hh => hs ⟨st, e, hh⟩).1] at he
      exact h.engine e he
  · unfold Station.conn
    rw [hhost]
    refine (Host.connOk_host (asked := s.asked id) (good := s.Fair V id) h.conn (fun _ _ _ => trivial) (fun _ _ => .inl ⟨rfl, rfl⟩) hrecv ?_ ?_).mono
      hasked (fun m x _ hx => hx.grow hgrow)
    · intro r info conv evs last ha hb
      obtain ⟨call, h1, h2⟩ := hans r ha
      obtain ⟨e, k, eng, w1, w2, w3⟩ := h.waits info conv evs last hb
      rw [w1] at h1
      cases h1
      cases r with
      | none => trivial
      | some es =>
        refine .inr ⟨e, k, eng, w2, w3, ?_⟩
        unfold outcome at h2
        rw [w2] at h2
        obtain ⟨o, ho, ho'⟩ := Option.map_eq_some_iff.1 h2
        have hk := List.find?_some ho
        have hm := List.mem_of_find?_eq_some ho
        obtain ⟨k', o'⟩ := o
        have : k' = k := by simpa using hk
        subst this
        cases ho'
        exact hm
    · intro r info conv params ha hb
      exact hq r info conv params ha hb
  · unfold Station.conn at hb
    rw [hhost] at hb
    obtain ⟨new, hnew, hbeg⟩ := Host.begins_step s.host a id
    have hfold : s.hostStep cf a = new.foldl (callEngine cf) { s with host := s.host.step a } := by
      unfold hostStep
      rw [hnew, List.drop_left]
    rcases hbeg info _ hb with ⟨hb', hno⟩ | ⟨ha, hr, he⟩
    · obtain ⟨e, k, eng, w1, w2, w3⟩ := h.waits info conv evs last hb'
      obtain ⟨eng', h4, h5⟩ := hgrow e eng w2
      refine ⟨e, k, eng', ?_, h4, request_grows h5 w3⟩
      rw [hfold, waits_all cf _ _ hno]
      exact w1
    · obtain ⟨e, he, hn⟩ := he conv evs last rfl
      have hlt := h.engine e he
      have hget : s.engines[e]? = some s.engines[e] := List.getElem?_eq_getElem hlt
      rw [hfold, hn]
      refine ⟨e, s.engines[e].requests.length, s.engines[e].step (.register ⟨.eventer, id⟩ evs), ?_, ?_, ?_⟩
      · simp [callEngine, hget]
      · simp [callEngine, hget, HostCall.events, hlt]
      · rw [register_requests]
        simp

theorem clients_setClient (s : Station) (id : Nat) (f : ReqClient → ReqClient) (i : Nat) :
    (s.setClient id f).clients i = if i = id then (s.clients i).map f else s.clients i := rfl

/-- A client acts. -/
theorem Linked.client_acted {V : Nat → QueryParams → QueryResult → Prop} {id : Nat} {s t : Station} (h : Linked V id s) (i : Nat) (a : ReqAct)
    (h1 : t.host = s.host) (h2 : t.engines = s.engines) (h3 : t.waits = s.waits) (h4 : t.clients = (s.setClient i (·.step a)).clients) :
    Linked V id t := by
  refine h.quiet h1 (by rw [h2]; exact .refl _) (by rw [h2]) h3 ?_ ?_
  · rintro m ⟨c, hc, hm⟩
    unfold asked
    rw [h4, clients_setClient]
    split
    · exact ⟨c.step a, by rw [hc, Option.map_some], (ReqClient.sent_step c a).subset hm⟩
    · exact ⟨c, hc, hm⟩
  · intro c hc
    rw [h4, clients_setClient] at hc
    split at hc
    · obtain ⟨c0, hc0, rfl⟩ := Option.map_eq_some_iff.1 hc
      have := h.client c0 hc0
      exact ⟨ReqClient.convsOk_step a this.1, ReqClient.unmade_step a this.2⟩
    · exact h.client c hc

theorem linked_init (cf : StationConf) (past : List BackendOp) (V : Nat → QueryParams → QueryResult → Prop) (id : Nat) :
    Linked V id (init cf past) := by
  constructor
  · intro e he; cases he
  · exact ⟨fun info m hb => (nomatch hb), fun conv x hx => (nomatch hx)⟩
  · intro _ _ _ _ hb; cases hb
  · intro c hc; cases hc

theorem linked_step {cf : StationConf} {V : Nat → QueryParams → QueryResult → Prop} {id : Nat} (hid : cf.foreign id = false) {s : Station}
    (h : Linked V id s) (a : StationAct)
    (hq : a = .queried id → ∀ r info conv params, (s.conn id).phase = .busy info (.query conv params) →
      (s.backend cf).query params = .ok r → V conv params r) :
    Linked V id (s.step cf a) := by
  cases a with
  | host act =>
    simp only [step]
    split
    · next hp =>
      refine h.acted act (fun st e he => ?_) (fun m info he hr => ?_) (fun r he => ?_) (fun r info conv params he _ => ?_)
      · subst he; simpa [permits] using hp
      · subst he
        simp only [permits, hid, hr, Bool.false_or] at hp
        cases hp
      · subst he; simp [permits] at hp
      · subst he; simp [permits] at hp
    · exact h
  | arrive i =>
    simp only [step, arrive]
    split
    · next c hph hc =>
      split
      · next msg hm =>
        have := h.acted (cf := cf) (.receive i msg) (fun st e he => by cases he)
          (fun m info he hr => by cases he; exact ⟨c, hc, List.mem_of_getElem? hm⟩)
          (fun r he => by cases he) (fun r info conv params he _ => by cases he)
        exact this.quiet rfl (.refl _) (Nat.le_refl _) rfl (fun m hm => hm) this.client
      · exact h
    · exact h
  | connect i =>
    simp only [step, connect]
    split
    · next hf hn _ =>
      refine h.quiet rfl (.refl _) (Nat.le_refl _) rfl ?_ ?_
      · rintro m ⟨c, hc, hm⟩
        refine ⟨c, ?_, hm⟩
        show (if id = i then _ else s.clients id) = _
        rw [if_neg, hc]
        rintro rfl
        rw [hn] at hc
        cases hc
      · intro c hc
        have hc : (if id = i then some (ReqClient.init _) else s.clients id) = some c := hc
        split at hc
        · cases hc
          exact ⟨ReqClient.convsOk_run _ [], ReqClient.unmade_run _ []⟩
        · exact h.client c hc
    · exact h
  | client i act =>
    simp only [step]
    cases act with
    | receive m => exact h
    | _ => exact h.client_acted i _ rfl rfl rfl rfl
  | deliver i =>
    simp only [step, deliver]
    split
    · split
      · exact h.client_acted i _ rfl rfl rfl rfl
      · exact h
    · exact h
  | answered i =>
    simp only [step, answered]
    split
    · next call hw =>
      split
      · next o ho =>
        refine h.acted _ (fun st e he => by cases he) (fun m info he hr => by cases he) (fun r he => ?_) (fun r info conv params he _ => by cases he)
        injection he with hi he
        subst hi
        refine ⟨call, hw, ?_⟩
        rw [ho]
        cases o with
        | result events => cases he; rfl
        | closed => cases he
        | cancelled => cases he
      · exact h
    · exact h
  | queried i =>
    simp only [step, queried]
    split
    · next info0 conv0 params0 hb =>
      refine h.acted _ (fun st e he => by cases he) (fun m info he hr => by cases he) (fun r he => by cases he) (fun r info conv params he hb' => ?_)
      have hi : i = id := by injection he
      subst hi
      rw [hb] at hb'
      cases hb'
      refine hq rfl r _ _ _ hb ?_
      injection he with _ he
      split at he
      · next hok => cases he; exact hok
      · cases he
    · exact h
  | start modules =>
    simp only [step, start]
    have key : Linked V id (match (s.backend cf).getLastEventId cf.serverId with
        | .ok last => { s with engines := s.engines ++ [.create ⟨cf.serverId, modules, 1024⟩ last] }
        | .error _ => s) := by
      split
      · exact h.quiet rfl (enginesGrow_append _ _) (by simp) rfl (fun _ hm => hm) h.client
      · exact h
    split
    · exact key
    · exact key
    · exact h
  | engine e act =>
    simp only [step, engineStep]
    split
    · next eng he => exact h.quiet rfl (enginesGrow_set he act) (by simp) rfl (fun _ hm => hm) h.client
    · exact h
  | keep op =>
    cases op <;> exact h.quiet rfl (.refl _) (Nat.le_refl _) rfl (fun _ hm => hm) h.client
  | remote events => exact h.quiet rfl (.refl _) (Nat.le_refl _) rfl (fun _ hm => hm) h.client

/-! ### The database -/

theorem dataOk_call {cf : StationConf} {pre : List BackendOp} {s : Station} (h : DataOk cf pre s.engines s.past) (x : HostEntry)
    (hf : ClockForward cf.serverId pre s.past) : DataOk cf pre (s.callEngine cf x).engines s.past := by
  unfold callEngine
  split
  · next eng he =>
    have hnil : ((eng.step (.register ⟨.eventer, x.conn⟩ (x.call.events cf.serverId))).sent.drop eng.sent.length).map BackendOp.register = [] := by
      rw [register_sent, List.drop_length]; rfl
    have := h.acted he (.register ⟨.eventer, x.conn⟩ (x.call.events cf.serverId)) (by rw [hnil, List.append_nil]; exact hf)
    rw [hnil, List.append_nil] at this
    exact this
  · exact h

theorem dataOk_calls {cf : StationConf} {pre : List BackendOp} {s : Station} (h : DataOk cf pre s.engines s.past) (l : List HostEntry)
    (hf : ClockForward cf.serverId pre s.past) : DataOk cf pre (l.foldl (callEngine cf) s).engines s.past := by
  induction l generalizing s with
  | nil => exact h
  | cons x l ih =>
    have hp := (callsOnly_one cf s x).past
    have := ih (s := s.callEngine cf x) (by rw [hp]; exact dataOk_call h x hf) (by rw [hp]; exact hf)
    rw [hp] at this
    exact this

theorem dataOk_host {cf : StationConf} {pre : List BackendOp} {s : Station} (h : DataOk cf pre s.engines s.past) (a : HostAct)
    (hf : ClockForward cf.serverId pre s.past) : DataOk cf pre (s.hostStep cf a).engines (s.hostStep cf a).past := by
  rw [(hostStep_calls cf s a).past]
  exact dataOk_calls (s := { s with host := s.host.step a }) h _ hf

theorem past_hostStep (cf : StationConf) (s : Station) (a : HostAct) : (s.hostStep cf a).past = s.past := (hostStep_calls cf s a).past

theorem past_step (cf : StationConf) (s : Station) (a : StationAct) : s.past <+: (s.step cf a).past := by
  cases a with
  | host act =>
    simp only [step]
    split
    · exact (past_hostStep cf s _).symm ▸ List.prefix_rfl
    · exact List.prefix_rfl
  | arrive i =>
    simp only [step, arrive]
    split
    · split
      · show s.past <+: (s.hostStep cf _).past
        exact (past_hostStep cf s _).symm ▸ List.prefix_rfl
      · exact List.prefix_rfl
    · exact List.prefix_rfl
  | connect i => simp only [step, connect]; split <;> exact List.prefix_rfl
  | client i act => cases act <;> exact List.prefix_rfl
  | deliver i =>
    simp only [step, deliver]
    split
    · split <;> exact List.prefix_rfl
    · exact List.prefix_rfl
  | answered i =>
    simp only [step, answered]
    split
    · split
      · exact (past_hostStep cf s _).symm ▸ List.prefix_rfl
      · exact List.prefix_rfl
    · exact List.prefix_rfl
  | queried i =>
    simp only [step, queried]
    split
    · exact (past_hostStep cf s _).symm ▸ List.prefix_rfl
    · exact List.prefix_rfl
  | start modules =>
    simp only [step, start]
    split
    · split <;> exact List.prefix_rfl
    · split <;> exact List.prefix_rfl
    · exact List.prefix_rfl
  | engine e act =>
    simp only [step, engineStep]
    split
    · exact List.prefix_append _ _
    · exact List.prefix_rfl
  | keep op => cases op <;> first | exact List.prefix_rfl | exact List.prefix_append _ _
  | remote events => exact List.prefix_append _ _

theorem run_snoc (cf : StationConf) (s : Station) (acts : List StationAct) (a : StationAct) :
    s.run cf (acts ++ [a]) = (s.run cf acts).step cf a := by simp [run]

theorem run_append (cf : StationConf) (s : Station) (a b : List StationAct) : s.run cf (a ++ b) = (s.run cf a).run cf b := by simp [run]

theorem past_run (cf : StationConf) (s : Station) (acts : List StationAct) : s.past <+: (s.run cf acts).past := by
  induction acts using List.reverseRecOn with
  | nil => exact List.prefix_rfl
  | append_singleton acts a ih => rw [run_snoc]; exact ih.trans (past_step cf _ a)

theorem dataOk_step {cf : StationConf} {pre : List BackendOp} {s : Station} (h : DataOk cf pre s.engines s.past) (a : StationAct)
    (hf : ClockForward cf.serverId pre (s.step cf a).past) : DataOk cf pre (s.step cf a).engines (s.step cf a).past := by
  have hf0 : ClockForward cf.serverId pre s.past := by
    obtain ⟨more, hm⟩ := past_step cf s a
    rw [← hm] at hf
    exact ClockForward.prefix h.begun hf
  cases a with
  | host act =>
    simp only [step]
    split
    · exact dataOk_host h act hf0
    · exact h
  | arrive i =>
    simp only [step, arrive]
    split
    · split
      · exact dataOk_host h _ hf0
      · exact h
    · exact h
  | connect i => simp only [step, connect]; split <;> exact h
  | client i act => cases act <;> exact h
  | deliver i =>
    simp only [step, deliver]
    split
    · split <;> exact h
    · exact h
  | answered i =>
    simp only [step, answered]
    split
    · split
      · exact dataOk_host h _ hf0
      · exact h
    · exact h
  | queried i =>
    simp only [step, queried]
    split
    · exact dataOk_host h _ hf0
    · exact h
  | start modules =>
    simp only [step, start]
    have key : (∀ engine, s.engines.getLast? = some engine → engine.phase = .closed) → DataOk cf pre
        (match (s.backend cf).getLastEventId cf.serverId with
          | .ok last => { s with engines := s.engines ++ [Engine.create ⟨cf.serverId, modules, 1024⟩ last] }
          | .error _ => s).engines
        (match (s.backend cf).getLastEventId cf.serverId with
          | .ok last => { s with engines := s.engines ++ [Engine.create ⟨cf.serverId, modules, 1024⟩ last] }
          | .error _ => s).past := by
      intro hc
      split
      · next last hlast => exact h.started hc hlast modules
      · exact h
    split
    · next hn => exact key fun engine he => by rw [he] at hn; cases hn
    · next hn => exact key fun engine he => by rw [he] at hn; exact Option.some.inj hn
    · exact h
  | engine e act =>
    simp only [step, engineStep] at hf ⊢
    cases he : s.engines[e]? with
    | none => simpa only [he] using h
    | some eng =>
      simp only [he] at hf ⊢
      exact h.acted he act hf
  | keep op =>
    cases op with
    | register es => exact h
    | reopen c => exact h
    | _ => exact h.kept _ (fun c => nofun) rfl
  | remote events =>
    refine h.kept _ (fun c => nofun) ?_
    simp [offeredBy]

theorem dataOk_run {cf : StationConf} {pre : List BackendOp} (hl : LookupLaws pre) (acts : List StationAct)
    (hf : ClockForward cf.serverId pre ((init cf pre).run cf acts).past) :
    DataOk cf pre ((init cf pre).run cf acts).engines ((init cf pre).run cf acts).past := by
  induction acts using List.reverseRecOn with
  | nil => exact dataOk_init cf pre hl
  | append_singleton acts a ih =>
    rw [run_snoc] at hf ⊢
    refine dataOk_step (ih ?_) a hf
    obtain ⟨more, hm⟩ := past_step cf ((init cf pre).run cf acts) a
    rw [← hm] at hf
    exact ClockForward.prefix (past_run cf (init cf pre) acts) hf

/-! ### The calls of a client -/

theorem answers_host (s : Host) (a : HostAct) (id : Nat) :
    answersOf (s.server.conns id).sent ⊆ answersOf ((s.step a).server.conns id).sent := by
  obtain ⟨acts, h⟩ : ∃ acts, (s.step a).server = s.server.run acts := by
    obtain ⟨acts, h, _⟩ := Host.reach_step s a
    exact ⟨acts, h⟩
  rw [h]
  generalize s.server = t
  clear h
  induction acts using List.reverseRecOn with
  | nil => exact List.Subset.refl _
  | append_singleton acts a ih =>
    rw [EvServer.run_snoc]
    have hch := change_step (t.run acts) a id
    refine List.Subset.trans ih ?_
    generalize ((t.run acts).step a).conns id = c at hch
    cases hch with
    | same _ _ h1 h2 => rw [h1]; exact List.Subset.refl _
    | handle msg _ h0 h1 h2 => rw [h1]; exact List.Subset.refl _
    | answer result _ info msg conv' x' h1 h2 h3 h6 h4 h5 => rw [h4]; exact List.subset_append_left _ _

/-- The life of a call that was handed over with a conversation, with the responses of the server. -/
def Lives (conv : Nat) (answers : List (Nat × Answer)) (p : CallPhase) : Prop :=
  (∃ w, p = .sending conv w) ∨ p = .waiting conv ∨
    ∃ e, (p = .resolved conv e ∨ p = .finished e) ∧ ∀ x, e = .answered x → (conv, x) ∈ answers

theorem Lives.mono {conv : Nat} {l l' : List (Nat × Answer)} {p : CallPhase} (h : Lives conv l p) (hl : l ⊆ l') : Lives conv l' p := by
  rcases h with h | h | ⟨e, h1, h2⟩
  · exact .inl h
  · exact .inr (.inl h)
  · exact .inr (.inr ⟨e, h1, fun x hx => hl (h2 x hx)⟩)

theorem lives_step {c : ReqClient} {a : ReqAct} {conv k : Nat} {l : List (Nat × Answer)} (hk : k < c.nextCall) (h : Lives conv l (c.calls k))
    (hl : ∀ x, a = .receive (.answer conv x) → (conv, x) ∈ l) : Lives conv l ((c.step a).calls k) := by
  have hm := ReqClient.moves_step c a k
  generalize hp : (c.step a).calls k = p at hm
  cases hm with
  | stay => exact h
  | made _ hn _ _ _ _ => omega
  | wait v h' =>
    rw [h'] at h
    rcases h with ⟨w, h⟩ | h | ⟨e, h | h, _⟩ <;> cases h
    exact .inr (.inl rfl)
  | fail v h' => exact .inr (.inr ⟨_, .inr rfl, by simp⟩)
  | sent v h' => exact .inr (.inr ⟨_, .inr rfl, by simp⟩)
  | resume v e h' =>
    rw [h'] at h
    rcases h with ⟨w, h⟩ | h | ⟨e, h | h, h2⟩ <;> cases h
    exact .inr (.inr ⟨_, .inr rfl, h2⟩)
  | cancel h1 h2 => exact .inr (.inr ⟨_, .inr rfl, by simp⟩)
  | answer v x h' =>
    rw [h'] at h
    rcases h with ⟨w, h⟩ | h | ⟨e, h | h, h2⟩ <;> cases h
    refine .inr (.inr ⟨_, .inl rfl, fun y hy => ?_⟩)
    cases hy
    exact hl x rfl
  | close _ v h' =>
    rw [h'] at h
    rcases h with ⟨w, h⟩ | h | ⟨e, h | h, h2⟩ <;> cases h
    exact .inr (.inr ⟨_, .inl rfl, by simp⟩)

/-- A call of a client of the server. -/
def Follows (id k conv : Nat) (s : Station) : Prop :=
  ∃ c, s.clients id = some c ∧ k < c.nextCall ∧ Lives conv (answersOf (s.conn id).sent) (c.calls k)

theorem follows_host {cf : StationConf} {id k conv : Nat} {s : Station} (h : Follows id k conv s) (a : HostAct) :
    Follows id k conv (s.hostStep cf a) := by
  obtain ⟨c, h1, h2, h3⟩ := h
  refine ⟨c, by rw [(hostStep_calls cf s a).clients]; exact h1, h2, h3.mono ?_⟩
  unfold Station.conn
  rw [(hostStep_calls cf s a).host]
  exact answers_host s.host a id

theorem follows_client {id k conv : Nat} {s t : Station} (h : Follows id k conv s) (i : Nat) (a : ReqAct) (h1 : t.host = s.host)
    (h2 : t.clients = (s.setClient i (·.step a)).clients)
    (hl : i = id → ∀ x, a = .receive (.answer conv x) → (conv, x) ∈ answersOf (s.conn id).sent) : Follows id k conv t := by
  obtain ⟨c, c1, c2, c3⟩ := h
  have hconn : t.conn id = s.conn id := by unfold Station.conn; rw [h1]
  unfold Follows
  rw [h2, clients_setClient, hconn]
  split
  · next hi =>
    exact ⟨c.step a, by rw [c1, Option.map_some], Nat.lt_of_lt_of_le c2 (ReqClient.next_step c a).1, lives_step c2 c3 (hl hi.symm)⟩
  · exact ⟨c, c1, c2, c3⟩

theorem follows_step {cf : StationConf} {id k conv : Nat} {s : Station} (h : Follows id k conv s) (a : StationAct) :
    Follows id k conv (s.step cf a) := by
  cases a with
  | host act =>
    simp only [step]
    split
    · exact follows_host h act
    · exact h
  | arrive i =>
    simp only [step, arrive]
    split
    · split
      · exact follows_host h _
      · exact h
    · exact h
  | connect i =>
    simp only [step, connect]
    split
    · next hf hn _ =>
      obtain ⟨c, c1, c2, c3⟩ := h
      refine ⟨c, ?_, c2, c3⟩
      show (if id = i then _ else s.clients id) = _
      rw [if_neg, c1]
      rintro rfl
      rw [hn] at c1
      cases c1
    · exact h
  | client i act =>
    simp only [step]
    cases act with
    | receive m => exact h
    | _ => exact follows_client h i _ rfl rfl fun _ x hx => by cases hx
  | deliver i =>
    simp only [step, deliver]
    split
    · next c msg hc hm =>
      split
      · refine follows_client h i _ rfl rfl fun hi x hx => ?_
        subst hi
        injection hx with hx
        have hmem := List.mem_of_getElem? hm
        refine List.mem_filterMap.2 ⟨msg, hmem, ?_⟩
        cases msg <;> first | (cases hx; rfl) | cases hx
      · exact h
    · exact h
  | answered i =>
    simp only [step, answered]
    split
    · split
      · exact follows_host h _
      · exact h
    · exact h
  | queried i =>
    simp only [step, queried]
    split
    · exact follows_host h _
    · exact h
  | start modules =>
    simp only [step, start]
    split
    · split <;> exact h
    · split <;> exact h
    · exact h
  | engine e act =>
    simp only [step, engineStep]
    split <;> exact h
  | keep op => cases op <;> exact h
  | remote events => exact h

theorem follows_run {cf : StationConf} {id k conv : Nat} {s : Station} (h : Follows id k conv s) (acts : List StationAct) :
    Follows id k conv (s.run cf acts) := by
  induction acts using List.reverseRecOn with
  | nil => exact h
  | append_singleton acts a ih => rw [run_snoc]; exact follows_step ih a

end Station
end HatEvent
