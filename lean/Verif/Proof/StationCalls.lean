import Verif.Proof.StationRun

/-!
# Answered calls of the clients of an event server
-/

namespace HatEvent
open Spec

namespace Station
open EvServer

/-- The backend keeps its configuration in a process. -/
theorem backend_conf_step (cf : StationConf) (s : Station) (a : StationAct) : ((s.step cf a).backend cf).conf = (s.backend cf).conf := by
  have hop : ∀ (b : Backend) (op : BackendOp), (∀ c, op ≠ .reopen c) → (b.step op).conf = b.conf := by
    intro b op hno
    cases op with
    | reopen c => exact absurd rfl (hno c)
    | _ => simp only [Backend.step]; repeat' split
           all_goals rfl
  have hops : ∀ (ops : List BackendOp) (b : Backend), (∀ op ∈ ops, ∀ c, op ≠ .reopen c) → (b.run ops).conf = b.conf := by
    intro ops
    induction ops with
    | nil => intro b _; rfl
    | cons op ops ih =>
      intro b hno
      exact (ih (b.step op) fun o ho => hno o (List.mem_cons_of_mem _ ho)).trans (hop b op (hno op List.mem_cons_self))
  have hmore : ∀ more, (∀ op ∈ more, ∀ c, op ≠ BackendOp.reopen c) →
      ((Backend.new cf.db).run (s.past ++ more)).conf = (s.backend cf).conf := by
    intro more hno
    have : (Backend.new cf.db).run (s.past ++ more) = (s.backend cf).run more := by simp [Backend.run, backend]
    rw [this]
    exact hops more _ hno
  have hsame : ∀ t : Station, t.past = s.past → (t.backend cf).conf = (s.backend cf).conf := by
    intro t ht; unfold backend; rw [ht]
  cases a with
  | host act =>
    simp only [step]
    split
    · exact hsame _ (past_hostStep cf s _)
    · rfl
  | arrive i =>
    simp only [step, arrive]
    split
    · split
      · exact hsame _ (past_hostStep cf s _)
      · rfl
    · rfl
  | connect i => simp only [step, connect]; split <;> rfl
  | client i act => cases act <;> rfl
  | deliver i =>
    simp only [step, deliver]
    split
    · split <;> rfl
    · rfl
  | answered i =>
    simp only [step, answered]
    split
    · split
      · exact hsame _ (past_hostStep cf s _)
      · rfl
    · rfl
  | queried i =>
    simp only [step, queried]
    split
    · exact hsame _ (past_hostStep cf s _)
    · rfl
  | start modules =>
    simp only [step, start]
    split
    · split <;> rfl
    · split <;> rfl
    · rfl
  | engine e act =>
    simp only [step, engineStep]
    split
    · refine hmore _ fun op hop c hc => ?_
      obtain ⟨es, _, rfl⟩ := List.mem_map.1 hop
      cases hc
    · rfl
  | keep op =>
    cases op with
    | register es => rfl
    | reopen c => rfl
    | _ => exact hmore _ fun o ho c hc => by rw [List.mem_singleton.1 ho] at hc; cases hc
  | remote events => exact hmore _ fun o ho c hc => by rw [List.mem_singleton.1 ho] at hc; cases hc

theorem backend_conf (cf : StationConf) (s : Station) (acts : List StationAct) : ((s.run cf acts).backend cf).conf = (s.backend cf).conf := by
  induction acts using List.reverseRecOn with
  | nil => rfl
  | append_singleton acts a ih => rw [run_snoc, backend_conf_step, ih]

theorem linked_run {cf : StationConf} {V : Nat → QueryParams → QueryResult → Prop} {id : Nat} (hid : cf.foreign id = false) {s : Station}
    (h : Linked V id s) (acts : List StationAct)
    (hq : ∀ before more conv params r, acts = before ++ more → ((s.run cf before).backend cf).query params = .ok r → V conv params r) :
    Linked V id (s.run cf acts) := by
  induction acts using List.reverseRecOn with
  | nil => exact h
  | append_singleton acts a ih =>
    rw [run_snoc]
    refine linked_step hid (ih fun before more conv params r he => ?_) a fun _ r info conv params _ hr => hq acts [a] conv params r rfl hr
    exact hq before (more ++ [a]) conv params r (by rw [he, List.append_assoc])

theorem asksFor_request {m : ClientMsg} {conv : Nat} (h : asksFor m = some conv) : requestConv m = some conv := by
  cases m with
  | register c evs last =>
    cases last with
    | true => cases h
    | false => exact h
  | query c p => exact h
  | _ => cases h

theorem asked_step {cf : StationConf} {id : Nat} {m : ClientMsg} {s : Station} (h : s.asked id m) (a : StationAct) :
    (s.step cf a).asked id m := by
  have hhost : ∀ act, (s.hostStep cf act).asked id m := by
    intro act
    unfold asked
    rw [(hostStep_calls cf s act).clients]
    exact h
  have hset : ∀ i act, (s.setClient i (·.step act)).asked id m := by
    intro i act
    obtain ⟨c, hc, hm⟩ := h
    unfold asked
    rw [clients_setClient]
    split
    · exact ⟨c.step act, by rw [hc, Option.map_some], (ReqClient.sent_step c act).subset hm⟩
    · exact ⟨c, hc, hm⟩
  cases a with
  | host act =>
    simp only [step]
    split
    · exact hhost act
    · exact h
  | arrive i =>
    simp only [step, arrive]
    split
    · split
      · exact hhost _
      · exact h
    · exact h
  | connect i =>
    simp only [step, connect]
    split
    · next hf hn _ =>
      obtain ⟨c, hc, hm⟩ := h
      refine ⟨c, ?_, hm⟩
      show (if id = i then _ else s.clients id) = _
      rw [if_neg, hc]
      rintro rfl
      rw [hn] at hc
      cases hc
    · exact h
  | client i act =>
    cases act with
    | receive m => exact h
    | _ => exact hset i _
  | deliver i =>
    simp only [step, deliver]
    split
    · split
      · exact hset i _
      · exact h
    · exact h
  | answered i =>
    simp only [step, answered]
    split
    · split
      · exact hhost _
      · exact h
    · exact h
  | queried i =>
    simp only [step, queried]
    split
    · exact hhost _
    · exact h
  | start modules =>
    simp only [step, start]
    split
    · split <;> exact h
    · split <;> exact h
    · exact h
  | engine e act =>
    simp only [step, engineStep]
    split <;> exact h
  | keep op => cases op <;> exact h
  | remote events => exact h

theorem asked_run {cf : StationConf} {id : Nat} {m : ClientMsg} {s : Station} (h : s.asked id m) (acts : List StationAct) :
    (s.run cf acts).asked id m := by
  induction acts using List.reverseRecOn with
  | nil => exact h
  | append_singleton acts a ih => rw [run_snoc]; exact asked_step ih a

/-- A call of a client that is answered: its request is the one the response was made for. -/
theorem answered_call {cf : StationConf} {V : Nat → QueryParams → QueryResult → Prop} {id : Nat} {s : Station} {c : ReqClient}
    (hc : s.clients id = some c) {act : ReqAct} {req : Nat → ClientMsg} (hact : c.step act = c.request req true) (hnr : ∀ m, act ≠ .receive m)
    (hreq : ∀ conv, asksFor (req conv) = some conv) (acts : List StationAct)
    (hl : Linked V id ((s.step cf (.client id act)).run cf acts)) {c' : ReqClient}
    (hc' : ((s.step cf (.client id act)).run cf acts).clients id = some c') {x : Answer} (hx : c'.calls c.nextCall = .finished (.answered x)) :
    ((s.step cf (.client id act)).run cf acts).Fair V id (req c.nextConv) x := by
  have hstep : (s.step cf (.client id act)).clients id = some (c.request req true) := by
    have : s.step cf (.client id act) = s.setClient id (·.step act) := by
      cases act with
      | receive m => exact absurd rfl (hnr m)
      | _ => rfl
    rw [this, clients_setClient, if_pos rfl, hc, Option.map_some, hact]
  -- the response is there
  have hget : ∀ conv, Follows id c.nextCall conv (s.step cf (.client id act)) →
      ∃ m ∈ c'.sent, asksFor m = some conv ∧ ((s.step cf (.client id act)).run cf acts).Fair V id m x := by
    intro conv hf
    obtain ⟨c1, h1, _, h3⟩ := follows_run (cf := cf) hf acts
    rw [hc'] at h1
    cases h1
    have hin : (conv, x) ∈ answersOf (((s.step cf (.client id act)).run cf acts).conn id).sent := by
      rw [hx] at h3
      rcases h3 with ⟨w, h⟩ | h | ⟨e, h | h, h2⟩
      · cases h
      · cases h
      · cases h
      · cases h; exact h2 x rfl
    obtain ⟨m, ⟨c2, m1, m2⟩, m3, m4⟩ := hl.conn.answers conv x hin
    rw [hc'] at m1
    cases m1
    exact ⟨m, m2, m3, m4⟩
  have hok := (hl.client c' hc').1
  by_cases ho : c.isOpen = true
  · have hr : c.request req true = { c.setCall c.nextCall (.sending c.nextConv true) with
        nextCall := c.nextCall + 1, nextConv := c.nextConv + 1, sent := c.sent ++ [req c.nextConv] } := by
      unfold ReqClient.request; rw [if_pos ho]
    rw [hr] at hstep
    obtain ⟨m, m1, m2, m3⟩ := hget c.nextConv ⟨_, hstep, Nat.lt_succ_self _, .inl ⟨true, by simp [ReqClient.setCall]⟩⟩
    obtain ⟨c2, a1, a2⟩ := asked_run (cf := cf) (m := req c.nextConv) ⟨_, hstep, by simp⟩ acts
    rw [hc'] at a1
    cases a1
    have := nodup_filterMap_inj hok.1 m1 a2 (asksFor_request m2) (asksFor_request (hreq _))
    rw [← this]
    exact m3
  · have hr : c.request req true = { c.setCall c.nextCall (.finished .connectionError) with nextCall := c.nextCall + 1 } := by
      unfold ReqClient.request; rw [if_neg ho]
    rw [hr] at hstep
    obtain ⟨m, m1, m2, m3⟩ := hget c'.nextConv ⟨_, hstep, Nat.lt_succ_self _, .inr (.inr ⟨.connectionError, .inr (by simp [ReqClient.setCall]), by simp⟩)⟩
    exact absurd (hok.2 m m1 _ (asksFor_request m2)) (Nat.lt_irrefl _)

/-! ### Engines of a server -/

/-- The engines were created after the last event id of the database. -/
structure MadeOk (cf : StationConf) (s : Station) : Prop where
  laws : LookupLaws s.past
  made : ∀ engine ∈ s.engines, ∃ last, EngineFrom cf engine last

theorem MadeOk.stepped {cf : StationConf} {s : Station} (h : MadeOk cf s) {e : Nat} {engine : Engine} (he : s.engines[e]? = some engine)
    (a : EngineAct) : ∀ x ∈ s.engines.set e (engine.step a), ∃ last, EngineFrom cf x last := by
  intro x hx
  rcases mem_set_engine hx with hx | rfl
  · exact h.made x hx
  · obtain ⟨last, hl⟩ := h.made engine (List.mem_of_getElem? he)
    exact ⟨last, hl.step a⟩

theorem MadeOk.host {cf : StationConf} {s : Station} (h : MadeOk cf s) (a : HostAct) : MadeOk cf (s.hostStep cf a) := by
  have key : ∀ (l : List HostEntry) (t : Station), MadeOk cf t → MadeOk cf (l.foldl (callEngine cf) t) := by
    intro l
    induction l with
    | nil => intro t ht; exact ht
    | cons x l ih =>
      intro t ht
      refine ih _ ?_
      unfold callEngine
      split
      · next eng he => exact ⟨ht.laws, ht.stepped he _⟩
      · exact ht
  exact key _ _ ⟨h.laws, h.made⟩

theorem madeOk_step {cf : StationConf} {s : Station} (h : MadeOk cf s) (a : StationAct) : MadeOk cf (s.step cf a) := by
  have hmore : ∀ more, (∀ op ∈ more, ∀ c, op ≠ BackendOp.reopen c) → LookupLaws (s.past ++ more) := by
    intro more hno c hc
    rcases List.mem_append.1 hc with hc | hc
    · exact h.laws c hc
    · exact absurd rfl (hno _ hc c)
  cases a with
  | host act =>
    simp only [step]
    split
    · exact h.host act
    · exact h
  | arrive i =>
    simp only [step, arrive]
    split
    · split
      · exact ⟨(h.host _).laws, (h.host _).made⟩
      · exact h
    · exact h
  | connect i =>
    simp only [step, connect]
    split
    · exact ⟨h.laws, h.made⟩
    · exact h
  | client i act => cases act <;> exact ⟨h.laws, h.made⟩
  | deliver i =>
    simp only [step, deliver]
    split
    · split
      · exact ⟨h.laws, h.made⟩
      · exact h
    · exact h
  | answered i =>
    simp only [step, answered]
    split
    · split
      · exact h.host _
      · exact h
    · exact h
  | queried i =>
    simp only [step, queried]
    split
    · exact h.host _
    · exact h
  | start modules =>
    simp only [step, start]
    have key : MadeOk cf (match (s.backend cf).getLastEventId cf.serverId with
        | .ok last => { s with engines := s.engines ++ [.create ⟨cf.serverId, modules, 1024⟩ last] }
        | .error _ => s) := by
      split
      · next last hlast =>
        refine ⟨h.laws, fun x hx => ?_⟩
        rcases List.mem_append.1 hx with hx | hx
        · exact h.made x hx
        · obtain rfl := List.mem_singleton.1 hx
          obtain ⟨w, hw⟩ := reached cf.db s.past h.laws
          obtain ⟨h1, h2, _⟩ := last_from hw hlast
          exact ⟨last, modules, [], rfl, h1, h2⟩
      · exact h
    split
    · exact key
    · exact key
    · exact h
  | engine e act =>
    simp only [step, engineStep]
    split
    · next eng he =>
      refine ⟨hmore _ fun op hop c hc => ?_, h.stepped he act⟩
      obtain ⟨es, _, rfl⟩ := List.mem_map.1 hop
      cases hc
    · exact h
  | keep op =>
    cases op with
    | register es => exact h
    | reopen c => exact h
    | _ => exact ⟨hmore _ (fun o ho c hc => by rw [List.mem_singleton.1 ho] at hc; cases hc), h.made⟩
  | remote events => exact ⟨hmore _ (fun o ho c hc => by rw [List.mem_singleton.1 ho] at hc; cases hc), h.made⟩

theorem madeOk_run {cf : StationConf} {s : Station} (h : MadeOk cf s) (acts : List StationAct) : MadeOk cf (s.run cf acts) := by
  induction acts using List.reverseRecOn with
  | nil => exact h
  | append_singleton acts a ih => rw [run_snoc]; exact madeOk_step ih a

/-- The result of a call of `Engine.register` and the register events of the call. -/
theorem registered_made {cf : StationConf} {s : Station} (h : MadeOk cf s) {id : Nat} {evs : List RegisterEvent} {es : List Event}
    (hr : s.Registered id evs es) : es.length = evs.length ∧
      ∀ (j : Nat) (x : Event) (r : RegisterEvent), es[j]? = some x → evs[j]? = some r → MadeFrom cf.serverId x r := by
  rcases hr with ⟨rfl, rfl⟩ | ⟨e, k, eng, h1, h2, h3⟩
  · simp
  · obtain ⟨last, modules, acts, rfl, hs, _⟩ := h.made eng (List.mem_of_getElem? h1)
    obtain ⟨src, evs', h4, h5, h6⟩ := C19_result _ last acts k es h3
    rw [h2] at h4
    cases h4
    refine ⟨h5, fun j x r hx hr => ⟨?_, h6 j x r hx hr⟩⟩
    have hsub := (List.sublist_append_left _ _).trans (listed_run ⟨cf.serverId, modules, 1024⟩ last acts)
    have hin : x ∈ ((Engine.create ⟨cf.serverId, modules, 1024⟩ last).run acts).sent.flatten := by
      rcases C19_registered _ last acts k es h3 with rfl | ⟨l, hl, hp⟩
      · cases hx
      · exact List.mem_flatten.2 ⟨l, hl, hp.subset (List.mem_of_getElem? hx)⟩
    rw [(ids_run _ last acts).servers x (hsub.subset hin), hs]

/-- The result of a call of `Engine.register` was passed to the backend. -/
theorem registered_offered {cf : StationConf} {pre : List BackendOp} {s : Station} (h : DataOk cf pre s.engines s.past) {id : Nat}
    {evs : List RegisterEvent} {es : List Event} (hr : s.Registered id evs es) :
    ∀ x ∈ es, x ∈ offeredBy cf.serverId (s.past.drop pre.length) := by
  rcases hr with ⟨rfl, rfl⟩ | ⟨e, k, eng, h1, h2, h3⟩
  · simp
  · obtain ⟨last, modules, acts, rfl, hs, _⟩ := h.made e eng h1
    intro x hx
    refine h.passed _ (List.mem_of_getElem? h1) x ?_
    rcases C19_registered _ last acts k es h3 with rfl | ⟨l, hl, hp⟩
    · cases hx
    · exact List.mem_flatten.2 ⟨l, hl, hp.subset hx⟩

theorem linked_any {cf : StationConf} {pre : List BackendOp} {id : Nat} (hid : cf.foreign id = false) (acts : List StationAct) :
    Linked (fun _ _ _ => True) id ((init cf pre).run cf acts) :=
  linked_run hid (linked_init cf pre _ id) acts fun _ _ _ _ _ _ _ => trivial

end Station
end HatEvent
