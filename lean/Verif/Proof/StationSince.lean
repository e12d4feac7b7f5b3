import Verif.Proof.RelayClient

/-!
# Answered registrations were passed to the backend after the call
-/

namespace HatEvent
open Spec EvServer

namespace Station

/-- An event was passed to the backend after its first `n` operations. -/
def PassedSince (n : Nat) (past : List BackendOp) (x : Event) : Prop := ∃ l, .register l ∈ past.drop n ∧ x ∈ l

theorem PassedSince.more {n : Nat} {past past' : List BackendOp} {x : Event} (h : PassedSince n past x) (hp : past <+: past') : PassedSince n past' x := by
  obtain ⟨l, hl, hx⟩ := h
  obtain ⟨more, rfl⟩ := hp
  exact ⟨l, by rw [List.drop_append]; exact List.mem_append_left _ hl, hx⟩

/-- What has been passed to the backend when a registration of connection `a` with a conversation is answered; `base` are the calls of `Engine.register`
there were before and `n` the operations of the backend. -/
structure Since (a conv : Nat) (base : Nat → Nat) (n : Nat) (s : Station) : Prop where
  long : n ≤ s.past.length
  grown : ∀ (e : Nat) (eng : Engine), s.engines[e]? = some eng → base e ≤ eng.requests.length
  wait : ∀ i evs last, (s.conn a).phase = .busy i (.register conv evs last) → ∃ e k, s.waits a = some (e, k) ∧ base e ≤ k
  passed : ∀ (e k : Nat) (eng : Engine) (r : EngineRequest) (evs : List Event), s.engines[e]? = some eng → eng.phase = .registering r evs →
    r.future = some k → base e ≤ k → .register evs ∈ s.past.drop n
  done : ∀ (e k : Nat) (eng : Engine) (es : List Event), s.engines[e]? = some eng → (k, EngineOutcome.result (some es)) ∈ eng.outcomes → base e ≤ k →
    ∀ x ∈ es, PassedSince n s.past x
  answers : ∀ es, (conv, Answer.events (some es)) ∈ answersOf (s.conn a).sent → ∀ x ∈ es, PassedSince n s.past x

variable {a conv n : Nat} {base : Nat → Nat}

theorem Since.quiet {s t : Station} (h : Since a conv base n s) (h1 : t.host = s.host) (h2 : t.waits = s.waits) (hp : s.past <+: t.past)
    (h3 : ∀ (e : Nat) (eng : Engine), t.engines[e]? = some eng → s.engines[e]? = some eng ∨
      (base e ≤ eng.requests.length ∧ (∀ r evs, eng.phase ≠ .registering r evs) ∧ eng.outcomes = [])) : Since a conv base n t := by
  have hc : ∀ i, t.conn i = s.conn i := by intro i; unfold Station.conn; rw [h1]
  refine ⟨Nat.le_trans h.long hp.length_le, ?_, ?_, ?_, ?_, ?_⟩
  · intro e eng he
    rcases h3 e eng he with he | ⟨hb, _, _⟩
    · exact h.grown e eng he
    · exact hb
  · intro i evs last hb
    rw [hc] at hb
    rw [h2]
    exact h.wait i evs last hb
  · intro e k eng r evs he hph hf hb
    rcases h3 e eng he with he | ⟨_, hn, _⟩
    · obtain ⟨more, hm⟩ := hp
      rw [← hm, List.drop_append]
      exact List.mem_append_left _ (h.passed e k eng r evs he hph hf hb)
    · exact absurd hph (hn r evs)
  · intro e k eng es he ho hb x hx
    rcases h3 e eng he with he | ⟨_, _, hn⟩
    · exact (h.done e k eng es he ho hb x hx).more hp
    · rw [hn] at ho; cases ho
  · intro es hs x hx
    rw [hc] at hs
    exact (h.answers es hs x hx).more hp

/-- The eventer server does something. -/
theorem Since.acted {cf : StationConf} {V : Nat → QueryParams → QueryResult → Prop} {s : Station}
    (h : Since a conv base n s) (hl : Linked V a s) (act : HostAct)
    (hans : ∀ r, act = .answer a (.registered r) → ∃ call, s.waits a = some call ∧ s.outcome call = some (.result r)) :
    Since a conv base n (s.hostStep cf act) := by
  have hco := hostStep_calls cf s act
  have hhost : (s.hostStep cf act).host = s.host.step act := hco.host
  have hpast : (s.hostStep cf act).past = s.past := hco.past
  have hconn : ∀ i, (s.hostStep cf act).conn i = (s.host.step act).server.conns i := by intro i; unfold Station.conn; rw [hhost]
  refine ⟨by rw [hpast]; exact h.long, ?_, ?_, ?_, ?_, ?_⟩
  · intro e eng' he
    obtain ⟨eng, he', c⟩ := called_host cf s act he
    exact Nat.le_trans (h.grown e eng he') c.requests
  · intro i evs last hb
    rw [hconn] at hb
    obtain ⟨new, hnew, hbeg⟩ := Host.begins_step s.host act a
    have hfold : s.hostStep cf act = new.foldl (callEngine cf) { s with host := s.host.step act } := by
      unfold hostStep
      rw [hnew, List.drop_left]
    rcases hbeg i _ hb with ⟨hb', hno⟩ | ⟨ha, hr, he⟩
    · obtain ⟨e, k, w1, w2⟩ := h.wait i evs last hb'
      refine ⟨e, k, ?_, w2⟩
      rw [hfold, waits_all cf _ _ hno]
      exact w1
    · obtain ⟨e, he, hn⟩ := he conv evs last rfl
      have hlt := hl.engine e he
      have hget : s.engines[e]? = some s.engines[e] := List.getElem?_eq_getElem hlt
      rw [hfold, hn]
      exact ⟨e, s.engines[e].requests.length, by simp [callEngine, hget], h.grown e _ hget⟩
  · intro e k eng' r evs he hp hf hb
    obtain ⟨eng, he', c⟩ := called_host cf s act he
    rw [c.phase] at hp
    rw [hpast]
    exact h.passed e k eng r evs he' hp hf hb
  · intro e k eng' es he ho hb x hx
    obtain ⟨eng, he', c⟩ := called_host cf s act he
    rw [hpast]
    rcases c.outcomes k es ho with ho | rfl
    · exact h.done e k eng es he' ho hb x hx
    · cases hx
  · intro es hin x hx
    rw [hconn] at hin
    rw [hpast]
    rcases answer_new hin with hnew | rfl | ⟨hact, i, evs, last, hb⟩
    · exact h.answers es hnew x hx
    · cases hx
    · obtain ⟨call, hw, ho⟩ := hans _ hact
      obtain ⟨e, k, w1, w2⟩ := h.wait i evs last hb
      rw [hw] at w1
      cases w1
      unfold outcome at ho
      split at ho
      · next eng heng =>
        obtain ⟨o, ho1, ho2⟩ := Option.map_eq_some_iff.1 ho
        have hk := List.find?_some ho1
        have hmem := List.mem_of_find?_eq_some ho1
        obtain ⟨k', o'⟩ := o
        have : k' = k := by simpa using hk
        subst this
        cases ho2
        exact h.done e k' eng es heng hmem w2 x hx
      · cases ho

/-- An engine does something. -/
theorem Since.engine {s : Station} (h : Since a conv base n s) (e : Nat) (act : EngineAct) : Since a conv base n (s.engineStep e act) := by
  cases he : s.engines[e]? with
  | none =>
    have : s.engineStep e act = s := by unfold engineStep; rw [he]
    rw [this]
    exact h
  | some eng =>
    have hlt : e < s.engines.length := (List.getElem?_eq_some_iff.1 he).1
    have hst : s.engineStep e act = { s with
        engines := s.engines.set e (eng.step act)
        past := s.past ++ ((eng.step act).sent.drop eng.sent.length).map .register } := by unfold engineStep; rw [he]
    have hself : (s.engineStep e act).engines[e]? = some (eng.step act) := by rw [hst]; exact List.getElem?_set_self hlt
    have hother : ∀ i, i ≠ e → (s.engineStep e act).engines[i]? = s.engines[i]? := by
      intro i hi; rw [hst]; exact List.getElem?_set_ne (fun h => hi h.symm)
    have hc : ∀ i, (s.engineStep e act).conn i = s.conn i := by intro i; unfold Station.conn; rw [hst]
    have hpast : (s.engineStep e act).past = s.past ++ ((eng.step act).sent.drop eng.sent.length).map .register := by rw [hst]
    have hpre : s.past <+: (s.engineStep e act).past := ⟨_, hpast.symm⟩
    have hkeep : ∀ {op}, op ∈ s.past.drop n → op ∈ (s.engineStep e act).past.drop n := by
      intro op hop
      rw [hpast, List.drop_append]
      exact List.mem_append_left _ hop
    refine ⟨Nat.le_trans h.long hpre.length_le, ?_, ?_, ?_, ?_, ?_⟩
    · intro i x hx
      by_cases hi : i = e
      · subst hi
        rw [hself] at hx
        cases hx
        exact Nat.le_trans (h.grown i eng he) (records_step eng act).requests.length_le
      · rw [hother i hi] at hx; exact h.grown i x hx
    · intro i evs last hb
      rw [hc] at hb
      have : (s.engineStep e act).waits = s.waits := by rw [hst]
      rw [this]
      exact h.wait i evs last hb
    · intro i k x r evs hx hp hf hb
      by_cases hi : i = e
      · subst hi
        rw [hself] at hx
        cases hx
        rcases engine_registering_step hp with hp | hp
        · exact hkeep (h.passed i k eng r evs he hp hf hb)
        · rw [hpast, hp, List.drop_left, List.drop_append_of_le_length h.long]
          simp
      · rw [hother i hi] at hx
        exact hkeep (h.passed i k x r evs hx hp hf hb)
    · intro i k x es hx ho hb y hy
      by_cases hi : i = e
      · subst hi
        rw [hself] at hx
        cases hx
        rcases result_step ho with ho | rfl | ⟨now, r, evs, ha, hph, hf, hsub⟩
        · exact (h.done i k eng es he ho hb y hy).more hpre
        · cases hy
        · exact ⟨evs, hkeep (h.passed i k eng r evs he hph hf hb), hsub y hy⟩
      · rw [hother i hi] at hx
        exact (h.done i k x es hx ho hb y hy).more hpre
    · intro es hs x hx
      rw [hc] at hs
      exact (h.answers es hs x hx).more hpre

theorem since_step {cf : StationConf} {V : Nat → QueryParams → QueryResult → Prop} {s : Station} (h : Since a conv base n s) (hl : Linked V a s)
    (hb : ∀ (e : Nat), s.engines[e]? = none → base e = 0) (x : StationAct) : Since a conv base n (s.step cf x) := by
  have hq : ∀ {t : Station}, t.host = s.host → t.waits = s.waits → t.engines = s.engines → s.past <+: t.past → Since a conv base n t :=
    fun h1 h2 h3 h4 => h.quiet h1 h2 h4 fun e eng he => .inl (h3 ▸ he)
  cases x with
  | host act =>
    simp only [Station.step]
    split
    · next hp => exact h.acted hl act fun r hr => by subst hr; simp [Station.permits] at hp
    · exact h
  | arrive i =>
    simp only [Station.step, Station.arrive]
    split
    · split
      · exact (h.acted (cf := cf) hl (.receive i _) fun r hr => by cases hr).quiet rfl rfl List.prefix_rfl fun e eng he => .inl he
      · exact h
    · exact h
  | connect i =>
    simp only [Station.step, Station.connect]
    split
    · exact hq rfl rfl rfl List.prefix_rfl
    · exact h
  | client i act =>
    cases act with
    | receive m => exact h
    | _ => exact hq rfl rfl rfl List.prefix_rfl
  | deliver i =>
    simp only [Station.step, Station.deliver]
    split
    · split
      · exact hq rfl rfl rfl List.prefix_rfl
      · exact h
    · exact h
  | answered i =>
    simp only [Station.step, Station.answered]
    split
    · next call hw =>
      split
      · next o ho =>
        refine h.acted hl _ fun r hr => ?_
        injection hr with hi hr
        subst hi
        refine ⟨call, hw, ?_⟩
        rw [ho]
        cases o with
        | result events => cases hr; rfl
        | closed => cases hr
        | cancelled => cases hr
      · exact h
    · exact h
  | queried i =>
    simp only [Station.step, Station.queried]
    split
    · exact h.acted hl _ fun r hr => by cases hr
    · exact h
  | start modules =>
    simp only [Station.step, Station.start]
    have key : Since a conv base n (match (s.backend cf).getLastEventId cf.serverId with
        | .ok last => { s with engines := s.engines ++ [.create ⟨cf.serverId, modules, 1024⟩ last] }
        | .error _ => s) := by
      split
      · refine h.quiet rfl rfl List.prefix_rfl fun e eng he => ?_
        simp only at he
        by_cases hlt : e < s.engines.length
        · rw [List.getElem?_append_left hlt] at he; exact .inl he
        · have hz := hb e (List.getElem?_eq_none (Nat.le_of_not_lt hlt))
          rw [List.getElem?_append_right (Nat.le_of_not_lt hlt)] at he
          obtain rfl := List.mem_singleton.1 (List.mem_of_getElem? he)
          exact .inr ⟨by rw [hz]; exact Nat.zero_le _, (fun r evs hp => by cases hp), rfl⟩
      · exact h
    split
    · exact key
    · exact key
    · exact h
  | engine e act => exact h.engine e act
  | keep op =>
    cases op with
    | register l => exact h
    | reopen c => exact h
    | _ => exact hq rfl rfl rfl (List.prefix_append _ _)
  | remote events => exact hq rfl rfl rfl (List.prefix_append _ _)

theorem since_run {cf : StationConf} {s : Station} (ha : cf.foreign a = false) (h : Since a conv base n s) (hl : Linked (fun _ _ _ => True) a s)
    (hb : ∀ (e : Nat), s.engines[e]? = none → base e = 0) (acts : List StationAct) : Since a conv base n (s.run cf acts) := by
  suffices hk : Since a conv base n (s.run cf acts) ∧ Linked (fun _ _ _ => True) a (s.run cf acts) ∧
      (∀ (e : Nat), (s.run cf acts).engines[e]? = none → base e = 0) from hk.1
  induction acts using List.reverseRecOn with
  | nil => exact ⟨h, hl, hb⟩
  | append_singleton acts x ih =>
    obtain ⟨h, hl, hb⟩ := ih
    rw [run_snoc]
    refine ⟨since_step h hl hb x, linked_step ha hl x fun _ _ _ _ _ _ _ => trivial, fun e hn => hb e ?_⟩
    rw [List.getElem?_eq_none_iff] at hn ⊢
    exact Nat.le_trans (engines_step cf _ x) hn

/-- Nothing has to do with a conversation a client has not used. -/
theorem since_start {V : Nat → QueryParams → QueryResult → Prop} {s : Station} {c : ReqClient} (hl : Linked V a s)
    (hm : Made s) (hc : s.clients a = some c) : Since a c.nextConv s.base s.past.length s := by
  have hlt := (hl.client c hc).1.2
  have hasked : ∀ m, s.asked a m → requestConv m ≠ some c.nextConv := by
    rintro m ⟨c', h1, h2⟩ hr
    rw [hc] at h1
    cases h1
    exact absurd (hlt m h2 _ hr) (Nat.lt_irrefl _)
  have hcalls : ∀ (e : Nat) (eng : Engine), s.engines[e]? = some eng → Calls eng eng.open_ ∧ s.base e = eng.requests.length := by
    intro e eng he
    obtain ⟨conf, last, acts, rfl⟩ := hm eng (List.mem_of_getElem? he)
    exact ⟨calls_run _ _ _, by unfold Station.base; rw [he]; rfl⟩
  refine ⟨Nat.le_refl _, fun e eng he => ((hcalls e eng he).2).le, ?_, ?_, ?_, ?_⟩
  · intro i evs last hb
    exact absurd rfl (hasked _ (hl.conn.busy _ _ hb))
  · intro e k eng r evs he hp hf hb
    have := future_known (hcalls e eng he).1 hp hf
    rw [(hcalls e eng he).2] at hb
    omega
  · intro e k eng es he ho hb
    have := (hcalls e eng he).1.known k _ ho
    rw [(hcalls e eng he).2] at hb
    omega
  · intro es hin x hx
    obtain ⟨m, m1, m2, _⟩ := hl.conn.answers _ _ hin
    exact absurd (asksFor_request m2) (hasked m m1)

/-- A registration was answered with events: they were passed to the backend after the call. -/
theorem answered_since {cf : StationConf} {pre : List BackendOp} (ha : cf.foreign a = false) {before : List StationAct} {evs : List RegisterEvent}
    {between : List StationAct} {c c' : ReqClient} {es : List Event} (hc : ((init cf pre).run cf before).clients a = some c)
    (hc' : ((((init cf pre).run cf before).step cf (.client a (.register evs true))).run cf between).clients a = some c')
    (hx : c'.calls c.nextCall = .finished (.answered (.events (some es)))) :
    ∀ x ∈ es, PassedSince ((init cf pre).run cf before).past.length
      ((((init cf pre).run cf before).step cf (.client a (.register evs true))).run cf between).past x := by
  generalize hs0 : (init cf pre).run cf before = s0 at hc hc' ⊢
  have hlk : Linked (fun _ _ _ => True) a s0 := by rw [← hs0]; exact linked_any ha _
  have hmade : Made s0 := by rw [← hs0]; exact made_run cf pre before
  have hlk1 : Linked (fun _ _ _ => True) a (s0.step cf (.client a (.register evs true))) :=
    linked_step (cf := cf) ha hlk (.client a (.register evs true)) fun h => by cases h
  have hb0 : ∀ (e : Nat), s0.engines[e]? = none → s0.base e = 0 := fun e he => by unfold Station.base; rw [he]; rfl
  have hsince := since_run (cf := cf) ha (since_step (cf := cf) (since_start hlk hmade hc) hlk hb0 (.client a (.register evs true))) hlk1 hb0 between
  have hstep : (s0.step cf (.client a (.register evs true))).clients a = some (c.request (fun conv => .register conv evs false) true) := by
    show (s0.setClient a (·.step (.register evs true))).clients a = _
    rw [clients_setClient, if_pos rfl, hc, Option.map_some]
    rfl
  -- the response is there
  have hget : ∀ conv, Follows a c.nextCall conv (s0.step cf (.client a (.register evs true))) →
      (conv, Answer.events (some es)) ∈ answersOf (((s0.step cf (.client a (.register evs true))).run cf between).conn a).sent := by
    intro conv hf
    obtain ⟨c1, h1, _, h3⟩ := follows_run (cf := cf) hf between
    rw [hc'] at h1
    cases h1
    rw [hx] at h3
    rcases h3 with ⟨w, h⟩ | h | ⟨e, h | h, h2⟩
    · cases h
    · cases h
    · cases h
    · cases h; exact h2 _ rfl
  by_cases ho : c.isOpen = true
  · have hr : c.request (fun conv => .register conv evs false) true = { c.setCall c.nextCall (.sending c.nextConv true) with
        nextCall := c.nextCall + 1, nextConv := c.nextConv + 1, sent := c.sent ++ [.register c.nextConv evs false] } := by
      unfold ReqClient.request; rw [if_pos ho]
    rw [hr] at hstep
    exact hsince.answers es (hget c.nextConv ⟨_, hstep, Nat.lt_succ_self _, .inl ⟨true, by simp [ReqClient.setCall]⟩⟩)
  · have hr : c.request (fun conv => .register conv evs false) true = { c.setCall c.nextCall (.finished .connectionError) with nextCall := c.nextCall + 1 } := by
      unfold ReqClient.request; rw [if_neg ho]
    rw [hr] at hstep
    have hin := hget c'.nextConv ⟨_, hstep, Nat.lt_succ_self _, .inr (.inr ⟨.connectionError, .inr (by simp [ReqClient.setCall]), by simp⟩)⟩
    have hlk2 := linked_run (cf := cf) ha hlk1 between fun _ _ _ _ _ _ _ => trivial
    obtain ⟨m, ⟨c2, m1, m2⟩, m3, _⟩ := hlk2.conn.answers _ _ hin
    rw [hc'] at m1
    cases m1
    exact absurd ((hlk2.client c' hc').1.2 m m2 _ (asksFor_request m3)) (Nat.lt_irrefl _)

end Station
end HatEvent
