import Verif.Proof.RelayEngine
import Verif.Proof.LinkRun

/-!
# Notifications of registered events before their registration is answered
-/

namespace HatEvent
open Spec EvServer

/-- A client gets an event, `eventer/server.py:107-111`. -/
def Picked (info : ConnInfo) (x : Event) : Prop :=
  (info.subscription.matches x.type && (info.req.serverId.isNone || info.req.serverId == some x.id.server)) = true

theorem mem_select {info : ConnInfo} {evs : List Event} {x : Event} : x ∈ selectEvents info evs ↔ x ∈ evs ∧ Picked info x := List.mem_filter

/-- An event is in one of the notifications. -/
def Noted (sent : List ServerMsg) (x : Event) : Prop := ∃ l ∈ allNotes sent, x ∈ l

theorem Noted.more {sent more : List ServerMsg} {x : Event} (h : Noted sent x) (hp : sent <+: more) : Noted more x := by
  obtain ⟨l, hl, hx⟩ := h
  obtain ⟨r, rfl⟩ := hp
  exact ⟨l, by rw [allNotes_append]; exact List.mem_append_left _ hl, hx⟩

theorem allNotes_of {k : Nat} {sent : List ServerMsg} {l : List Event} (h : notesOf k sent = [l]) : l ∈ allNotes sent := by
  have : l ∈ notesOf k sent := by rw [h]; exact List.mem_singleton_self l
  obtain ⟨m, hm, he⟩ := List.mem_filterMap.1 this
  refine List.mem_filterMap.2 ⟨m, hm, ?_⟩
  cases m with
  | events c conv es =>
    simp only at he
    split at he
    · exact he
    · cases he
  | _ => cases he

theorem later_run (s : EvServer) (acts : List EvAct) : Later s (s.run acts) := by
  induction acts using List.reverseRecOn with
  | nil => exact .refl s
  | append_singleton acts a ih =>
    rw [EvServer.run_snoc]
    have h := later_step (s.run acts) a
    exact ⟨h.token.trans ih.token, h.useC.trans ih.useC, fun id => (ih.sent id).trans (h.sent id)⟩

/-- A response is new only if a callback has just returned it. -/
theorem answer_new {s : Host} {a : HostAct} {id conv : Nat} {es : List Event}
    (h : (conv, Answer.events (some es)) ∈ answersOf ((s.step a).server.conns id).sent) :
    (conv, Answer.events (some es)) ∈ answersOf (s.server.conns id).sent ∨ es = [] ∨
      (a = .answer id (.registered (some es)) ∧ ∃ info evs last, (s.server.conns id).phase = .busy info (.register conv evs last)) := by
  let good : ClientMsg → Answer → Prop := fun m x => ∀ conv, requestConv m = some conv → ∀ es, x = .events (some es) →
    (conv, Answer.events (some es)) ∈ answersOf (s.server.conns id).sent ∨ es = [] ∨
      (a = .answer id (.registered (some es)) ∧ ∃ info evs last, (s.server.conns id).phase = .busy info (.register conv evs last))
  have h0 : ConnOk (fun _ => True) good (s.server.conns id) := by
    refine ⟨fun _ _ _ => trivial, fun conv x hx => ⟨.register conv [] false, trivial, rfl, fun conv' hc es he => ?_⟩⟩
    cases hc
    rw [← he]
    exact .inl hx
  have h1 := Host.connOk_host (a := a) h0 (fun _ _ _ _ _ es he => by cases he) (fun _ _ _ _ es he => by cases he; exact .inr (.inl rfl))
    (fun _ _ _ _ => trivial)
    (fun r info c evs last ha hb c' hc es he => by
      cases hc
      cases he
      exact .inr (.inr ⟨ha, info, evs, last, hb⟩))
    (fun r info c params ha hb c' hc es he => by cases he)
  obtain ⟨m, _, hm, hg⟩ := h1.answers conv _ h
  exact hg conv (Station.asksFor_request hm) es rfl

/-- A lost connection gets no response. -/
theorem answer_lost {s : Host} {id : Nat} {info : ConnInfo} {conv : Nat} {evs : List RegisterEvent} {last : Bool} {r : Option (List Event)}
    (hb : (s.server.conns id).phase = .busy info (.register conv evs last)) (hl : (s.server.conns id).lost = true) :
    ((s.step (.answer id (.registered r))).server.conns id).sent = (s.server.conns id).sent := by
  show ((s.answer id (.registered r)).server.conns id).sent = _
  unfold Host.answer
  rw [hb]
  simp only [Host.settle_conns, Host.serve, EvServer.step, EngineEnd.handled, reply, hb]
  split
  · rw [setConn_self]
  · unfold respond
    rw [if_pos hl, endLoop_conns, if_pos rfl]

/-- What calls of `Engine.register` do to an engine. -/
structure Called (eng eng' : Engine) : Prop where
  phase : eng'.phase = eng.phase
  sent : eng'.sent = eng.sent
  requests : eng.requests.length ≤ eng'.requests.length
  outcomes : ∀ k es, (k, EngineOutcome.result (some es)) ∈ eng'.outcomes → (k, EngineOutcome.result (some es)) ∈ eng.outcomes ∨ es = []

theorem Called.refl (eng : Engine) : Called eng eng := ⟨rfl, rfl, Nat.le_refl _, fun _ _ h => .inl h⟩

theorem Called.trans {a b c : Engine} (h : Called a b) (h' : Called b c) : Called a c :=
  ⟨h'.phase.trans h.phase, h'.sent.trans h.sent, Nat.le_trans h.requests h'.requests, fun k es hk => by
    rcases h'.outcomes k es hk with hk | hk
    · exact h.outcomes k es hk
    · exact .inr hk⟩

theorem called_register (eng : Engine) (source : Source) (evs : List RegisterEvent) : Called eng (eng.step (.register source evs)) := by
  refine ⟨?_, register_sent _ _ _, (records_step eng _).requests.length_le, fun k es hk => ?_⟩
  · simp only [Engine.step, Engine.register]
    split
    · exact resolve_phase _ _ _
    · exact put_phase _ _
  · rcases result_step hk with hk | hk | ⟨_, _, _, ha, _⟩
    · exact .inl hk
    · exact .inr hk
    · cases ha

namespace Station

theorem called_one (cf : StationConf) (s : Station) (x : HostEntry) {e : Nat} {eng' : Engine}
    (h : (s.callEngine cf x).engines[e]? = some eng') : ∃ eng, s.engines[e]? = some eng ∧ Called eng eng' := by
  unfold callEngine at h
  split at h
  · next eng he =>
    simp only at h
    by_cases hi : e = x.engine
    · subst hi
      rw [List.getElem?_set_self (List.getElem?_eq_some_iff.1 he).1] at h
      cases h
      exact ⟨eng, he, called_register _ _ _⟩
    · rw [List.getElem?_set_ne (fun h => hi h.symm)] at h
      exact ⟨eng', h, .refl _⟩
  · exact ⟨eng', h, .refl _⟩

theorem called_host (cf : StationConf) (s : Station) (a : HostAct) {e : Nat} {eng' : Engine}
    (h : (s.hostStep cf a).engines[e]? = some eng') : ∃ eng, s.engines[e]? = some eng ∧ Called eng eng' := by
  have key : ∀ (l : List HostEntry) (t : Station), (l.foldl (callEngine cf) t).engines[e]? = some eng' →
      ∃ eng, t.engines[e]? = some eng ∧ Called eng eng' := by
    intro l
    induction l with
    | nil => intro t h; exact ⟨eng', h, .refl _⟩
    | cons x l ih =>
      intro t h
      obtain ⟨m, hm, c⟩ := ih _ h
      obtain ⟨eng, he, c'⟩ := called_one cf t x hm
      exact ⟨eng, he, c'.trans c⟩
  exact key _ { s with host := s.host.step a } h

/-- What is announced before a registration of connection `a` with a conversation is answered; `j` is a client that is to be told and
`base` the calls of `Engine.register` there were before. -/
structure Heard (a j conv : Nat) (info : ConnInfo) (base : Nat → Nat) (s : Station) (said : Nat → Option Nat) : Prop where
  known : (s.conn j).lost = true ∨ (j, info) ∈ s.host.server.infos
  grown : ∀ (e : Nat) (eng : Engine), s.engines[e]? = some eng → base e ≤ eng.requests.length
  wait : ∀ i evs last, (s.conn a).phase = .busy i (.register conv evs last) → ∃ e k, s.waits a = some (e, k) ∧ base e ≤ k
  told : ∀ (e n k : Nat) (eng : Engine) (r : EngineRequest) (evs : List Event), s.engines[e]? = some eng → eng.phase = .registering r evs →
    r.future = some k → base e ≤ k → said e = some n → n < s.host.server.nextCall ∧ ((s.conn j).lost = true ∨ ∀ x ∈ evs, Picked info x →
      (∃ es, (j, es) ∈ (s.host.server.calls n).targets) ∧ ∀ es, (j, es) ∈ (s.host.server.calls n).targets → x ∈ es)
  done : ∀ (e k : Nat) (eng : Engine) (es : List Event), s.engines[e]? = some eng → (k, EngineOutcome.result (some es)) ∈ eng.outcomes → base e ≤ k →
    ∀ x ∈ es, Picked info x → (s.conn j).lost = true ∨ Noted (s.conn j).sent x
  after : ∀ front rest es, (s.conn a).sent = front ++ .registerRes conv (some es) :: rest → ∀ x ∈ es, Picked info x →
    ((s.conn j).lost = true ∨ Noted (s.conn j).sent x) ∧ (j = a → Noted front x)

variable {a j conv : Nat} {info : ConnInfo} {base : Nat → Nat}

theorem Heard.forget {s : Station} {said said' : Nat → Option Nat} (h : Heard a j conv info base s said)
    (hs : ∀ e n, said' e = some n → said e = some n) : Heard a j conv info base s said' :=
  { h with told := fun e n k eng r evs h1 h2 h3 h4 h5 => h.told e n k eng r evs h1 h2 h3 h4 (hs e n h5) }

/-- Engines were created or called, connections do nothing. -/
theorem Heard.quiet {s t : Station} {said : Nat → Option Nat} (h : Heard a j conv info base s said) (h1 : t.host = s.host) (h2 : t.waits = s.waits)
    (h3 : ∀ (e : Nat) (eng : Engine), t.engines[e]? = some eng → s.engines[e]? = some eng ∨
      (base e ≤ eng.requests.length ∧ (∀ r evs, eng.phase ≠ .registering r evs) ∧ eng.outcomes = [])) : Heard a j conv info base t said := by
  have hc : ∀ i, t.conn i = s.conn i := by intro i; unfold Station.conn; rw [h1]
  refine ⟨?_, ?_, ?_, ?_, ?_, ?_⟩
  · rw [hc, h1]; exact h.known
  · intro e eng he
    rcases h3 e eng he with he | ⟨hb, _, _⟩
    · exact h.grown e eng he
    · exact hb
  · intro i evs last hb
    rw [hc] at hb
    rw [h2]
    exact h.wait i evs last hb
  · intro e n k eng r evs he hp hf hb hs
    rw [hc, h1]
    rcases h3 e eng he with he | ⟨_, hn, _⟩
    · exact h.told e n k eng r evs he hp hf hb hs
    · exact absurd hp (hn r evs)
  · intro e k eng es he ho hb x hx hp
    rw [hc]
    rcases h3 e eng he with he | ⟨_, _, hn⟩
    · exact h.done e k eng es he ho hb x hx hp
    · rw [hn] at ho; cases ho
  · intro front rest es hs x hx hp
    rw [hc] at hs ⊢
    exact h.after front rest es hs x hx hp

/-- The eventer server does something. -/
theorem Heard.acted {cf : StationConf} {V : Nat → QueryParams → QueryResult → Prop} {s : Station} {said : Nat → Option Nat}
    (h : Heard a j conv info base s said) (hl : Linked V a s) (act : HostAct)
    (hans : ∀ r, act = .answer a (.registered r) → ∃ call, s.waits a = some call ∧ s.outcome call = some (.result r)) :
    Heard a j conv info base (s.hostStep cf act) said := by
  have hco := hostStep_calls cf s act
  have hhost : (s.hostStep cf act).host = s.host.step act := hco.host
  obtain ⟨acts, hacts, _⟩ := Host.reach_step s.host act
  have hconn : ∀ i, (s.hostStep cf act).conn i = (s.host.step act).server.conns i := by intro i; unfold Station.conn; rw [hhost]
  have hstay : Stays s.host.server (s.host.step act).server := by rw [hacts]; exact stays_run _ _
  have hlater : Later s.host.server (s.host.step act).server := by rw [hacts]; exact later_run _ _
  have hlost : ∀ i, (s.conn i).lost = true → ((s.hostStep cf act).conn i).lost = true := by
    intro i hi; rw [hconn]; exact hstay.lost i hi
  have hsent : ∀ i, (s.conn i).sent <+: ((s.hostStep cf act).conn i).sent := by intro i; rw [hconn]; exact hlater.sent i
  have hpass : ∀ {x}, (s.conn j).lost = true ∨ Noted (s.conn j).sent x → ((s.hostStep cf act).conn j).lost = true ∨ Noted ((s.hostStep cf act).conn j).sent x :=
    fun hh => hh.imp (hlost j) fun hn => hn.more (hsent j)
  refine ⟨?_, ?_, ?_, ?_, ?_, ?_⟩
  · rcases h.known with hk | hk
    · exact .inl (hlost j hk)
    · by_cases hj : ((s.hostStep cf act).conn j).lost = true
      · exact .inl hj
      · right
        rw [hhost]
        refine hstay.infos _ hk ?_
        rw [hconn] at hj
        simpa using hj
  · intro e eng' he
    obtain ⟨eng, he', c⟩ := called_host cf s act he
    exact Nat.le_trans (h.grown e eng he') c.requests
  · intro i evs last hb
    rw [hconn] at hb
    obtain ⟨new, hnew, hbeg⟩ := Host.begins_step s.host act a
    have hfold : s.hostStep cf act = new.foldl (callEngine cf) { s with host := s.host.step act } := by
      unfold hostStep
      rw [hnew, List.drop_left]
    rcases hbeg i _ hb with ⟨hb', hno⟩ | ⟨ha, hr, he⟩
    · obtain ⟨e, k, w1, w2⟩ := h.wait i evs last hb'
      refine ⟨e, k, ?_, w2⟩
      rw [hfold, waits_all cf _ _ hno]
      exact w1
    · obtain ⟨e, he, hn⟩ := he conv evs last rfl
      have hlt := hl.engine e he
      have hget : s.engines[e]? = some s.engines[e] := List.getElem?_eq_getElem hlt
      rw [hfold, hn]
      exact ⟨e, s.engines[e].requests.length, by simp [callEngine, hget], h.grown e _ hget⟩
  · intro e n k eng' r evs he hp hf hb hs
    obtain ⟨eng, he', c⟩ := called_host cf s act he
    rw [c.phase] at hp
    obtain ⟨h1, h2⟩ := h.told e n k eng r evs he' hp hf hb hs
    have ht := targets_run (s := s.host.server) acts h1
    rw [hhost, hacts]
    refine ⟨ht.1, ?_⟩
    rw [ht.2.1]
    exact h2.imp_left (hlost j)
  · intro e k eng' es he ho hb x hx hp
    obtain ⟨eng, he', c⟩ := called_host cf s act he
    rcases c.outcomes k es ho with ho | rfl
    · exact hpass (h.done e k eng es he' ho hb x hx hp)
    · cases hx
  · intro front rest es hs x hx hp
    obtain ⟨more, hm⟩ := hsent a
    have hin : (conv, Answer.events (some es)) ∈ answersOf ((s.hostStep cf act).conn a).sent := by
      rw [hs]
      exact List.mem_filterMap.2 ⟨_, List.mem_append_right _ List.mem_cons_self, rfl⟩
    rw [hs] at hm
    -- the response was there
    have hold : ∀ rest', (s.conn a).sent = front ++ .registerRes conv (some es) :: rest' →
        (((s.hostStep cf act).conn j).lost = true ∨ Noted ((s.hostStep cf act).conn j).sent x) ∧ (j = a → Noted front x) := by
      intro rest' hr
      obtain ⟨h1, h2⟩ := h.after front rest' es hr x hx hp
      exact ⟨hpass h1, h2⟩
    -- it is new
    have hfresh : (s.conn a).sent <+: front →
        (((s.hostStep cf act).conn j).lost = true ∨ Noted ((s.hostStep cf act).conn j).sent x) ∧ (j = a → Noted front x) := by
      intro hfront
      have hnew := answer_new (s := s.host) (a := act) (id := a) (conv := conv) (es := es) (by rw [← hconn]; exact hin)
      rcases hnew with hnew | rfl | ⟨hact, i, evs, last, hb⟩
      · obtain ⟨m, hm1, hm2⟩ := List.mem_filterMap.1 hnew
        have hm' : m = .registerRes conv (some es) := by
          cases m <;> simp only [Option.some.injEq, Prod.mk.injEq, reduceCtorEq] at hm2
          · obtain ⟨rfl, h2⟩ := hm2
            cases h2
            rfl
          · exact absurd hm2.2 (by simp)
        subst hm'
        obtain ⟨p, q, hpq⟩ := List.append_of_mem hm1
        obtain ⟨h1, h2⟩ := h.after p q es hpq x hx hp
        refine ⟨hpass h1, fun hj => (h2 hj).more ?_⟩
        exact List.IsPrefix.trans ⟨_, hpq.symm⟩ hfront
      · cases hx
      · obtain ⟨call, hw, ho⟩ := hans _ hact
        obtain ⟨e, k, w1, w2⟩ := h.wait i evs last hb
        rw [hw] at w1
        cases w1
        have hdone : (s.conn j).lost = true ∨ Noted (s.conn j).sent x := by
          unfold outcome at ho
          split at ho
          · next eng heng =>
            obtain ⟨o, ho1, ho2⟩ := Option.map_eq_some_iff.1 ho
            have hk := List.find?_some ho1
            have hmem := List.mem_of_find?_eq_some ho1
            obtain ⟨k', o'⟩ := o
            have : k' = k := by simpa using hk
            subst this
            cases ho2
            exact h.done e k' eng es heng hmem w2 x hx hp
          · cases ho
        refine ⟨hpass hdone, fun hj => ?_⟩
        subst hj
        rcases hdone with hd | hd
        · have hsame := answer_lost (s := s.host) (r := some es) hb hd
          rw [← hact, ← hconn] at hsame
          rw [hs] at hsame
          have := congrArg List.length (hsame.trans (show (s.host.server.conns j).sent = (s.conn j).sent from rfl))
          have hle := hfront.length_le
          simp only [List.length_append, List.length_cons] at this
          omega
        · exact hd.more hfront
    rcases List.append_eq_append_iff.1 hm with ⟨l, hl1, hl2⟩ | ⟨l, hl1, hl2⟩
    · exact hfresh ⟨l, hl1.symm⟩
    · rcases List.cons_eq_append_iff.1 hl2 with ⟨rfl, _⟩ | ⟨l', rfl, _⟩
      · rw [List.append_nil] at hl1
        exact hfresh (hl1 ▸ List.prefix_rfl)
      · exact hold l' hl1

/-- An engine does something. -/
theorem Heard.engine {s : Station} {said said' : Nat → Option Nat} (h : Heard a j conv info base s said) (hn : NotesOk s.host.server) (e : Nat)
    (act : EngineAct)
    (hret : ∀ now, act = .registered .same now → ∃ n, said e = some n ∧ (s.host.server.calls n).returned)
    (hs : ∀ i n, said' i = some n → said i = some n ∧ ¬ Relay.passed s i < Relay.passed (s.engineStep e act) i) :
    Heard a j conv info base (s.engineStep e act) said' := by
  cases he : s.engines[e]? with
  | none =>
    have : s.engineStep e act = s := by unfold engineStep; rw [he]
    rw [this]
    exact h.forget fun i n hi => (hs i n hi).1
  | some eng =>
    have hlt : e < s.engines.length := (List.getElem?_eq_some_iff.1 he).1
    have hst : s.engineStep e act = { s with
        engines := s.engines.set e (eng.step act)
        past := s.past ++ ((eng.step act).sent.drop eng.sent.length).map .register } := by unfold engineStep; rw [he]
    have hself : (s.engineStep e act).engines[e]? = some (eng.step act) := by rw [hst]; exact List.getElem?_set_self hlt
    have hother : ∀ i, i ≠ e → (s.engineStep e act).engines[i]? = s.engines[i]? := by
      intro i hi; rw [hst]; exact List.getElem?_set_ne (fun h => hi h.symm)
    have hhost : (s.engineStep e act).host = s.host := by rw [hst]
    have hc : ∀ i, (s.engineStep e act).conn i = s.conn i := by intro i; unfold Station.conn; rw [hhost]
    refine ⟨?_, ?_, ?_, ?_, ?_, ?_⟩
    · rw [hc, hhost]; exact h.known
    · intro i x hx
      by_cases hi : i = e
      · subst hi
        rw [hself] at hx
        cases hx
        exact Nat.le_trans (h.grown i eng he) (records_step eng act).requests.length_le
      · rw [hother i hi] at hx; exact h.grown i x hx
    · intro i evs last hb
      rw [hc] at hb
      have : (s.engineStep e act).waits = s.waits := by rw [hst]
      rw [this]
      exact h.wait i evs last hb
    · intro i n k x r evs hx hp hf hb hsaid
      rw [hc, hhost]
      obtain ⟨h1, h2⟩ := hs i n hsaid
      by_cases hi : i = e
      · subst hi
        rw [hself] at hx
        cases hx
        rcases engine_registering_step hp with hp | hp
        · exact h.told i n k eng r evs he hp hf hb h1
        · refine absurd ?_ h2
          unfold Relay.passed
          rw [he, hself]
          simp [hp]
      · rw [hother i hi] at hx
        exact h.told i n k x r evs hx hp hf hb h1
    · intro i k x es hx ho hb y hy hp
      rw [hc]
      by_cases hi : i = e
      · subst hi
        rw [hself] at hx
        cases hx
        rcases result_step ho with ho | rfl | ⟨now, r, evs, ha, hph, hf, hsub⟩
        · exact h.done i k eng es he ho hb y hy hp
        · cases hy
        · obtain ⟨n, hn1, hn2⟩ := hret now ha
          obtain ⟨_, h2⟩ := h.told i n k eng r evs he hph hf hb hn1
          rcases h2 with h2 | h2
          · exact .inl h2
          · obtain ⟨⟨l, hl⟩, hall⟩ := h2 y (hsub y hy) hp
            have hd := hn2 _ hl
            rcases hn.note n j with ⟨hu, _⟩ | ⟨_, es', ht, hnote⟩
            · rw [hd] at hu; cases hu
            · rcases hnote with hnote | ⟨hlost, _⟩
              · exact .inr ⟨es', allNotes_of hnote, hall es' ht⟩
              · exact .inl hlost
      · rw [hother i hi] at hx
        exact h.done i k x es hx ho hb y hy hp
    · intro front rest es hsent x hx hp
      rw [hc] at hsent ⊢
      exact h.after front rest es hsent x hx hp

/-- The callback of `Backend.register` is called. -/
theorem Heard.said {cf : StationConf} {V : Nat → QueryParams → QueryResult → Prop} {s : Station} {said : Nat → Option Nat}
    (h : Heard a j conv info base s said) (hl : Linked V a s) (hi : InfosOk s.host.server) (hp : info.req.persisted = false) {e : Nat} {eng : Engine}
    (he : s.engines[e]? = some eng) {events : List Event} (hoff : Relay.offered eng = some events) :
    Heard a j conv info base (s.hostStep cf (.notify events false false))
      (fun i => if i = e then some s.host.server.nextCall else said i) := by
  have h' := h.acted (cf := cf) hl (.notify events false false) (fun _ hr => by cases hr)
  refine { h' with told := ?_ }
  intro i n k x r evs hx hph hf hb hs
  split at hs
  · next hie =>
    subst hie
    cases hs
    obtain ⟨eng0, he0, c⟩ := called_host cf s _ hx
    rw [he] at he0
    cases he0
    rw [c.phase] at hph
    have hev : evs = events := by
      unfold Relay.offered at hoff
      rw [hph] at hoff
      exact Option.some.inj hoff
    subst hev
    have hhost : (s.hostStep cf (.notify evs false false)).host = s.host.step (.notify evs false false) := (hostStep_calls cf s _).host
    have hserv : (s.host.step (.notify evs false false)).server = s.host.server.notify evs false false := rfl
    refine ⟨?_, ?_⟩
    · rw [hhost, hserv]; exact Nat.lt_succ_self _
    · have htar : ((s.hostStep cf (.notify evs false false)).host.server.calls s.host.server.nextCall).targets =
          s.host.server.infos.filterMap (target evs false) := by
        rw [hhost, hserv]; simp [notify]
      have hlost : ((s.hostStep cf (.notify evs false false)).conn j).lost = (s.conn j).lost := by
        unfold Station.conn; rw [hhost]; rfl
      rw [htar, hlost]
      rcases h.known with hk | hk
      · exact .inl hk
      · right
        intro y hy hpick
        have hsel : y ∈ selectEvents info evs := mem_select.2 ⟨hy, hpick⟩
        refine ⟨⟨selectEvents info evs, List.mem_filterMap.2 ⟨(j, info), hk, ?_⟩⟩, fun es hes => ?_⟩
        · unfold target
          rw [if_neg (by simp [hp]), if_neg]
          intro hem
          rw [List.isEmpty_iff] at hem
          rw [hem] at hsel
          cases hsel
        · rw [(target_unique hi hk hes).2.2]; exact hsel
  · exact h'.told i n k x r evs hx hph hf hb hs

end Station

namespace Relay

theorem run_snoc (cf : StationConf) (s : Relay) (acts : List RelayAct) (a : RelayAct) :
    s.run cf (acts ++ [a]) = (s.run cf acts).step cf a := by simp [run]

theorem run_append (cf : StationConf) (s : Relay) (a b : List RelayAct) : s.run cf (a ++ b) = (s.run cf a).run cf b := by simp [run]

/-- An action is one of the server or nothing. -/
theorem station_step (cf : StationConf) (s : Relay) (act : RelayAct) :
    (s.step cf act).station = s.station ∨ ∃ x, (s.step cf act).station = s.station.step cf x := by
  unfold step
  split
  · next e now =>
    split
    · exact .inr ⟨.engine e (.registered .same now), rfl⟩
    · exact .inl rfl
  · exact .inr ⟨_, rfl⟩
  · unfold tell
    split
    · next events _ _ _ _ => exact .inr ⟨.host (.notify events false false), rfl⟩
    · exact .inl rfl

theorem station_run (cf : StationConf) (s : Relay) (acts : List RelayAct) :
    ∃ xs, (s.run cf acts).station = s.station.run cf xs := by
  induction acts using List.reverseRecOn with
  | nil => exact ⟨[], rfl⟩
  | append_singleton acts a ih =>
    rw [run_snoc]
    obtain ⟨xs, hx⟩ := ih
    rcases station_step cf (s.run cf acts) a with h | ⟨x, h⟩
    · exact ⟨xs, h.trans hx⟩
    · exact ⟨xs ++ [x], by rw [h, hx, Station.run_snoc]⟩

variable {a j conv : Nat} {info : ConnInfo} {base : Nat → Nat}

theorem heard_advance {cf : StationConf} {V : Nat → QueryParams → QueryResult → Prop} {s : Relay}
    (h : Station.Heard a j conv info base s.station s.said) (hl : Station.Linked V a s.station) (hn : NotesOk s.station.host.server)
    (hb : ∀ (e : Nat), s.station.engines[e]? = none → base e = 0) (x : StationAct)
    (hret : ∀ e now, x = .engine e (.registered .same now) → s.returns e = true) :
    Station.Heard a j conv info base (s.advance cf x).station (s.advance cf x).said := by
  have hforget : ∀ {t : Station}, t = s.station.step cf x → Station.Heard a j conv info base t s.said →
      Station.Heard a j conv info base (s.advance cf x).station (s.advance cf x).said := by
    rintro t rfl ht
    refine ht.forget fun e n he => ?_
    simp only [advance] at he
    split at he
    · cases he
    · exact he
  have hq : ∀ {t : Station}, t.host = s.station.host → t.waits = s.station.waits → t.engines = s.station.engines →
      Station.Heard a j conv info base t s.said := fun h1 h2 h3 => h.quiet h1 h2 fun e eng he => .inl (h3 ▸ he)
  cases x with
  | host act =>
    refine hforget rfl ?_
    simp only [Station.step]
    split
    · next hp => exact h.acted hl act fun r hr => by subst hr; simp [Station.permits] at hp
    · exact h
  | arrive i =>
    refine hforget rfl ?_
    simp only [Station.step, Station.arrive]
    split
    · split
      · exact (h.acted (cf := cf) hl (.receive i _) fun r hr => by cases hr).quiet rfl rfl fun e eng he => .inl he
      · exact h
    · exact h
  | connect i =>
    refine hforget rfl ?_
    simp only [Station.step, Station.connect]
    split
    · exact hq rfl rfl rfl
    · exact h
  | client i act =>
    refine hforget rfl ?_
    cases act with
    | receive m => exact h
    | _ => exact hq rfl rfl rfl
  | deliver i =>
    refine hforget rfl ?_
    simp only [Station.step, Station.deliver]
    split
    · split
      · exact hq rfl rfl rfl
      · exact h
    · exact h
  | answered i =>
    refine hforget rfl ?_
    simp only [Station.step, Station.answered]
    split
    · next call hw =>
      split
      · next o ho =>
        refine h.acted hl _ fun r hr => ?_
        injection hr with hi hr
        subst hi
        refine ⟨call, hw, ?_⟩
        rw [ho]
        cases o with
        | result events => cases hr; rfl
        | closed => cases hr
        | cancelled => cases hr
      · exact h
    · exact h
  | queried i =>
    refine hforget rfl ?_
    simp only [Station.step, Station.queried]
    split
    · exact h.acted hl _ fun r hr => by cases hr
    · exact h
  | start modules =>
    refine hforget rfl ?_
    simp only [Station.step, Station.start]
    have key : Station.Heard a j conv info base (match (s.station.backend cf).getLastEventId cf.serverId with
        | .ok last => { s.station with engines := s.station.engines ++ [.create ⟨cf.serverId, modules, 1024⟩ last] }
        | .error _ => s.station) s.said := by
      split
      · refine h.quiet rfl rfl fun e eng he => ?_
        simp only at he
        by_cases hlt : e < s.station.engines.length
        · rw [List.getElem?_append_left hlt] at he; exact .inl he
        · have hz := hb e (List.getElem?_eq_none (Nat.le_of_not_lt hlt))
          rw [List.getElem?_append_right (Nat.le_of_not_lt hlt)] at he
          obtain rfl := List.mem_singleton.1 (List.mem_of_getElem? he)
          exact .inr ⟨by rw [hz]; exact Nat.zero_le _, (fun r evs hp => by cases hp), rfl⟩
      · exact h
    split
    · exact key
    · exact key
    · exact h
  | engine e act =>
    refine h.engine hn e act (fun now ha => ?_) (fun i n hi => ?_)
    · have := hret e now (by rw [ha])
      unfold returns at this
      split at this
      · next n hn =>
        refine ⟨n, hn, fun t ht => ?_⟩
        have := List.all_eq_true.1 this t ht
        simpa using this
      · cases this
    · simp only [advance] at hi
      split at hi
      · cases hi
      · next hno => exact ⟨hi, hno⟩
  | keep op => refine hforget rfl ?_; cases op <;> exact hq rfl rfl rfl
  | remote events => exact hforget rfl (hq rfl rfl rfl)

theorem heard_step {cf : StationConf} {V : Nat → QueryParams → QueryResult → Prop} {s : Relay}
    (h : Station.Heard a j conv info base s.station s.said) (hl : Station.Linked V a s.station) (hn : NotesOk s.station.host.server)
    (hi : InfosOk s.station.host.server) (hp : info.req.persisted = false)
    (hb : ∀ (e : Nat), s.station.engines[e]? = none → base e = 0) (x : RelayAct) :
    Station.Heard a j conv info base (s.step cf x).station (s.step cf x).said := by
  unfold step
  split
  · split
    · next hr => exact heard_advance h hl hn hb _ fun e now he => by cases he; exact hr
    · exact h
  · next hno => exact heard_advance h hl hn hb _ fun e now he => absurd he (hno e now)
  · unfold tell
    split
    · next _ hs ho hm =>
      obtain ⟨eng, he, hoff⟩ := Option.bind_eq_some_iff.1 ho
      exact h.said hl hi hp he hoff
    · exact h

theorem heard_run {cf : StationConf} {s : Relay} (ha : cf.foreign a = false) (h : Station.Heard a j conv info base s.station s.said)
    (hl : Station.Linked (fun _ _ _ => True) a s.station) {evs : List EvAct} (he : s.station.host.server = (EvServer.init cf.useC cf.token).run evs)
    (hp : info.req.persisted = false) (hb : ∀ (e : Nat), s.station.engines[e]? = none → base e = 0) (acts : List RelayAct) :
    Station.Heard a j conv info base (s.run cf acts).station (s.run cf acts).said := by
  suffices hk : Station.Heard a j conv info base (s.run cf acts).station (s.run cf acts).said ∧
      Station.Linked (fun _ _ _ => True) a (s.run cf acts).station ∧
      (∃ evs, (s.run cf acts).station.host.server = (EvServer.init cf.useC cf.token).run evs) ∧
      (∀ (e : Nat), (s.run cf acts).station.engines[e]? = none → base e = 0) from hk.1
  induction acts using List.reverseRecOn with
  | nil => exact ⟨h, hl, ⟨evs, he⟩, hb⟩
  | append_singleton acts x ih =>
    obtain ⟨h, hl, ⟨evs, he⟩, hb⟩ := ih
    rw [run_snoc]
    generalize s.run cf acts = t at h hl he hb
    refine ⟨heard_step h hl (by rw [he]; exact notesOk_run _ _ _) (by rw [he]; exact infosOk_run _ _ _) hp hb x, ?_, ?_, ?_⟩
    · rcases station_step cf t x with h' | ⟨y, h'⟩
      · rw [h']; exact hl
      · rw [h']; exact Station.linked_step ha hl y fun _ _ _ _ _ _ _ => trivial
    · rcases station_step cf t x with h' | ⟨y, h'⟩
      · rw [h']; exact ⟨evs, he⟩
      · rw [h']
        exact Station.host_step cf t.station y ⟨evs, he⟩
    · intro e hn
      refine hb e ?_
      rcases station_step cf t x with h' | ⟨y, h'⟩
      · rw [← h']; exact hn
      · rw [h'] at hn
        rw [List.getElem?_eq_none_iff] at hn ⊢
        exact Nat.le_trans (Station.engines_step cf t.station y) hn

end Relay
end HatEvent
