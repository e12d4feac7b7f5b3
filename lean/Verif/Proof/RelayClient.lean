import Verif.Proof.Relay

/-!
# What clients of an event server have received
-/

namespace HatEvent
open Spec EvServer

namespace Station

/-- What a client has been told is what was in the messages it has received; `q` is a call with its conversation. -/
structure Gets (id : Nat) (q : Option (Nat × Nat)) (s : Station) : Prop where
  there : q ≠ none → s.clients id ≠ none
  read : ∀ c, s.clients id = some c → s.read id ≤ (s.conn id).sent.length
  notes : ∀ c, s.clients id = some c → c.notified = allNotes ((s.conn id).sent.take (s.read id))
  lives : ∀ c k conv, s.clients id = some c → q = some (k, conv) → k < c.nextCall ∧
    Lives conv (answersOf ((s.conn id).sent.take (s.read id))) (c.calls k)

variable {id : Nat} {q : Option (Nat × Nat)}

theorem Gets.same {s t : Station} (h : Gets id q s) (h1 : t.host = s.host) (h2 : t.clients id = s.clients id) (h3 : t.read id = s.read id) :
    Gets id q t := by
  have hc : t.conn id = s.conn id := by unfold Station.conn; rw [h1]
  refine ⟨?_, ?_, ?_, ?_⟩
  · rw [h2]; exact h.there
  · rw [h2, h3, hc]; exact h.read
  · rw [h2, h3, hc]; exact h.notes
  · rw [h2, h3, hc]; exact h.lives

theorem Gets.hosted {cf : StationConf} {s : Station} (h : Gets id q s) (act : HostAct) : Gets id q (s.hostStep cf act) := by
  have hco := hostStep_calls cf s act
  have hp : (s.conn id).sent <+: ((s.hostStep cf act).conn id).sent := by
    unfold Station.conn
    rw [hco.host]
    obtain ⟨acts, hacts, _⟩ := Host.reach_step s.host act
    show (s.host.server.conns id).sent <+: ((s.host.step act).server.conns id).sent
    rw [hacts]
    exact (later_run _ _).sent id
  have hcl : (s.hostStep cf act).clients = s.clients := hco.clients
  have hrd : (s.hostStep cf act).read = s.read := hco.read
  refine ⟨?_, ?_, ?_, ?_⟩
  · rw [hcl]; exact h.there
  · intro c hc
    rw [hcl] at hc
    rw [hrd]
    exact (h.read c hc).trans hp.length_le
  · intro c hc
    rw [hcl] at hc
    rw [hrd, Link.take_prefix hp (h.read c hc)]
    exact h.notes c hc
  · intro c k conv hc hq
    rw [hcl] at hc
    rw [hrd, Link.take_prefix hp (h.read c hc)]
    exact h.lives c k conv hc hq

theorem Gets.acted {s : Station} (h : Gets id q s) (i : Nat) (act : ReqAct) (hr : ∀ m, act ≠ .receive m) :
    Gets id q (s.setClient i (·.step act)) := by
  by_cases hi : id = i
  · subst hi
    have hcl : (s.setClient id (·.step act)).clients id = (s.clients id).map (·.step act) := by rw [clients_setClient, if_pos rfl]
    refine ⟨?_, ?_, ?_, ?_⟩
    · rw [hcl]
      intro hq hn
      exact h.there hq (Option.map_eq_none_iff.1 hn)
    · intro c hc
      rw [hcl] at hc
      obtain ⟨c0, hc0, rfl⟩ := Option.map_eq_some_iff.1 hc
      exact h.read c0 hc0
    · intro c hc
      rw [hcl] at hc
      obtain ⟨c0, hc0, rfl⟩ := Option.map_eq_some_iff.1 hc
      rw [(Link.client_step c0 act hr).1]
      exact h.notes c0 hc0
    · intro c k conv hc hq
      rw [hcl] at hc
      obtain ⟨c0, hc0, rfl⟩ := Option.map_eq_some_iff.1 hc
      obtain ⟨h1, h2⟩ := h.lives c0 k conv hc0 hq
      exact ⟨Nat.lt_of_lt_of_le h1 (ReqClient.next_step c0 act).1, lives_step h1 h2 fun x hx => absurd hx (hr _)⟩
  · exact h.same rfl (by rw [clients_setClient, if_neg hi]) rfl

theorem gets_step {cf : StationConf} {s : Station} (h : Gets id q s) (a : StationAct) : Gets id q (s.step cf a) := by
  cases a with
  | host act =>
    simp only [step]
    split
    · exact h.hosted act
    · exact h
  | arrive i =>
    simp only [step, arrive]
    split
    · split
      · exact (h.hosted (cf := cf) (.receive i _)).same rfl rfl rfl
      · exact h
    · exact h
  | connect i =>
    simp only [step, connect]
    split
    · next st more hf hn hs =>
      by_cases hi : id = i
      · subst hi
        have hq : q = none := by
          by_contra hq
          exact h.there hq hn
        refine ⟨fun hq' => absurd hq hq', ?_, ?_, ?_⟩
        · intro c hc
          show (if id = id then 1 else s.read id) ≤ (s.conn id).sent.length
          rw [if_pos rfl, hs]
          simp
        · intro c hc
          have hc : (if id = id then some (ReqClient.init st) else s.clients id) = some c := hc
          rw [if_pos rfl] at hc
          cases hc
          show ([] : List (List Event)) = allNotes ((s.conn id).sent.take (if id = id then 1 else s.read id))
          rw [if_pos rfl, hs]
          rfl
        · intro c k conv _ hq'
          rw [hq] at hq'
          cases hq'
      · exact h.same rfl (if_neg hi) (if_neg hi)
    · exact h
  | client i act =>
    simp only [step]
    cases act with
    | receive m => exact h
    | _ => exact h.acted i _ fun m => nofun
  | deliver i =>
    simp only [step, deliver]
    split
    · next c msg hc hm =>
      split
      · next hloop =>
        by_cases hi : id = i
        · subst hi
          obtain ⟨hlt, hmsg⟩ := List.getElem?_eq_some_iff.1 hm
          have htake : (s.conn id).sent.take (s.read id + 1) = (s.conn id).sent.take (s.read id) ++ [msg] := by
            rw [List.take_succ_eq_append_getElem hlt, hmsg]
          have hcl : (s.setClient id (·.step (.receive (msg.toPeer (s.lastFlag msg))))).clients id =
              some (c.step (.receive (msg.toPeer (s.lastFlag msg)))) := by
            rw [clients_setClient, if_pos rfl, hc, Option.map_some]
          have hrd : (if id = id then s.read id + 1 else s.read id) = s.read id + 1 := if_pos rfl
          refine ⟨fun _ => by rw [hcl]; simp, ?_, ?_, ?_⟩
          · intro c' _
            show (if id = id then s.read id + 1 else s.read id) ≤ (s.conn id).sent.length
            rw [hrd]
            exact hlt
          · intro c' hc'
            rw [hcl] at hc'
            cases hc'
            show (c.receive _).notified = allNotes ((s.conn id).sent.take (if id = id then s.read id + 1 else s.read id))
            rw [hrd, htake, allNotes_append, ← h.notes c hc]
            simp only [ReqClient.receive, hloop]
            cases msg with
            | events k cv es =>
              have e1 : allNotes [ServerMsg.events k cv es] = [es] := rfl
              simp only [ServerMsg.toPeer, ReqClient.process]
              rw [e1]
            | status st =>
              have e1 : allNotes [ServerMsg.status st] = [] := rfl
              simp only [ServerMsg.toPeer, ReqClient.process]
              rw [e1, List.append_nil]
            | initOk st =>
              have e1 : allNotes [ServerMsg.initOk st] = [] := rfl
              simp only [ServerMsg.toPeer, ReqClient.process, ReqClient.endLoop]
              rw [e1, List.append_nil]
            | initError =>
              have e1 : allNotes [ServerMsg.initError] = [] := rfl
              simp only [ServerMsg.toPeer, ReqClient.process, ReqClient.endLoop]
              rw [e1, List.append_nil]
            | registerRes cv evs =>
              have e1 : allNotes [ServerMsg.registerRes cv evs] = [] := rfl
              simp only [ServerMsg.toPeer, ReqClient.process]
              rw [e1, List.append_nil]
            | queryRes cv r =>
              have e1 : allNotes [ServerMsg.queryRes cv r] = [] := rfl
              simp only [ServerMsg.toPeer, ReqClient.process]
              rw [e1, List.append_nil]
          · intro c' k conv hc' hq
            rw [hcl] at hc'
            cases hc'
            obtain ⟨h1, h2⟩ := h.lives c k conv hc hq
            show _ ∧ Lives conv (answersOf ((s.conn id).sent.take (if id = id then s.read id + 1 else s.read id))) _
            rw [hrd, htake]
            have happ : answersOf ((s.conn id).sent.take (s.read id) ++ [msg]) = answersOf ((s.conn id).sent.take (s.read id)) ++ answersOf [msg] := by
              simp [answersOf]
            rw [happ]
            refine ⟨Nat.lt_of_lt_of_le h1 (ReqClient.next_step c _).1, lives_step h1 (h2.mono (List.subset_append_left _ _)) fun x hx => ?_⟩
            injection hx with hx
            refine List.mem_append_right _ ?_
            cases msg <;> first | (cases hx; exact List.mem_singleton_self _) | cases hx
        · refine h.same rfl ?_ (if_neg hi)
          show (s.setClient i _).clients id = _
          rw [clients_setClient, if_neg hi]
      · exact h
    · exact h
  | answered i =>
    simp only [step, answered]
    split
    · split
      · exact h.hosted _
      · exact h
    · exact h
  | queried i =>
    simp only [step, queried]
    split
    · exact h.hosted _
    · exact h
  | start modules =>
    simp only [step, start]
    split
    · split
      · exact h.same rfl rfl rfl
      · exact h
    · split
      · exact h.same rfl rfl rfl
      · exact h
    · exact h
  | engine e act =>
    simp only [step, engineStep]
    split
    · exact h.same rfl rfl rfl
    · exact h
  | keep op => cases op <;> exact h.same rfl rfl rfl
  | remote events => exact h.same rfl rfl rfl

theorem gets_run {cf : StationConf} {s : Station} (h : Gets id q s) (acts : List StationAct) : Gets id q (s.run cf acts) := by
  induction acts using List.reverseRecOn with
  | nil => exact h
  | append_singleton acts a ih => rw [run_snoc]; exact gets_step ih a

theorem gets_init (cf : StationConf) (pre : List BackendOp) : Gets id none (init cf pre) :=
  ⟨fun h => absurd rfl h, fun c hc => (nomatch hc), fun c hc => (nomatch hc), fun c k conv hc _ => (nomatch hc)⟩

/-- The calls of `Engine.register` there have been. -/
def base (s : Station) (e : Nat) : Nat := (s.engines[e]?.map fun engine => engine.requests.length).getD 0

/-- Nothing has to do with a conversation a client has not used. -/
theorem heard_start {a j : Nat} {info : ConnInfo} {V : Nat → QueryParams → QueryResult → Prop} {s : Station} {c : ReqClient} (hl : Linked V a s)
    (hm : Made s) (hc : s.clients a = some c) (hk : (s.conn j).lost = true ∨ (j, info) ∈ s.host.server.infos) (said : Nat → Option Nat) :
    Heard a j c.nextConv info s.base s said := by
  have hlt := (hl.client c hc).1.2
  have hasked : ∀ m, s.asked a m → requestConv m ≠ some c.nextConv := by
    rintro m ⟨c', h1, h2⟩ hr
    rw [hc] at h1
    cases h1
    exact absurd (hlt m h2 _ hr) (Nat.lt_irrefl _)
  have hcalls : ∀ (e : Nat) (eng : Engine), s.engines[e]? = some eng → Calls eng eng.open_ ∧ s.base e = eng.requests.length := by
    intro e eng he
    obtain ⟨conf, last, acts, rfl⟩ := hm eng (List.mem_of_getElem? he)
    exact ⟨calls_run _ _ _, by unfold base; rw [he]; rfl⟩
  refine ⟨hk, fun e eng he => ((hcalls e eng he).2).le, ?_, ?_, ?_, ?_⟩
  · intro i evs last hb
    exact absurd rfl (hasked _ (hl.conn.busy _ _ hb))
  · intro e n k eng r evs he hp hf hb
    have := future_known (hcalls e eng he).1 hp hf
    rw [(hcalls e eng he).2] at hb
    omega
  · intro e k eng es he ho hb
    have := (hcalls e eng he).1.known k _ ho
    rw [(hcalls e eng he).2] at hb
    omega
  · intro front rest es hs x hx hp
    have hin : (c.nextConv, Answer.events (some es)) ∈ answersOf (s.conn a).sent := by
      rw [hs]
      exact List.mem_filterMap.2 ⟨_, List.mem_append_right _ List.mem_cons_self, rfl⟩
    obtain ⟨m, m1, m2, _⟩ := hl.conn.answers _ _ hin
    exact absurd (asksFor_request m2) (hasked m m1)

end Station

namespace Relay

/-- A registration of a client was answered with events: the response is among the messages the client has received, and a client that was
known to the server has been told. -/
theorem registered_heard {cf : StationConf} {pre : List BackendOp} {a j : Nat} (ha : cf.foreign a = false) (before : List RelayAct) (evs : List RegisterEvent)
    (between : List RelayAct) {c c' : ReqClient} {info : ConnInfo} {es : List Event}
    (hc : ((Relay.init cf pre).run cf before).station.clients a = some c)
    (hk : (j, info) ∈ ((Relay.init cf pre).run cf before).station.host.server.infos) (hp : info.req.persisted = false)
    (hc' : (((((Relay.init cf pre).run cf before).step cf (.station (.client a (.register evs true)))).run cf between).station.clients a) = some c')
    (hx : c'.calls c.nextCall = .finished (.answered (.events (some es)))) :
    let s1 := (((Relay.init cf pre).run cf before).step cf (.station (.client a (.register evs true)))).run cf between
    ∀ x ∈ es, Picked info x →
      ((s1.station.conn j).lost = true ∨ Noted (s1.station.conn j).sent x) ∧ (j = a → ∃ l ∈ c'.notified, x ∈ l) := by
  generalize hs0 : (Relay.init cf pre).run cf before = s0 at hc hk hc' ⊢
  intro s1
  obtain ⟨xs, hxs⟩ := station_run cf (Relay.init cf pre) before
  rw [hs0] at hxs
  have hxs : s0.station = (Station.init cf pre).run cf xs := hxs
  obtain ⟨ys, hys⟩ := station_run cf (s0.step cf (.station (.client a (.register evs true)))) between
  have hstep : (s0.step cf (.station (.client a (.register evs true)))).station = s0.station.setClient a (·.step (.register evs true)) := rfl
  have hlk : Station.Linked (fun _ _ _ => True) a s0.station := by rw [hxs]; exact Station.linked_any ha _
  have hlk1 : Station.Linked (fun _ _ _ => True) a (s0.step cf (.station (.client a (.register evs true)))).station :=
    Station.linked_step (cf := cf) ha hlk (.client a (.register evs true)) fun h => by cases h
  obtain ⟨es0, hserv⟩ := Station.host_run cf pre xs
  rw [← hxs] at hserv
  have hgets0 : Station.Gets a none s0.station := by rw [hxs]; exact Station.gets_run (Station.gets_init cf pre) xs
  have hnew : (s0.step cf (.station (.client a (.register evs true)))).station.clients a = some (c.step (.register evs true)) := by
    rw [hstep, Station.clients_setClient, if_pos rfl, hc, Option.map_some]
  -- the response was received
  have hgets : ∀ conv, Station.Lives conv [] ((c.step (.register evs true)).calls c.nextCall) → c.nextCall < (c.step (.register evs true)).nextCall →
      Station.Gets a (some (c.nextCall, conv)) s1.station ∧
        (conv, Answer.events (some es)) ∈ answersOf ((s1.station.conn a).sent.take (s1.station.read a)) := by
    intro conv hlv hlt
    have h1 := hgets0.acted a (.register evs true) fun m => nofun
    have h2 : Station.Gets a (some (c.nextCall, conv)) (s0.step cf (.station (.client a (.register evs true)))).station := by
      rw [hstep]
      refine ⟨fun _ => by rw [← hstep, hnew]; simp, h1.read, h1.notes, fun c1 k conv' hc1 hq => ?_⟩
      rw [← hstep, hnew] at hc1
      cases hc1
      cases hq
      exact ⟨hlt, hlv.mono (List.nil_subset _)⟩
    have h3 : Station.Gets a (some (c.nextCall, conv)) s1.station := by
      show Station.Gets _ _ (((s0.step cf (.station (.client a (.register evs true)))).run cf between).station)
      rw [hys]
      exact Station.gets_run h2 ys
    refine ⟨h3, ?_⟩
    have h4 := (h3.lives c' c.nextCall conv hc' rfl).2
    rw [hx] at h4
    rcases h4 with ⟨w, h⟩ | h | ⟨e, h | h, h2⟩
    · cases h
    · cases h
    · cases h
    · cases h; exact h2 _ rfl
  have hr0 : c.step (.register evs true) = c.request (fun conv => .register conv evs false) true := rfl
  by_cases ho : c.isOpen = true
  · have hr : c.request (fun conv => .register conv evs false) true = { c.setCall c.nextCall (.sending c.nextConv true) with
        nextCall := c.nextCall + 1, nextConv := c.nextConv + 1, sent := c.sent ++ [.register c.nextConv evs false] } := by
      unfold ReqClient.request; rw [if_pos ho]
    obtain ⟨hg, hin⟩ := hgets c.nextConv (by rw [hr0, hr]; exact .inl ⟨true, by simp [ReqClient.setCall]⟩) (by rw [hr0, hr]; exact Nat.lt_succ_self _)
    have hmade : Station.Made s0.station := by rw [hxs]; exact Station.made_run cf pre xs
    have hstart := Station.heard_start hlk hmade hc (.inr hk) s0.said
    have hstart' : Station.Heard a j c.nextConv info s0.station.base (s0.step cf (.station (.client a (.register evs true)))).station
        (s0.step cf (.station (.client a (.register evs true)))).said :=
      heard_step hstart hlk (by rw [hserv]; exact notesOk_run _ _ _) (by rw [hserv]; exact infosOk_run _ _ _) hp
        (fun e he => by unfold Station.base; rw [he]; rfl) _
    have hheard := heard_run (s := s0.step cf (.station (.client a (.register evs true)))) ha hstart' hlk1
      (evs := es0) (by rw [← hserv]; rfl) hp (fun e he => by
        have he : s0.station.engines[e]? = none := he
        unfold Station.base; rw [he]; rfl) between
    obtain ⟨m, hm1, hm2⟩ := List.mem_filterMap.1 hin
    have hm' : m = .registerRes c.nextConv (some es) := by
      cases m <;> simp only [Option.some.injEq, Prod.mk.injEq, reduceCtorEq] at hm2
      · obtain ⟨rfl, h2⟩ := hm2
        cases h2
        rfl
      · exact absurd hm2.2 (by simp)
    subst hm'
    obtain ⟨p, q, hpq⟩ := List.append_of_mem hm1
    have hsent : (s1.station.conn a).sent = p ++ .registerRes c.nextConv (some es) :: (q ++ (s1.station.conn a).sent.drop (s1.station.read a)) := by
      rw [← List.cons_append, ← List.append_assoc, ← hpq, List.take_append_drop]
    intro x hxe hpick
    obtain ⟨g1, g2⟩ := hheard.after p _ es hsent x hxe hpick
    refine ⟨g1, fun hj => ?_⟩
    obtain ⟨l, hl, hxl⟩ := g2 hj
    refine ⟨l, ?_, hxl⟩
    rw [hg.notes c' hc', hpq, allNotes_append]
    exact List.mem_append_left _ hl
  · have hr : c.request (fun conv => .register conv evs false) true = { c.setCall c.nextCall (.finished .connectionError) with nextCall := c.nextCall + 1 } := by
      unfold ReqClient.request; rw [if_neg ho]
    obtain ⟨hg, hin⟩ := hgets c'.nextConv (by rw [hr0, hr]; exact .inr (.inr ⟨.connectionError, .inr (by simp [ReqClient.setCall]), by simp⟩))
      (by rw [hr0, hr]; exact Nat.lt_succ_self _)
    have hlk2 : Station.Linked (fun _ _ _ => True) a s1.station := by
      show Station.Linked _ _ (((s0.step cf (.station (.client a (.register evs true)))).run cf between).station)
      rw [hys]
      exact Station.linked_run ha hlk1 _ fun _ _ _ _ _ _ _ => trivial
    have hin' : (c'.nextConv, Answer.events (some es)) ∈ answersOf (s1.station.conn a).sent := by
      obtain ⟨m, hm1, hm2⟩ := List.mem_filterMap.1 hin
      exact List.mem_filterMap.2 ⟨m, List.mem_of_mem_take hm1, hm2⟩
    obtain ⟨m, ⟨c2, m1, m2⟩, m3, _⟩ := hlk2.conn.answers _ _ hin'
    rw [hc'] at m1
    cases m1
    exact absurd ((hlk2.client c' hc').1.2 m m2 _ (Station.asksFor_request m3)) (Nat.lt_irrefl _)

end Relay
end HatEvent
