import Verif.Proof.Publish
import Verif.Props.EventerServer
import Verif.Props.EngineLmdb

/-!
# Announcing what is registered (C81)
-/

namespace HatEvent
open Spec

/-- Facts about a call of a history that goes on from `s`. -/
theorem told_facts {useC : Bool} {token : Option String} {evs0 evs : List EvAct} {s s' : EvServer}
    (hs : s = (EvServer.init useC token).run evs0) (hs' : s' = s.run evs) {k : Nat} {events : List Event} {fl : Bool}
    {e1 e2 : List EvAct} (he : evs = e1 ++ .notify events fl false :: e2) (hk : (s.run e1).nextCall = k)
    {id : Nat} {info : ConnInfo} (hm : (id, info) ∈ s.infos)
    (hn : useC = true → ∀ q ∈ info.req.subscriptions, NulFree q) (hp : info.req.persisted = fl)
    (hw : wanted info.req events ≠ []) (hl : (s'.conns id).lost = false) :
    (notesOf k (s'.conns id).sent = [] ∨ notesOf k (s'.conns id).sent = [wanted info.req events]) ∧
      ((s'.calls k).returned → notesOf k (s'.conns id).sent = [wanted info.req events]) := by
  have hrun : s' = (EvServer.init useC token).run ((evs0 ++ e1) ++ .notify events fl false :: e2) := by
    rw [hs', he, hs, ← EvServer.run_append, List.append_assoc]
  have hk' : ((EvServer.init useC token).run (evs0 ++ e1)).nextCall = k := by
    rw [EvServer.run_append, ← hs, hk]
  have hstay : EvServer.Stays (s.run e1) s' := by
    rw [hs', he, EvServer.run_append]
    exact EvServer.stays_run _ _
  have hl1 : ((s.run e1).conns id).lost = false := by
    by_contra hc
    rw [hstay.lost id (by simpa using hc)] at hl
    cases hl
  have hm1 : (id, info) ∈ ((EvServer.init useC token).run (evs0 ++ e1)).infos := by
    rw [EvServer.run_append, ← hs]
    exact (EvServer.stays_run s e1).infos _ hm hl1
  have h1 := C39_selected useC token (evs0 ++ e1) e2 events fl false hm1 hn
  have h2 := C39_sent useC token (evs0 ++ e1) e2 events fl false hm1 hn hp hw
  rw [← hrun, hk'] at h1 h2
  exact ⟨h1.imp_right fun h => h.2.2, fun hr => h2 hr hl⟩

/-- The eventer server of a history. -/
theorem server_run (conf : Conf) (useC : Bool) (token : Option String) (acts : List PubAct) :
    ∃ evs, ((Publisher.init conf useC token).run acts).server = (EvServer.init useC token).run evs := by
  obtain ⟨evs, h, _⟩ := (Publisher.init conf useC token).served acts
  exact ⟨evs, h⟩

theorem queued_init (conf : Conf) (useC : Bool) (token : Option String) :
    Publisher.Queued (Publisher.init conf useC token) := by
  refine ⟨step_refLe (b := Backend.new conf) (fun m hm => nomatch hm) _, ?_⟩
  show match ((Backend.new conf).step (.reopen conf)).mem with
    | some m => [] = ((Backend.new conf).step (.reopen conf)).flushedCb ++ m.registered
    | none => ((Backend.new conf).step (.reopen conf)).flushedCb <+: []
  simp only [Backend.step]
  split
  · next m hm =>
    split at hm
    · next disk m' hc =>
      simp only [Option.some.injEq] at hm
      subst hm
      have : m'.registered = [] := by
        unfold createDbs at hc
        simp only [bind, Except.bind, pure, Except.pure] at hc
        repeat' split at hc
        all_goals first | cases hc | skip
        all_goals rfl
      simp only [hc, this]
      rfl
    · cases hm
  · split <;> exact List.nil_prefix

/-- What a registration on an open backend does. -/
theorem register_open {s : Publisher} (h : s.Queued) (hopen : s.backend.mem ≠ none) (events : List Event) :
    (s.step (.register events)).registers = s.registers ++ [(s.server.nextCall, events)] ∧
      (s.step (.register events)).server = s.server.step (.notify events false false) ∧
      (s.step (.register events)).announced = s.announced := by
  show (s.register events).registers = _ ∧ (s.register events).server = _ ∧ _
  unfold Publisher.register
  cases hm : s.backend.mem with
  | none => exact absurd hm hopen
  | some m =>
    obtain ⟨m', h1, _⟩ := register_total (conf := s.backend.conf) (h.refLe m hm) events
    have hb : s.backend.step (.register events) = { s.backend with mem := some m' } := by
      simp only [Backend.step, hm, h1]
    simp only [hb, Publisher.stored]
    exact ⟨trivial, rfl, by simp only [Publisher.step, Publisher.register, hm, hb, Publisher.stored, Publisher.tell]⟩

/-- **C81** for registrations whose callers are not cancelled (missing: callers that are cancelled, see
`C81_refuted`).  A client without the persisted flag that is connected when events are registered and stays
connected: it gets at most one message for the registration, with exactly the events it asked for; when the callback has
returned it has got it; and unless the caller was cancelled, sending goes on until it has got it. -/
theorem C81_registered_partial (conf : Conf) (useC : Bool) (token : Option String) (before after : List PubAct)
    (events : List Event) {id : Nat} {info : ConnInfo}
    (hopen : ((Publisher.init conf useC token).run before).backend.mem ≠ none)
    (hm : (id, info) ∈ ((Publisher.init conf useC token).run before).server.infos)
    (hn : useC = true → ∀ q ∈ info.req.subscriptions, NulFree q) (hp : info.req.persisted = false)
    (hw : wanted info.req events ≠ [])
    (hl : (((Publisher.init conf useC token).run (before ++ .register events :: after)).server.conns id).lost = false) :
    let k := ((Publisher.init conf useC token).run before).server.nextCall
    let s := (Publisher.init conf useC token).run (before ++ .register events :: after)
    (notesOf k (s.server.conns id).sent = [] ∨ notesOf k (s.server.conns id).sent = [wanted info.req events]) ∧
      (s.over k = true → notesOf k (s.server.conns id).sent = [wanted info.req events]) ∧
      (k ∉ s.cancelled → ∃ ids : List Nat,
        let s' := s.run (ids.map fun i => .server (.send k i))
        s'.over k = true ∧ (s'.server.conns id).lost = false ∧
          notesOf k (s'.server.conns id).sent = [wanted info.req events]) := by
  intro k s
  obtain ⟨evs0, h0⟩ := server_run conf useC token before
  have hq := Publisher.queued_run (queued_init conf useC token) before
  obtain ⟨r1, r2, r3⟩ := register_open hq hopen events
  have hs : s = (((Publisher.init conf useC token).run before).step (.register events)).run after := by
    show (Publisher.init conf useC token).run _ = _
    rw [Publisher.run_append]
    rfl
  obtain ⟨evs, h1, _⟩ := (((Publisher.init conf useC token).run before).step (.register events)).served after
  rw [← hs, r2] at h1
  have h2 : s.server = ((Publisher.init conf useC token).run before).server.run
      ([] ++ .notify events false false :: evs) := h1
  obtain ⟨f1, f2⟩ := told_facts h0 h2 rfl (k := k) rfl hm hn hp hw hl
  refine ⟨f1, fun h => f2 (Publisher.over_iff.1 h), fun hc => ?_⟩
  have hap := Publisher.apart_run (Publisher.apart_init conf useC token) (before ++ .register events :: after)
  have hreg : (k, events) ∈ s.registers := by
    obtain ⟨_, _, ⟨r, g, _⟩, _⟩ := (((Publisher.init conf useC token).run before).step (.register events)).served after
    rw [hs, g, r1]
    simp [k]
  obtain ⟨evs2, h3⟩ := server_run conf useC token (before ++ .register events :: after)
  have hfin := EvServer.finish (k := k) (s.server.calls k).targets [] s.server (by rw [show s.server = _ from h3]; exact EvServer.plain_run _ _ _)
    (hap.regs _ hreg) (hap.plain _ (List.mem_append_right _ hreg)) rfl (by simp)
  refine ⟨(s.server.calls k).targets.map Prod.fst, ?_⟩
  have hrun := Publisher.run_sends ((s.server.calls k).targets.map Prod.fst) s hc
  intro s'
  have hs' : s' = { s with server := s.server.run (((s.server.calls k).targets.map Prod.fst).map (.send k)) } := hrun
  have hl' : (s'.server.conns id).lost = false := by
    rw [hs']
    exact (EvServer.lost_sends _ s.server id).trans hl
  have hov : s'.over k = true := by
    rw [Publisher.over_iff, hs']
    rw [List.map_map]
    exact hfin
  refine ⟨hov, hl', ?_⟩
  have h4 : s'.server = ((Publisher.init conf useC token).run before).server.run
      ([] ++ .notify events false false :: (evs ++ ((s.server.calls k).targets.map Prod.fst).map (.send k))) := by
    rw [hs', h2]
    show EvServer.run _ _ = _
    rw [← EvServer.run_append]
    simp
  exact (told_facts h0 h4 rfl (k := k) rfl hm hn hp hw hl').2 (Publisher.over_iff.1 hov)

/-- **C81** for clients with the persisted flag: such a client that is connected when events are registered and
stays connected has got the events it asked for, in a message for this registration, when the flush loop has nothing more to do. -/
theorem C81_persisted (conf : Conf) (useC : Bool) (token : Option String) (before after : List PubAct)
    (events : List Event) {id : Nat} {info : ConnInfo}
    (hopen : ((Publisher.init conf useC token).run before).backend.mem ≠ none)
    (hm : (id, info) ∈ ((Publisher.init conf useC token).run before).server.infos)
    (hn : useC = true → ∀ q ∈ info.req.subscriptions, NulFree q) (hp : info.req.persisted = true)
    (hw : wanted info.req events ≠ [])
    (hl : (((Publisher.init conf useC token).run (before ++ .register events :: after)).server.conns id).lost = false)
    (hidle : ((Publisher.init conf useC token).run (before ++ .register events :: after)).flushing = [] ∧
      ((Publisher.init conf useC token).run (before ++ .register events :: after)).free = true)
    {m : Mem} (hmem : ((Publisher.init conf useC token).run (before ++ .register events :: after)).backend.mem = some m)
    (hreg : m.registered = []) :
    let s := (Publisher.init conf useC token).run (before ++ .register events :: after)
    ∃ k, s.announced[((Publisher.init conf useC token).run before).registers.length]? = some (k, events) ∧
      notesOf k (s.server.conns id).sent = [wanted info.req events] := by
  intro s
  obtain ⟨evs0, h0⟩ := server_run conf useC token before
  have hq := Publisher.queued_run (queued_init conf useC token) before
  have hfl := Publisher.flushes_run (Publisher.flushes_init conf useC token) before
  have hq' := Publisher.queued_run (queued_init conf useC token) (before ++ .register events :: after)
  have hfl' := Publisher.flushes_run (Publisher.flushes_init conf useC token) (before ++ .register events :: after)
  obtain ⟨r1, r2, r3⟩ := register_open hq hopen events
  have hs : s = (((Publisher.init conf useC token).run before).step (.register events)).run after := by
    show (Publisher.init conf useC token).run _ = _
    rw [Publisher.run_append]
    rfl
  obtain ⟨evs, h1, ⟨r, g1, g2⟩, ⟨q, g3, g4⟩⟩ :=
    (((Publisher.init conf useC token).run before).step (.register events)).served after
  rw [← hs] at h1 g1 g3
  rw [r1] at g1
  rw [r3] at g3
  rw [r2] at h1 g4
  -- what was registered is what was announced
  have heq : s.registers.map Prod.snd = s.announced.map Prod.snd := by
    have e1 := hq'.lists
    have e2 := hfl'.lists
    rw [hmem] at e1
    rw [hidle.1, List.append_nil] at e2
    simp only [hreg, List.append_nil] at e1
    exact e1.trans e2
  have hlen : ((Publisher.init conf useC token).run before).announced.length ≤
      ((Publisher.init conf useC token).run before).registers.length := by
    have e1 := hq.lists
    have e2 := hfl.lists
    have e3 := congrArg List.length e2
    cases hb : ((Publisher.init conf useC token).run before).backend.mem with
    | none => exact absurd hb hopen
    | some m0 =>
      rw [hb] at e1
      have e4 := congrArg List.length e1
      simp only [List.length_map, List.length_append] at e3 e4
      omega
  have hget : (s.announced.map Prod.snd)[((Publisher.init conf useC token).run before).registers.length]? = some events := by
    rw [← heq, g1]
    simp
  rw [List.getElem?_map] at hget
  obtain ⟨⟨k, es⟩, hk, he⟩ := Option.map_eq_some_iff.1 hget
  simp only at he
  subst he
  refine ⟨k, hk, ?_⟩
  have hmem' : (k, es) ∈ q := by
    rw [g3, List.getElem?_append_right hlen] at hk
    exact List.mem_of_getElem? hk
  obtain ⟨e1, e2, k1, k2⟩ := g4 _ hmem'
  have h2 : s.server = ((Publisher.init conf useC token).run before).server.run (.notify es false false :: evs) := h1
  have hret : (s.server.calls k).returned := hfl'.all hidle.2 _ (List.mem_of_getElem? hk)
  exact (told_facts h0 h2 (e1 := .notify es false false :: e1) (e2 := e2) (by rw [k1]; rfl) k2 hm hn hp hw hl).2 hret

/-- The flush loop gets out of its callback. -/
theorem free_again {s : Publisher} (hap : s.Apart) (hp : s.server.Plain) : ∃ more : List PubAct,
    (s.run more).free = true ∧ (s.run more).flushing = s.flushing ∧ (s.run more).backend = s.backend ∧
      (∀ id, ((s.run more).server.conns id).lost = (s.server.conns id).lost) ∧ (s.run more).server.Plain := by
  cases hl : s.announced.getLast? with
  | none => exact ⟨[], by show s.free = true; unfold Publisher.free; rw [hl], rfl, rfl, fun _ => rfl, hp⟩
  | some p =>
    have hm : p ∈ s.announced := List.mem_of_getLast? hl
    have hc : p.1 ∉ s.cancelled := by
      intro h
      obtain ⟨q, h1, h2⟩ := hap.canc _ h
      exact hap.disj q h1 p hm h2
    have hfin := EvServer.finish (k := p.1) (s.server.calls p.1).targets [] s.server hp (hap.anns p hm)
      (hap.plain p (List.mem_append_left _ hm)) rfl (by simp)
    have hrun := Publisher.run_sends ((s.server.calls p.1).targets.map Prod.fst) s hc
    refine ⟨((s.server.calls p.1).targets.map Prod.fst).map fun id => .server (.send p.1 id), ?_⟩
    rw [hrun]
    refine ⟨?_, rfl, rfl, fun id => EvServer.lost_sends _ s.server id, ?_⟩
    · unfold Publisher.free
      rw [show ({ s with server := s.server.run (((s.server.calls p.1).targets.map Prod.fst).map (.send p.1)) } :
        Publisher).announced = s.announced from rfl, hl]
      simp only
      rw [Publisher.over_iff, List.map_map]
      exact hfin
    · suffices h : ∀ (l : List EvAct) (x : EvServer), x.Plain → (x.run l).Plain from h _ _ hp
      intro l
      induction l with
      | nil => exact fun x h => h
      | cons a l ih => exact fun x h => ih _ (EvServer.plain_step h a)

/-- The flush loop announces all it has written. -/
theorem drain : ∀ (l : List (List Event)) (s : Publisher), s.flushing = l → s.Apart → s.server.Plain →
    ∃ more : List PubAct, (s.run more).flushing = [] ∧ (s.run more).free = true ∧ (s.run more).backend = s.backend ∧
      (∀ id, ((s.run more).server.conns id).lost = (s.server.conns id).lost) ∧ (s.run more).server.Plain
  | [], s, hf, hap, hp => by
    obtain ⟨more, h1, h2, h3, h4, h5⟩ := free_again hap hp
    exact ⟨more, h2.trans hf, h1, h3, h4, h5⟩
  | events :: rest, s, hf, hap, hp => by
    obtain ⟨more, h1, h2, h3, h4, h5⟩ := free_again hap hp
    have hap1 := Publisher.apart_run hap more
    have ha : (s.run more).step .announce = { (s.run more).tell events true with
        announced := (s.run more).announced ++ [((s.run more).server.nextCall, events)], flushing := rest } := by
      show (s.run more).announce = _
      unfold Publisher.announce
      rw [h2, hf]
      simp only [h1, if_true]
    obtain ⟨more2, g1, g2, g3, g4, g5⟩ := drain rest ((s.run more).step .announce) (by rw [ha])
      (Publisher.apart_step hap1 _) (by rw [ha]; exact EvServer.plain_step h5 (.notify events true false))
    refine ⟨more ++ .announce :: more2, ?_⟩
    rw [Publisher.run_append]
    refine ⟨g1, g2, ?_, ?_, g5⟩
    · refine Eq.trans g3 ?_
      rw [ha]
      exact h3
    · intro id
      refine (g4 id).trans ?_
      rw [ha]
      exact h4 id

/-- **C81** At any time the server can go on so that the flush loop has nothing more to do, unless the backend is
closed by a failed flush; no connection is lost for that.  So `C81_persisted` applies sooner or later. -/
theorem C81_progress (conf : Conf) (useC : Bool) (token : Option String) (acts : List PubAct) :
    let s := (Publisher.init conf useC token).run acts
    ∃ more, (s.run more).flushing = [] ∧ (s.run more).free = true ∧
      (∀ id, ((s.run more).server.conns id).lost = (s.server.conns id).lost) ∧
      ((s.run more).backend.mem = none ∨ ∃ m, (s.run more).backend.mem = some m ∧ m.registered = []) := by
  intro s
  obtain ⟨evs, h0⟩ := server_run conf useC token acts
  have hap := Publisher.apart_run (Publisher.apart_init conf useC token) acts
  obtain ⟨m1, a1, a2, a3, a4, a5⟩ := drain s.flushing s rfl hap
    (by rw [show s.server = _ from h0]; exact EvServer.plain_run _ _ _)
  have hf : (s.run m1).step .flush = { s.run m1 with
      backend := (s.run m1).backend.step .flush
      flushing := ((s.run m1).backend.step .flush).flushedCb.drop (s.run m1).backend.flushedCb.length } := by
    show (s.run m1).flush = _
    unfold Publisher.flush
    simp only [a1, a2, List.isEmpty_nil, Bool.and_self, if_true]
  obtain ⟨m2, b1, b2, b3, b4, _⟩ := drain _ ((s.run m1).step .flush) rfl
    (Publisher.apart_step (Publisher.apart_run hap m1) _) (by rw [hf]; exact a5)
  refine ⟨m1 ++ .flush :: m2, ?_⟩
  rw [Publisher.run_append]
  refine ⟨b1, b2, ?_, ?_⟩
  · intro id
    refine (b4 id).trans ?_
    rw [hf]
    exact a4 id
  · show (((s.run m1).step .flush).run m2).backend.mem = none ∨ ∃ m, (((s.run m1).step .flush).run m2).backend.mem = some m ∧ _
    rw [b3, hf]
    show ((s.run m1).backend.step .flush).mem = none ∨ ∃ m, ((s.run m1).backend.step .flush).mem = some m ∧ _
    simp only [Backend.step]
    split
    · next hm => exact .inl hm
    · split
      · exact .inr ⟨_, rfl, rfl⟩
      · exact .inl rfl

/-- **C81** A client that was not told when the caller of a registration is cancelled is not told later, whatever
happens. -/
theorem C81_cancelled (conf : Conf) (useC : Bool) (token : Option String) (acts more : List PubAct) {k id : Nat}
    (hk : k ∈ ((Publisher.init conf useC token).run acts).cancelled)
    (hl : (((Publisher.init conf useC token).run acts).server.conns id).lost = false)
    (hno : notesOf k (((Publisher.init conf useC token).run acts).server.conns id).sent = []) :
    notesOf k (((Publisher.init conf useC token).run (acts ++ more)).server.conns id).sent = [] := by
  have hap := Publisher.apart_run (Publisher.apart_init conf useC token) acts
  obtain ⟨p, hp, rfl⟩ := hap.canc _ hk
  obtain ⟨evs, h0⟩ := server_run conf useC token acts
  have hu : (((Publisher.init conf useC token).run acts).server.calls p.1).state id = .unsent := by
    rcases (EvServer.notesOk_run useC token evs).note p.1 id with h | ⟨_, es, _, h | h⟩
    · rw [h0]; exact h.1
    · rw [← h0, hno] at h; cases h
    · rw [← h0, hl] at h; cases h.1
  have hc := (Publisher.cancelled_run (hap.regs p hp) hk hu more).2.2
  rw [← Publisher.run_append] at hc
  obtain ⟨evs', h1⟩ := server_run conf useC token (acts ++ more)
  rcases (EvServer.notesOk_run useC token evs').note p.1 id with h | h
  · rw [h1]; exact h.2
  · rw [← h1] at h; exact absurd hc h.1

/-- An event. -/
def exNews : Event := exNotified ["a"] 3

/-- Two clients are connected and a registration is made. -/
def exPub (persisted : Bool) : List PubAct :=
  (exConnect 0 (exReq false none) ++ exConnect 1 (exReq persisted none)).map .server

/-- The caller is cancelled after the first client was served. -/
def exCut : List PubAct := exPub false ++ [.register [exNews], .server (.send 0 0), .cancel 0]

example :
    let s0 := (Publisher.init exKeep false none).run (exPub true)
    let s := (Publisher.init exKeep false none).run
      (exPub true ++ .register [exNews] :: [.server (.send 0 0), .flush, .announce, .server (.send 1 1)])
    s0.backend.mem ≠ none ∧ (∃ sub, (0, (⟨exReq false none, sub⟩ : ConnInfo)) ∈ s0.server.infos) ∧
      (∃ sub, (1, (⟨exReq true none, sub⟩ : ConnInfo)) ∈ s0.server.infos) ∧
      wanted (exReq false none) [exNews] ≠ [] ∧ wanted (exReq true none) [exNews] ≠ [] ∧
      (s.server.conns 0).lost = false ∧ (s.server.conns 1).lost = false ∧ 0 ∉ s.cancelled ∧
      s.flushing = [] ∧ s.free = true ∧ (∃ m, s.backend.mem = some m ∧ m.registered = []) ∧
      notesOf 0 (s.server.conns 0).sent = [[exNews]] ∧ notesOf 1 (s.server.conns 1).sent = [[exNews]] := by
  have hw : ∀ b, wanted (exReq b none) [exNews] ≠ [] := by
    intro b h
    have : exNews ∈ wanted (exReq b none) [exNews] :=
      List.mem_filter.2 ⟨by simp, by
        simp only [decide_eq_true_eq]
        exact ⟨⟨["a", "*"], List.mem_singleton.2 rfl, .same "a" (.star [])⟩, .inl rfl⟩⟩
    rw [h] at this
    cases this
  refine ⟨?_, ⟨_, List.mem_cons_self⟩, ⟨_, List.mem_cons_of_mem _ List.mem_cons_self⟩, hw false, hw true, rfl, rfl, ?_, rfl, rfl,
    ⟨_, rfl, rfl⟩, rfl, rfl⟩
  · rw [Ne, ← Option.isNone_iff_eq_none]; exact Bool.false_ne_true
  · exact List.not_mem_nil

/-- **C81 does not hold** for a registration whose caller is cancelled: the event is returned by queries, a client
that asked for it stays connected, and is not told of the registration whatever happens later. -/
theorem C81_refuted : ∃ (conf : Conf) (acts : List PubAct) (e : Event) (sub : Sub),
    let s := (Publisher.init conf false none).run acts
    (1, (⟨exReq false none, sub⟩ : ConnInfo)) ∈ s.server.infos ∧ (s.server.conns 1).lost = false ∧
      s.registers = [(0, [e])] ∧ s.backend.query (.latest none) = .ok ⟨[e], false⟩ ∧
      notesOf 0 (s.server.conns 0).sent = [[e]] ∧
      ∀ more, notesOf 0 (((Publisher.init conf false none).run (acts ++ more)).server.conns 1).sent = [] := by
  refine ⟨exKeep, exCut, exNews, _, List.mem_cons_of_mem _ List.mem_cons_self, rfl, rfl, rfl, rfl, fun more => ?_⟩
  exact C81_cancelled exKeep false none exCut more (List.mem_singleton.2 rfl) rfl rfl

end HatEvent
