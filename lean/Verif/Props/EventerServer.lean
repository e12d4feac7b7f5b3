import Verif.Proof.EventerNotes
import Verif.Props.Subscription

/-!
# Eventer server (C39, C40, C41, C42)
-/

namespace HatEvent
open Spec EvServer

/-- A client that asks for everything under `a`. -/
def exReq (persisted : Bool) (token : Option String) : InitReq :=
  ⟨"client", token, [["a", "*"]], none, persisted⟩

/-- An event. -/
def exNotified (type : EventType) (session : Int) : Event := ⟨⟨1, session, 1⟩, type, ⟨session, 0⟩, none, none⟩

/-- A client connects. -/
def exConnect (id : Nat) (req : InitReq) : List EvAct := [.accept, .receive id (.init req), .connected id true]

/-! ## C39 -/

theorem selectEvents_eq {s : EvServer} {info : ConnInfo} (h : GoodInfo s info)
    (hn : s.useC = true → ∀ q ∈ info.req.subscriptions, NulFree q) (events : List Event) :
    selectEvents info events = wanted info.req events := by
  have hsub : ∀ t, info.subscription.matches t = true ↔ MatchesAny info.req.subscriptions t := by
    intro t
    have hg := h.2
    unfold createSubscription at hg
    split at hg
    · next hu => exact (C03_c_subscription _ (hn hu)).1 _ hg t
    · exact (C02_py_subscription _).1 _ hg t
  unfold selectEvents wanted
  apply List.filter_congr
  intro e _
  rw [Bool.eq_iff_iff]
  simp only [Bool.and_eq_true, Bool.or_eq_true, decide_eq_true_eq, hsub, Option.isNone_iff_eq_none,
    beq_iff_eq]

/-- Facts about a call of `notify_events`. -/
theorem call_facts (useC : Bool) (token : Option String) (before after : List EvAct) (events : List Event)
    (persisted withAck : Bool) :
    let s0 := (EvServer.init useC token).run before
    let s := (EvServer.init useC token).run (before ++ .notify events persisted withAck :: after)
    (s.calls s0.nextCall).targets = s0.infos.filterMap (target events persisted) ∧
      (s.calls s0.nextCall).withAck = withAck := by
  intro s0 s
  have hs : s = (s0.step (.notify events persisted withAck)).run after := by
    show (EvServer.init useC token).run _ = _
    rw [run_append]
    rfl
  have hk : s0.nextCall < (s0.step (.notify events persisted withAck)).nextCall := Nat.lt_succ_self _
  obtain ⟨_, h2, h3⟩ := targets_run after hk
  rw [hs, h2, h3]
  simp [step, notify]

theorem target_unique {s : EvServer} (h : InfosOk s) {events : List Event} {persisted : Bool} {id : Nat}
    {info : ConnInfo} {es : List Event} (hm : (id, info) ∈ s.infos)
    (ht : (id, es) ∈ s.infos.filterMap (target events persisted)) :
    info.req.persisted = persisted ∧ selectEvents info events ≠ [] ∧ es = selectEvents info events := by
  obtain ⟨p, hp, he⟩ := List.mem_filterMap.1 ht
  unfold target at he
  split at he
  · cases he
  · next h1 =>
    split at he
    · cases he
    · next h2 =>
      simp only [Option.some.injEq, Prod.mk.injEq] at he
      obtain ⟨he1, he2⟩ := he
      have hpe : p = (id, info) := List.inj_on_of_nodup_map h.nodup hp hm he1
      subst hpe
      exact ⟨not_not.1 h1, fun h => h2 (by simpa using h), he2.symm⟩

/-- **C39** For every set of connections, every list of events and everything that happens afterwards: a
client that is known when `notify_events` is called gets for this call nothing or one message with
the events it asked for, in order; and nothing if its persisted flag is different or it did not ask for any of the events. -/
theorem C39_selected (useC : Bool) (token : Option String) (before after : List EvAct) (events : List Event)
    (persisted withAck : Bool) {id : Nat} {info : ConnInfo}
    (hm : (id, info) ∈ ((EvServer.init useC token).run before).infos)
    (hn : useC = true → ∀ q ∈ info.req.subscriptions, NulFree q) :
    let notes := notesOf ((EvServer.init useC token).run before).nextCall
      (((EvServer.init useC token).run (before ++ .notify events persisted withAck :: after)).conns id).sent
    notes = [] ∨ (info.req.persisted = persisted ∧ wanted info.req events ≠ [] ∧ notes = [wanted info.req events]) := by
  intro notes
  have hinf := infosOk_run useC token before
  obtain ⟨ht, _⟩ := call_facts useC token before after events persisted withAck
  have hu : ((EvServer.init useC token).run before).useC = useC := by
    exact useC_run useC token before
  rcases (notesOk_run useC token (before ++ .notify events persisted withAck :: after)).note
    ((EvServer.init useC token).run before).nextCall id with h | ⟨_, es, h1, h2⟩
  · exact .inl h.2
  · rw [ht] at h1
    obtain ⟨e1, e2, e3⟩ := target_unique hinf hm h1
    have hg := hinf.good _ hm
    have hsel := selectEvents_eq hg (fun h => hn (hu ▸ h)) events
    change GoodInfo _ info at hg
    rw [hsel] at e2 e3
    rcases h2 with h2 | h2
    · exact .inr ⟨e1, e2, by rw [← e3]; exact h2⟩
    · exact .inl h2.2

/-- **C39** A client that is not known when `notify_events` is called gets nothing for this call. -/
theorem C39_others (useC : Bool) (token : Option String) (before after : List EvAct) (events : List Event)
    (persisted withAck : Bool) {id : Nat}
    (hm : ∀ info, (id, info) ∉ ((EvServer.init useC token).run before).infos) :
    notesOf ((EvServer.init useC token).run before).nextCall
      (((EvServer.init useC token).run (before ++ .notify events persisted withAck :: after)).conns id).sent = [] := by
  obtain ⟨ht, _⟩ := call_facts useC token before after events persisted withAck
  rcases (notesOk_run useC token (before ++ .notify events persisted withAck :: after)).note
    ((EvServer.init useC token).run before).nextCall id with h | ⟨_, es, h1, h2⟩
  · exact h.2
  · rw [ht] at h1
    obtain ⟨p, hp, he⟩ := List.mem_filterMap.1 h1
    unfold target at he
    split at he
    · cases he
    · split at he
      · cases he
      · simp only [Option.some.injEq, Prod.mk.injEq] at he
        exact absurd (he.1 ▸ hp) (hm p.2)

/-- **C39** When `notify_events` has returned, a client that asked for some of the events, with the same persisted
flag, and whose connection is not lost, has got the message. -/
theorem C39_sent (useC : Bool) (token : Option String) (before after : List EvAct) (events : List Event)
    (persisted withAck : Bool) {id : Nat} {info : ConnInfo}
    (hm : (id, info) ∈ ((EvServer.init useC token).run before).infos)
    (hn : useC = true → ∀ q ∈ info.req.subscriptions, NulFree q)
    (hp : info.req.persisted = persisted) (hw : wanted info.req events ≠ [])
    (hr : (((EvServer.init useC token).run (before ++ .notify events persisted withAck :: after)).calls
      ((EvServer.init useC token).run before).nextCall).returned)
    (hl : (((EvServer.init useC token).run (before ++ .notify events persisted withAck :: after)).conns id).lost = false) :
    notesOf ((EvServer.init useC token).run before).nextCall
      (((EvServer.init useC token).run (before ++ .notify events persisted withAck :: after)).conns id).sent =
      [wanted info.req events] := by
  have hinf := infosOk_run useC token before
  obtain ⟨ht, _⟩ := call_facts useC token before after events persisted withAck
  have hu : ((EvServer.init useC token).run before).useC = useC := by
    exact useC_run useC token before
  have hsel := selectEvents_eq (hinf.good _ hm) (fun h => hn (hu ▸ h)) events
  have htar : (id, selectEvents info events) ∈
      ((EvServer.init useC token).run before).infos.filterMap (target events persisted) := by
    refine List.mem_filterMap.2 ⟨(id, info), hm, ?_⟩
    unfold target
    rw [if_neg (not_not.2 hp), if_neg]
    intro h
    rw [List.isEmpty_iff] at h
    exact hw (hsel.symm.trans h)
  have hd := hr _ (by rw [ht]; exact htar)
  rcases (notesOk_run useC token (before ++ .notify events persisted withAck :: after)).note
    ((EvServer.init useC token).run before).nextCall id with h | ⟨_, es, h1, h2⟩
  · rw [hd] at h; exact absurd h.1 (by simp)
  · rw [ht] at h1
    obtain ⟨_, _, e3⟩ := target_unique hinf hm h1
    rw [← hsel, ← e3]
    rcases h2 with h2 | ⟨h2, _⟩
    · exact h2
    · rw [hl] at h2; cases h2

/-- Two clients, one with another persisted flag. -/
def exClients : List EvAct := exConnect 0 (exReq false none) ++ exConnect 1 (exReq true none)

example :
    let before := exClients
    let after : List EvAct := [.send 0 0]
    let events := [exNotified ["a", "b"] 1, exNotified ["c"] 2, exNotified ["a"] 3]
    let s := (EvServer.init false none).run (before ++ .notify events false false :: after)
    (∃ sub, (0, (⟨exReq false none, sub⟩ : ConnInfo)) ∈ ((EvServer.init false none).run before).infos) ∧
      (s.calls 0).returned ∧ (s.conns 0).lost = false ∧
      notesOf 0 (s.conns 0).sent = [[exNotified ["a", "b"] 1, exNotified ["a"] 3]] ∧
      notesOf 0 (s.conns 1).sent = [] := by
  refine ⟨⟨_, List.mem_cons_self⟩, ?_, rfl, rfl, rfl⟩
  intro t ht
  obtain rfl : t = (0, [exNotified ["a", "b"] 1, exNotified ["a"] 3]) := List.mem_singleton.1 ht
  rfl

/-! ## C40 -/

/-- **C40** A known client presented no token or the token of the server. -/
theorem C40_known (useC : Bool) (token : Option String) (acts : List EvAct) {id : Nat} {info : ConnInfo}
    (hm : (id, info) ∈ ((EvServer.init useC token).run acts).infos) :
    info.req.clientToken = none ∨ info.req.clientToken = token := by
  have hg := ((infosOk_run useC token acts).good _ hm).1
  rw [token_run] at hg
  exact hg

/-- **C40** A client with another token gets an error, if its connection is not lost, and nothing else, its requests are not
processed and it never becomes known, whatever it sends and whatever happens. -/
theorem C40_rejected (useC : Bool) (token : Option String) (before after : List EvAct) {id : Nat} {req : InitReq}
    (hw : (((EvServer.init useC token).run before).conns id).phase = .waiting)
    (ht : ¬ (req.clientToken = none ∨ req.clientToken = token)) :
    let s := (EvServer.init useC token).run (before ++ .receive id (.init req) :: after)
    (∀ info, (id, info) ∉ s.infos) ∧ (s.conns id).handled = [] ∧
      ((s.conns id).sent = [] ∨ (s.conns id).sent = [.initError]) ∧
      ((((EvServer.init useC token).run before).conns id).lost = false → (s.conns id).sent = [.initError]) := by
  intro s
  have hs : s = (((EvServer.init useC token).run before).step (.receive id (.init req))).run after := by
    show (EvServer.init useC token).run _ = _
    rw [run_append]
    rfl
  have hf0 := fresh_run useC token before
  have ho0 : Out ((EvServer.init useC token).run before) id := out_run (by rw [hw]; rfl)
  have htok : ((EvServer.init useC token).run before).token = token := token_run useC token before
  generalize (EvServer.init useC token).run before = s0 at *
  have hrej : s0.step (.receive id (.init req)) = s0.reject id := by
    simp only [step, receive, hw, initConn]
    split
    · rfl
    · rw [if_neg]
      intro h
      rw [tokenOk_iff, htok] at h
      exact ht h
  have ho1 : Out (s0.step (.receive id (.init req))) id :=
    out_step _ ho0 (hf0 _ (Nat.le_refl _)) (by intro info h; rw [hw] at h; cases h)
  have hf1 : Fresh (s0.step (.receive id (.init req))) := fresh_step _ hf0
  have hsent0 : (s0.conns id).sent = [] := ho0.conn.sent_nil (by rw [hw]; simp) (by rw [hw]; simp)
  have hp1 : ((s0.step (.receive id (.init req))).conns id).phase = .rejected ∨
      ((s0.step (.receive id (.init req))).conns id).phase = .ended := by
    rw [hrej, reject_conns, if_pos rfl]
    split
    · exact .inr rfl
    · exact .inl rfl
  have hlast : (s0.conns id).lost = false →
      ((s0.step (.receive id (.init req))).conns id).sent = [.initError] := by
    intro hl
    rw [hrej, reject_conns, if_pos rfl, if_neg (by rw [hl]; simp)]
    simp [hsent0]
  rw [hs]
  generalize s0.step (.receive id (.init req)) = s1 at ho1 hf1 hp1 hlast ⊢
  have key : ∀ acts, Fresh (s1.run acts) ∧ Out (s1.run acts) id ∧
      (((s1.run acts).conns id).phase = .rejected ∨ ((s1.run acts).conns id).phase = .ended) ∧
      ((s0.conns id).lost = false → ((s1.run acts).conns id).sent = [.initError]) := by
    intro acts
    induction acts using List.reverseRecOn with
    | nil => exact ⟨hf1, ho1, hp1, hlast⟩
    | append_singleton acts a ih =>
      obtain ⟨i1, i2, i3, i4⟩ := ih
      rw [run_snoc]
      obtain ⟨a1, a2⟩ := away_step (a := a) i1 i3 i2
      refine ⟨fresh_step a i1, a2, a1, ?_⟩
      intro hl
      have h1 := i4 hl
      have hg := (later_step (s1.run acts) a).sent id
      rcases a2.conn.sent with h2 | h2
      · have := hg.subset (show ServerMsg.initError ∈ _ by rw [h1]; exact List.mem_singleton.2 rfl)
        rw [h2] at this
        cases this
      · exact h2.1
  obtain ⟨_, k2, _, k4⟩ := key after
  refine ⟨k2.infos, k2.conn.handled, ?_, k4⟩
  rcases k2.conn.sent with h | h
  · exact .inl h
  · exact .inr h.1

/-- **C40** A client with no token or the token of the server, and with a valid subscription, becomes known and is told the status, if its
connection is not lost and the connected callback does not raise; it does not matter what happens
meanwhile. -/
theorem C40_admitted (useC : Bool) (token : Option String) (before during : List EvAct) {id : Nat} {req : InitReq}
    {sub : Sub} (hw : (((EvServer.init useC token).run before).conns id).phase = .waiting)
    (hl : (((EvServer.init useC token).run before).conns id).lost = false)
    (ht : req.clientToken = none ∨ req.clientToken = token) (hsub : createSubscription useC req.subscriptions = .ok sub)
    (hd1 : .lose id ∉ during) (hd2 : ∀ ok, .connected id ok ∉ during) :
    let s := (EvServer.init useC token).run (before ++ .receive id (.init req) :: during ++ [.connected id true])
    (id, (⟨req, sub⟩ : ConnInfo)) ∈ s.infos ∧ (s.conns id).sent = [.initOk s.status] := by
  intro s
  have hs : s = ((((EvServer.init useC token).run before).step (.receive id (.init req))).run during).step
      (.connected id true) := by
    show (EvServer.init useC token).run _ = _
    rw [run_snoc, run_append]
    rfl
  have hmid : (EvServer.init useC token).run (before ++ .receive id (.init req) :: during) =
      (((EvServer.init useC token).run before).step (.receive id (.init req))).run during := by
    rw [run_append]; rfl
  have hf0 := fresh_run useC token before
  have htok : ((EvServer.init useC token).run before).token = token := token_run useC token before
  have huse : ((EvServer.init useC token).run before).useC = useC := useC_run useC token before
  have hout : ∀ ph, (((EvServer.init useC token).run (before ++ .receive id (.init req) :: during)).conns id).phase = ph →
      ph.early = true → Out ((EvServer.init useC token).run (before ++ .receive id (.init req) :: during)) id :=
    fun ph h he => out_run (by rw [h]; exact he)
  rw [hmid] at hout
  generalize (EvServer.init useC token).run before = s0 at *
  have h1 : s0.step (.receive id (.init req)) =
      s0.setConn id fun c => { c with phase := .connecting ⟨req, sub⟩ } := by
    simp only [step, receive, hw, initConn, huse, hsub]
    rw [if_pos]
    rw [tokenOk_iff, htok]
    exact ht
  have key : ∀ acts, (.lose id ∉ acts) → (∀ ok, .connected id ok ∉ acts) →
      Fresh ((s0.step (.receive id (.init req))).run acts) ∧
      (((s0.step (.receive id (.init req))).run acts).conns id).phase = .connecting ⟨req, sub⟩ ∧
      (((s0.step (.receive id (.init req))).run acts).conns id).lost = false := by
    intro acts
    induction acts using List.reverseRecOn with
    | nil =>
      intro _ _
      refine ⟨fresh_step (.receive id (.init req)) hf0, ?_, ?_⟩
      · show ((s0.step (.receive id (.init req))).conns id).phase = _
        rw [h1, setConn_self]
      · show ((s0.step (.receive id (.init req))).conns id).lost = _
        rw [h1, setConn_self]
        exact hl
    | append_singleton acts a ih =>
      intro ha1 ha2
      simp only [List.mem_append, List.mem_singleton, not_or] at ha1 ha2
      obtain ⟨i1, i2, i3⟩ := ih ha1.1 fun ok => (ha2 ok).1
      rw [run_snoc]
      obtain ⟨c1, c2⟩ := connecting_step i1 i2 (Ne.symm ha1.2) (fun ok => Ne.symm (ha2 ok).2)
      exact ⟨fresh_step a i1, c1, c2.trans i3⟩
  obtain ⟨_, k2, k3⟩ := key during hd1 hd2
  have ho := hout _ k2 rfl
  have hnil := ho.conn.sent_nil (by rw [k2]; simp) (by rw [k2]; simp)
  rw [hs]
  generalize (s0.step (.receive id (.init req))).run during = s2 at k2 k3 hnil ⊢
  have h3 : s2.step (.connected id true) = s2.establish id ⟨req, sub⟩ := by
    simp only [step, connected, k2, k3]
    rfl
  rw [h3]
  refine ⟨List.mem_append_right _ (List.mem_singleton.2 rfl), ?_⟩
  rw [establish_conns, if_pos rfl, hnil]
  rfl

example : (((EvServer.init false (some "secret")).run [.accept]).conns 0).phase = .waiting ∧
    ¬ ((exReq false (some "guess")).clientToken = none ∨ (exReq false (some "guess")).clientToken = some "secret") ∧
    (((EvServer.init false (some "secret")).run ([.accept] ++ .receive 0 (.init (exReq false (some "guess"))) ::
      [.connected 0 true, .receive 0 (.register 0 [] false), .setStatus .starting, .giveUp 0])).conns 0).sent =
      [.initError] :=
  ⟨rfl, by simp [exReq], rfl⟩

example : (((EvServer.init false (some "secret")).run [.accept]).conns 0).phase = .waiting ∧
    (((EvServer.init false (some "secret")).run [.accept]).conns 0).lost = false ∧
    (exReq false (some "secret")).clientToken = some "secret" ∧
    (∃ sub, createSubscription false (exReq false (some "secret")).subscriptions = .ok sub) ∧
    (.lose 0 : EvAct) ∉ [EvAct.setStatus .starting] ∧ (∀ ok, (.connected 0 ok : EvAct) ∉ [EvAct.setStatus .starting]) :=
  ⟨rfl, rfl, rfl, ⟨_, rfl⟩, by simp, by simp⟩

/-! ## C41 -/

/-- **C41** When no call of `set_status` is running, every known client whose connection is not lost was told the status of the
server last, for every interleaving of connections, disconnections and overlapping changes. -/
theorem C41_converged (useC : Bool) (token : Option String) (acts : List EvAct)
    (ht : ∀ k, ((EvServer.init useC token).run acts).tasks k = []) {id : Nat} {info : ConnInfo}
    (hm : (id, info) ∈ ((EvServer.init useC token).run acts).infos)
    (hl : (((EvServer.init useC token).run acts).conns id).lost = false) :
    (statuses (((EvServer.init useC token).run acts).conns id).sent).getLast? =
      some ((EvServer.init useC token).run acts).status := by
  rcases told_run useC token acts _ hm hl with h | ⟨k, h⟩
  · exact h
  · rw [ht] at h; cases h

/-- The argument of `set_status`. -/
def EvAct.status? : EvAct → Option Status
  | .setStatus status => some status
  | _ => none

/-- **C41** The status of the server is the one given by the latest call of `set_status`, at the beginning it is STANDBY. -/
theorem C41_current (useC : Bool) (token : Option String) (acts : List EvAct) :
    ((EvServer.init useC token).run acts).status = (acts.filterMap EvAct.status?).getLast?.getD .standby := by
  induction acts using List.reverseRecOn with
  | nil => rfl
  | append_singleton acts a ih =>
    rw [run_snoc, status_step, List.filterMap_append]
    cases a with
    | setStatus status => simp [EvAct.status?]
    | _ => simpa [EvAct.status?] using ih

/-- Overlapping changes: the second one is made when the first has told one of two clients. -/
def exStatuses : List EvAct :=
  exClients ++ [.setStatus .starting, .statusStep 0, .setStatus .operational, .statusStep 1, .statusStep 0, .statusStep 1]

example : (∀ k, ((EvServer.init false none).run exStatuses).tasks k = []) ∧
    ((EvServer.init false none).run exStatuses).infos.map Prod.fst = [0, 1] ∧
    ((EvServer.init false none).run exStatuses).status = .operational ∧
    statuses (((EvServer.init false none).run exStatuses).conns 0).sent = [.standby, .starting, .operational] ∧
    statuses (((EvServer.init false none).run exStatuses).conns 1).sent = [.standby, .operational, .operational] := by
  refine ⟨?_, rfl, rfl, rfl, rfl⟩
  intro k
  match k with
  | 0 => rfl
  | 1 => rfl
  | k + 2 => rfl

/-! ## C42 -/

/-- **C42** If no connection loop ends meanwhile, a call with acknowledgment returns only after every addressed client has
acknowledged its message or its connection is lost. Missing: that this holds if a loop ends, which is false. -/
theorem C42_partial (useC : Bool) (token : Option String) (before after : List EvAct) (events : List Event)
    (persisted : Bool)
    (hend : ∀ i, (((EvServer.init useC token).run (before ++ .notify events persisted true :: after)).conns i).phase =
      .ended → (((EvServer.init useC token).run before).conns i).phase = .ended)
    (hr : (((EvServer.init useC token).run (before ++ .notify events persisted true :: after)).calls
      ((EvServer.init useC token).run before).nextCall).returned)
    {id : Nat} {es : List Event}
    (hm : (id, es) ∈ (((EvServer.init useC token).run (before ++ .notify events persisted true :: after)).calls
      ((EvServer.init useC token).run before).nextCall).targets) :
    let c := ((EvServer.init useC token).run (before ++ .notify events persisted true :: after)).conns id
    c.lost = true ∨ ∃ conv, .events ((EvServer.init useC token).run before).nextCall conv es ∈ c.sent ∧ conv ∈ c.acks := by
  intro c
  obtain ⟨ht, hwa⟩ := call_facts useC token before after events persisted true
  have hinf := infosOk_run useC token before
  have hs : (EvServer.init useC token).run (before ++ .notify events persisted true :: after) =
      (((EvServer.init useC token).run before).step (.notify events persisted true)).run after := by
    rw [run_append]; rfl
  have hnodup : ∀ es', (id, es') ∈ (((EvServer.init useC token).run
      (before ++ .notify events persisted true :: after)).calls
      ((EvServer.init useC token).run before).nextCall).targets → es' = es := by
    intro es' h'
    rw [ht] at h' hm
    obtain ⟨p, hp, he⟩ := List.mem_filterMap.1 hm
    have hp1 : p.1 = id := by
      unfold target at he
      split at he
      · cases he
      · split at he
        · cases he
        · simp only [Option.some.injEq, Prod.mk.injEq] at he
          exact he.1
    have hp' : (id, p.2) ∈ ((EvServer.init useC token).run before).infos := hp1 ▸ hp
    rw [(target_unique hinf hp' h').2.2, (target_unique hinf hp' hm).2.2]
  have key : ∀ acts, Fresh ((((EvServer.init useC token).run before).step (.notify events persisted true)).run acts) ∧
      ((∃ i, (((EvServer.init useC token).run before).conns i).phase ≠ .ended ∧
        (((((EvServer.init useC token).run before).step (.notify events persisted true)).run acts).conns i).phase = .ended) ∨
      ∀ i, AckOk ((((EvServer.init useC token).run before).step (.notify events persisted true)).run acts)
        ((EvServer.init useC token).run before).nextCall i) ∧
      ∀ i, (((EvServer.init useC token).run before).conns i).phase = .ended →
        (((((EvServer.init useC token).run before).step (.notify events persisted true)).run acts).conns i).phase = .ended := by
    intro acts
    have hf0 := fresh_run useC token before
    generalize (EvServer.init useC token).run before = s0 at hf0 ⊢
    have hkeep : ∀ {s : EvServer} {a : EvAct} {i : Nat}, Fresh s → (s.conns i).phase = .ended →
        ((s.step a).conns i).phase = .ended := by
      intro s a i hf he
      rw [phase_idle (.inr he), he]
      rintro - rfl
      rw [hf _ (Nat.le_refl _)] at he
      cases he
    induction acts using List.reverseRecOn with
    | nil =>
      refine ⟨fresh_step (.notify events persisted true) hf0, .inr ?_, fun i h => h⟩
      intro i
      unfold AckOk
      simp [run, step, notify]
    | append_singleton acts a ih =>
      obtain ⟨i1, i2, i3⟩ := ih
      rw [run_snoc]
      refine ⟨fresh_step a i1, ?_, fun i h => hkeep i1 (i3 i h)⟩
      rcases i2 with ⟨i, h1, h2⟩ | h
      · exact .inl ⟨i, h1, hkeep i1 h2⟩
      · rcases ack_step a h with ⟨i, h1, h2⟩ | h
        · exact .inl ⟨i, fun he => h1 (i3 i he), h2⟩
        · exact .inr h
  obtain ⟨_, k | k, _⟩ := key after
  · obtain ⟨i, k1, k2⟩ := k
    rw [← hs] at k2
    exact absurd (hend i k2) k1
  · replace k := k id
    rw [← hs] at k
    unfold AckOk at k
    rw [hr _ hm] at k
    rw [hwa] at k
    rcases k with k | k | ⟨conv, es', h1, h2, h3⟩
    · cases k
    · exact .inl k
    · obtain rfl := hnodup es' h1
      exact .inr ⟨conv, h2, h3⟩

/-- Two clients are notified; the first acknowledges. -/
def exAcks : List EvAct :=
  [.send 0 0, .send 0 1, .await_ 0 0, .await_ 0 1, .receive 0 (.ack 0), .receive 1 (.ack 1)]

/-- Two equal clients. -/
def exEqual : List EvAct := exConnect 0 (exReq false none) ++ exConnect 1 (exReq false none)

example :
    let s := (EvServer.init false none).run (exEqual ++ .notify [exNotified ["a"] 1] false true :: exAcks)
    (∀ i, (s.conns i).phase = .ended → (((EvServer.init false none).run exEqual).conns i).phase = .ended) ∧
      (s.calls 0).returned ∧ (s.calls 0).targets = [(0, [exNotified ["a"] 1]), (1, [exNotified ["a"] 1])] := by
  refine ⟨?_, ?_, rfl⟩
  · intro i h
    match i with
    | 0 => cases h
    | 1 => cases h
    | i + 2 => cases h
  · intro t ht
    have ht : t ∈ [(0, [exNotified ["a"] 1]), (1, [exNotified ["a"] 1])] := ht
    simp only [List.mem_cons, List.not_mem_nil, or_false] at ht
    rcases ht with rfl | rfl <;> rfl

/-- **C42** is false: `_connection_loop` fails the futures of all connections when it stops (`server.py:205-207`). Here a third client
disconnects, and the call returns although the connections of the two addressed clients
are not lost and they acknowledged nothing. -/
theorem C42_refuted :
    ¬ ∀ (useC : Bool) (token : Option String) (before after : List EvAct) (events : List Event) (persisted : Bool),
      (((EvServer.init useC token).run (before ++ .notify events persisted true :: after)).calls
        ((EvServer.init useC token).run before).nextCall).returned →
      ∀ t ∈ (((EvServer.init useC token).run (before ++ .notify events persisted true :: after)).calls
        ((EvServer.init useC token).run before).nextCall).targets,
      let c := ((EvServer.init useC token).run (before ++ .notify events persisted true :: after)).conns t.1
      c.lost = true ∨ ∃ conv, .events ((EvServer.init useC token).run before).nextCall conv t.2 ∈ c.sent ∧ conv ∈ c.acks := by
  intro h
  have h := h false none (exEqual ++ [.accept]) [.send 0 0, .send 0 1, .await_ 0 0, .await_ 0 1, .lose 2, .giveUp 2]
    [exNotified ["a"] 1] false ?_ (0, [exNotified ["a"] 1]) List.mem_cons_self
  · rcases h with h | ⟨conv, _, h⟩
    · cases h
    · cases h
  · intro t ht
    have ht : t ∈ [(0, [exNotified ["a"] 1]), (1, [exNotified ["a"] 1])] := ht
    simp only [List.mem_cons, List.not_mem_nil, or_false] at ht
    rcases ht with rfl | rfl <;> rfl

end HatEvent
