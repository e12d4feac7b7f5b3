import Verif.Proof.Runner
import Verif.Props.Component

/-!
# Remote activity, client loops and the engine runner (C44, C45, C62)
-/

namespace HatEvent

/-- No status callback is delayed and no client is being closed. -/
def ClientRunner.Calm (s : ClientRunner) : Prop :=
  ∀ i, (s.loops i).at_ ≠ .closing ∧ ((s.loops i).at_ = .connected → (s.loops i).delayed = false)

/-- C44, what is missing: while a status callback is delayed or a lost client is not closed the flag is that of before (`C44_delayed_refuted`).
The flag is set exactly if some connected server reported a status other than STANDBY. -/
theorem C44_active_partial (group : String) (token : Option String) (acts : List RunnerAct)
    (h : ((Runners.init group token).run acts).clients.Calm) :
    ((Runners.init group token).run acts).clients.remoteActive = true ↔
      ∃ i, (((Runners.init group token).run acts).clients.loops i).at_ = .connected ∧
        (((Runners.init group token).run acts).clients.loops i).status ≠ .standby := by
  have hok := Runners.ok_run group token acts
  generalize ((Runners.init group token).run acts).clients = s at h hok
  rw [hok.note.rem]
  constructor
  · intro he
    obtain ⟨d, l, hd⟩ : ∃ d l, s.active = d :: l := by
      cases ha : s.active with
      | nil => rw [ha] at he; cases he
      | cons d l => exact ⟨d, l, rfl⟩
    obtain ⟨i, hc, e⟩ := hok.act.some_ d (by rw [hd]; exact List.mem_cons_self)
    rcases hc with hc | hc
    · exact ⟨i, hc, (hok.act.exact_ i (.inl hc) ((h i).2 hc)).1 (by rw [e, hd]; exact List.mem_cons_self)⟩
    · exact absurd hc (h i).1
  · rintro ⟨i, hc, hs⟩
    have := (hok.act.exact_ i (.inl hc) ((h i).2 hc)).2 hs
    cases ha : s.active with
    | nil => rw [ha] at this; cases this
    | cons => rfl

/-- The flag is set only while there is a client. -/
theorem C44_client (group : String) (token : Option String) (acts : List RunnerAct)
    (h : ((Runners.init group token).run acts).clients.remoteActive = true) :
    ∃ i, (((Runners.init group token).run acts).clients.loops i).at_ = .connected ∨
      (((Runners.init group token).run acts).clients.loops i).at_ = .closing := by
  have hok := Runners.ok_run group token acts
  generalize ((Runners.init group token).run acts).clients = s at h hok
  rw [hok.note.rem] at h
  cases ha : s.active with
  | nil => rw [ha] at h; cases h
  | cons d l =>
    obtain ⟨i, hc, e⟩ := hok.act.some_ d (by rw [ha]; exact List.mem_cons_self)
    exact ⟨i, hc⟩

/-- The callback is called exactly on changes: calls alternate, the first one is with true and the last one is with the flag. -/
theorem C44_callbacks (group : String) (token : Option String) (acts : List RunnerAct) :
    (false :: ((Runners.init group token).run acts).clients.notified).IsChain (· ≠ ·) ∧
      (false :: ((Runners.init group token).run acts).clients.notified).getLast? =
        some ((Runners.init group token).run acts).clients.remoteActive :=
  ⟨(Runners.ok_run group token acts).note.chain, (Runners.ok_run group token acts).note.last⟩

/-- The engine runner does not miss the end of the remote activity: while it waits and no server is active it can go on and does start. -/
theorem C44_wakes (group : String) (token : Option String) (acts : List RunnerAct)
    (h1 : ((Runners.init group token).run acts).at_ = .waiting)
    (h2 : ((Runners.init group token).run acts).clients.remoteActive = false) :
    ((Runners.init group token).run (acts ++ [.wake])).at_ = .starting := by
  have hg := (Runners.good_run group token acts).wait h1
  rw [Runners.run_snoc]
  generalize (Runners.init group token).run acts = s at h1 h2 hg
  have hw : s.clients.waiter = some true := by
    cases hw : s.clients.waiter with
    | none => exact absurd hw hg.1
    | some b =>
      cases b
      · have := hg.2 hw
        rw [h2] at this
        cases this
      · rfl
  simp [Runners.step, h1, hw, Runners.check, h2, Runners.announce]

/-- C44, what is missing: another server may become active between the check and the creation (`C44_engine_refuted`).
While the engine runner is starting or has an engine, no server was active when it was checked, and since then it is starting or has the engine. -/
theorem C44_engine_partial (group : String) (token : Option String) (acts : List RunnerAct)
    (h : Runners.Up ((Runners.init group token).run acts).at_) :
    ∃ before after, acts = before ++ after ∧ ((Runners.init group token).run before).clients.remoteActive = false ∧
      ∀ part, part ≠ [] → part <+: after → Runners.Up ((Runners.init group token).run (before ++ part)).at_ := by
  induction acts using List.reverseRecOn with
  | nil => simp [Runners.Up, Runners.run, Runners.init] at h
  | append_singleton acts a ih =>
    have h' := h
    rw [Runners.run_snoc] at h'
    rcases Runners.up_step _ a h' with hu | hr
    · obtain ⟨before, after, e, h1, h2⟩ := ih hu
      refine ⟨before, after ++ [a], by rw [e, List.append_assoc], h1, ?_⟩
      intro part hp hpre
      rcases List.prefix_concat_iff.1 hpre with e' | e'
      · rw [e', ← List.append_assoc, ← e]; exact h
      · exact h2 part hp e'
    · refine ⟨acts, [a], rfl, hr, ?_⟩
      intro part hp hpre
      have : part = [a] := by
        rcases (List.prefix_concat_iff (l₂ := []) (a := a)).1 hpre with e' | e'
        · exact e'
        · exact absurd (List.prefix_nil.1 e') hp
      rw [this]
      exact h

/-- Monitor state with another server. -/
def exState : MonitorState := ⟨some (exInfo 1 true), [exInfo 1 true, exInfo 2 true]⟩

/-- A client of server 2 is connected, the server is in STANDBY. -/
def exConnected (status : Status) : List RunnerAct :=
  [.client (.monitor exState), .client (.start 0), .client (.created 0 status)]

/-- C44 is false: server 2 becomes active after the check, the engine is created nevertheless. -/
theorem C44_engine_refuted : ∃ acts : List RunnerAct,
    ((Runners.init "group" none).run acts).at_ = .starting ∧
      ((Runners.init "group" none).run acts).clients.remoteActive = true ∧
      ((Runners.init "group" none).run acts).engine = none ∧
      ((Runners.init "group" none).run (acts ++ [.done, .done])).engine = some true ∧
      ((Runners.init "group" none).run (acts ++ [.done, .done])).clients.remoteActive = true :=
  ⟨exConnected .standby ++ [.start, .client (.report 0 .operational), .client (.callback 0)], by decide, by decide, by decide,
    by decide, by decide⟩

/-- C44 is false while a callback is delayed: server 2 is connected and reported OPERATIONAL, the flag is not set. -/
theorem C44_delayed_refuted : ∃ acts : List RunnerAct,
    (((Runners.init "group" none).run acts).clients.loops 0).at_ = .connected ∧
      (((Runners.init "group" none).run acts).clients.loops 0).status = .operational ∧
      ((Runners.init "group" none).run acts).clients.remoteActive = false :=
  ⟨exConnected .standby ++ [.client (.report 0 .operational)], by decide, by decide, by decide⟩

/-- The engine runner waits for server 2, then server 2 goes to STANDBY. -/
def exWaiting : List RunnerAct :=
  exConnected .operational ++ [.start, .client (.report 0 .standby), .client (.callback 0)]

example : ((Runners.init "group" none).run exWaiting).at_ = .waiting ∧
    ((Runners.init "group" none).run exWaiting).clients.remoteActive = false ∧
    ((Runners.init "group" none).run exWaiting).clients.notified = [true, false] ∧
    Runners.Up ((Runners.init "group" none).run (exWaiting ++ [.wake, .done, .done, .done])).at_ := by
  refine ⟨by decide, by decide, by decide, ?_⟩
  exact .inr (.inr (.inr (by decide)))

example : ((Runners.init "group" none).run (exConnected .operational)).clients.Calm ∧
    ((Runners.init "group" none).run (exConnected .operational)).clients.remoteActive = true := by
  refine ⟨?_, by decide⟩
  intro i
  rcases i with _ | i
  · exact ⟨by decide, fun _ => by decide⟩
  · have : (((Runners.init "group" none).run (exConnected .operational)).clients.loops (i + 1)).at_ = .absent := by
      exact (Runners.ok_run "group" none (exConnected .operational)).str.fresh (i + 1) (Nat.le_add_left 1 i)
    rw [this]
    exact ⟨by decide, fun h => nomatch h⟩

/-! ## Client loops -/

/-- The task of the loop runs. -/
def ClientLoop.Runs (l : ClientLoop) : Prop :=
  l.at_ = .spawned ∨ l.at_ = .connecting ∨ l.at_ = .sleeping ∨ l.at_ = .connected ∨ l.at_ = .closing

theorem runs_held {l : ClientLoop} (h : l.Runs) : ClientRunner.Held l := by
  rcases h with h | h | h | h | h <;> simp [ClientRunner.Held, h]

theorem held_runs {l : ClientLoop} (h : ClientRunner.Held l) (hn : l.at_ ≠ .never) : l.Runs := by
  unfold ClientLoop.Runs
  unfold ClientRunner.Held at h
  cases hl : l.at_ <;> simp_all

/-- Each valid server has exactly one running loop as long as the runner is open. -/
theorem C45_one (group : String) (token : Option String) (acts : List ClientAct)
    (ho : ((ClientRunner.init group token).run acts).isOpen = true) (d : ServerAddr)
    (hd : d ∈ ((ClientRunner.init group token).run acts).valid) :
    ∃ i, (((ClientRunner.init group token).run acts).loops i).Runs ∧
      (((ClientRunner.init group token).run acts).loops i).data = d ∧
      ∀ j, (((ClientRunner.init group token).run acts).loops j).Runs →
        (((ClientRunner.init group token).run acts).loops j).data = d → j = i := by
  have hok := (ClientRunner.ok_run group token acts).str
  generalize (ClientRunner.init group token).run acts = s at ho hd hok
  obtain ⟨i, hi, e⟩ := hok.own d (hok.cover ho d hd)
  refine ⟨i, held_runs hi ?_, e, ?_⟩
  · intro hn
    rw [hok.never i hn] at ho
    cases ho
  · intro j hj ej
    exact hok.uniq j i (runs_held hj) hi (ej.trans e.symm)

/-- There are never two loops for one server, so never two connections to it. -/
theorem C45_unique (group : String) (token : Option String) (acts : List ClientAct) (i j : Nat)
    (hi : (((ClientRunner.init group token).run acts).loops i).Runs)
    (hj : (((ClientRunner.init group token).run acts).loops j).Runs)
    (e : (((ClientRunner.init group token).run acts).loops i).data = (((ClientRunner.init group token).run acts).loops j).data) :
    i = j :=
  (ClientRunner.ok_run group token acts).str.uniq i j (runs_held hi) (runs_held hj) e

/-- Two infos of components are equal: all their fields are, data up to the equality of JSON data in python. -/
def SameInfo (a b : MonitorInfo) : Prop :=
  a.cid = b.cid ∧ a.mid = b.mid ∧ a.name = b.name ∧ a.group = b.group ∧ pyEq a.data b.data = true ∧ a.rank = b.rank ∧
    a.reqToken = b.reqToken ∧ a.resToken = b.resToken

theorem sameInfo_iff (a b : MonitorInfo) : a.eq b = false ↔ ¬ SameInfo a b := by
  rw [← Bool.not_eq_true]
  unfold MonitorInfo.eq SameInfo
  simp only [Bool.and_eq_true, beq_iff_eq, and_assoc]

/-- The valid servers are those that the last monitor state describes: in the group, other than this server, with the same token. -/
theorem C45_servers (group : String) (token : Option String) (acts rest : List ClientAct) (state : MonitorState)
    (hr : ∀ state', .monitor state' ∉ rest) (d : ServerAddr) :
    d ∈ ((ClientRunner.init group token).run (acts ++ .monitor state :: rest)).valid ↔
      ∃ info ∈ state.components, info.group = group ∧ (∀ me, state.info = some me → ¬ SameInfo info me) ∧
        ∃ data, Describes info.data data ∧ data.addr = d ∧ (token = none ∨ data.token = token) := by
  have hv : ((ClientRunner.init group token).run (acts ++ .monitor state :: rest)).valid = eventerServerData group token state := by
    induction rest using List.reverseRecOn with
    | nil =>
      have hc := ClientRunner.conf_run group token acts
      rw [ClientRunner.run_snoc, (ClientRunner.valid_monitor _ state).1, hc.1, hc.2]
    | append_singleton rest a ih =>
      rw [show acts ++ .monitor state :: (rest ++ [a]) = (acts ++ .monitor state :: rest) ++ [a] by simp, ClientRunner.run_snoc,
        (ClientRunner.same_step _ a (fun st e => hr st (by rw [e]; simp))).1]
      exact ih fun st h => hr st (List.mem_append_left _ h)
  rw [hv, eventerServerData, List.mem_filterMap]
  constructor
  · rintro ⟨info, hm, h⟩
    unfold eventerServerDataOf at h
    split at h
    · cases h
    · next h1 =>
      simp only [Bool.or_eq_true, not_or, bne_iff_ne, ne_eq, not_not, Bool.not_eq_true] at h1
      split at h
      · cases h
      · next data hdata =>
        split at h
        · cases h
        · next ht =>
          cases h
          refine ⟨info, hm, h1.2, ?_, data, readServerData_some.1 hdata, rfl, ?_⟩
          · intro me e
            have := h1.1
            rw [e] at this
            exact (sameInfo_iff _ _).1 this
          · cases token with
            | none => exact .inl rfl
            | some t => exact .inr (by simpa using ht)
  · rintro ⟨info, hm, hg, hme, data, hdata, e, ht⟩
    refine ⟨info, hm, ?_⟩
    unfold eventerServerDataOf
    rw [if_neg, readServerData_some.2 hdata]
    · dsimp only
      rw [if_neg, e]
      rcases ht with ht | ht
      · rw [ht]; simp
      · rw [ht]; simp
    · simp only [Bool.or_eq_true, not_or, bne_iff_ne, ne_eq, not_not, Bool.not_eq_true]
      refine ⟨?_, hg⟩
      cases hi : state.info with
      | none => rfl
      | some me => exact (sameInfo_iff _ _).2 (hme me hi)

/-- The loop of a server that is not valid any more ends when its connection is closed, and at every other end of waiting; it does not connect again. -/
theorem C45_removed (group : String) (token : Option String) (acts : List ClientAct) (i : Nat) (a : ClientAct)
    (hd : (((ClientRunner.init group token).run acts).loops i).data ∉ ((ClientRunner.init group token).run acts).valid)
    (ha : (((ClientRunner.init group token).run acts).loops i).at_ = .closing ∧ a = .clientClosed i ∨
      (((ClientRunner.init group token).run acts).loops i).at_ = .sleeping ∧ a = .slept i ∨
      (((ClientRunner.init group token).run acts).loops i).at_ = .spawned ∧ a = .start i) :
    (((ClientRunner.init group token).run (acts ++ [a])).loops i).at_ = .ended := by
  rw [ClientRunner.run_snoc]
  generalize (ClientRunner.init group token).run acts = s at hd ha
  have he : ((s.endLoop i).loops i).at_ = .ended := by simp [ClientRunner.endLoop, ClientRunner.setLoop]
  have hi : ((s.iterate i).loops i).at_ = .ended := by rw [ClientRunner.iterate, if_neg hd]; exact he
  rcases ha with ⟨ha, rfl⟩ | ⟨ha, rfl⟩ | ⟨ha, rfl⟩
  · simp only [ClientRunner.step, ClientRunner.clientClosed, if_pos ha]
    split
    exacts [he, hi]
  · simp only [ClientRunner.step, if_pos ha]; exact hi
  · simp only [ClientRunner.step, if_pos ha]; exact hi

/-- Server 2 appears, is connected, disappears and its connection is lost. -/
def exRemoved : List ClientAct :=
  [.monitor exState, .start 0, .created 0 .operational, .monitor ⟨some (exInfo 1 true), [exInfo 1 true]⟩, .lose 0]

example : ((ClientRunner.init "group" none).run exRemoved).valid = [] ∧
    (((ClientRunner.init "group" none).run exRemoved).loops 0).at_ = .closing ∧
    (((ClientRunner.init "group" none).run (exRemoved ++ [.clientClosed 0])).loops 0).at_ = .ended ∧
    ((ClientRunner.init "group" none).run (exRemoved ++ [.clientClosed 0])).remoteActive = false := by
  refine ⟨by decide, by decide, by decide, by decide⟩

example : ((ClientRunner.init "group" none).run (exRemoved ++ [.monitor exState])).isOpen = true ∧
    (⟨2, "127.0.0.1", 23012⟩ : ServerAddr) ∈ ((ClientRunner.init "group" none).run (exRemoved ++ [.monitor exState])).valid := by
  refine ⟨by decide, by decide⟩

/-! ## Statuses -/

/-- The eventer server gets an engine exactly with the status OPERATIONAL. -/
theorem C62_operational (group : String) (token : Option String) (acts : List RunnerAct) (status : Status) (engine : Bool)
    (h : (status, engine) ∈ ((Runners.init group token).run acts).statuses) : engine = true ↔ status = .operational :=
  (Runners.good_run group token acts).flag _ h

/-- STARTING is announced only after STANDBY, OPERATIONAL only after STARTING, STANDBY only after STOPPING. -/
theorem C62_order (group : String) (token : Option String) (acts : List RunnerAct) (before after : List Status) (a b : Status)
    (h : Status.standby :: ((Runners.init group token).run acts).statuses.map Prod.fst = before ++ a :: b :: after) :
    (b = .starting → a = .standby) ∧ (b = .operational → a = .starting) ∧ (b = .standby → a = .stopping) := by
  have hc := (Runners.good_run group token acts).chain
  rw [h] at hc
  have := (List.isChain_append.1 hc).2.1
  exact (List.isChain_cons_cons.1 this).1

/-- While the engine is open the last announced status is OPERATIONAL. -/
theorem C62_open (group : String) (token : Option String) (acts : List RunnerAct)
    (h : ((Runners.init group token).run acts).engine = some true) :
    ((Runners.init group token).run acts).statuses.getLast? = some (.operational, true) := by
  have hg := Runners.good_run group token acts
  generalize (Runners.init group token).run acts = s at h hg
  have hl : s.lastStatus = .operational := by
    have := hg.said
    rcases hg.eng h with e | e <;> (rw [e] at this; exact this)
  unfold Runners.lastStatus at hl
  cases hx : s.statuses.getLast? with
  | none => rw [hx] at hl; cases hl
  | some x =>
    rw [hx] at hl
    have h1 : x.1 = .operational := hl
    have h2 := (hg.flag x (List.mem_of_getLast? hx)).2 h1
    rw [← h1, ← h2]

/-- When the engine runner ended the last announced status is not OPERATIONAL or STARTING. -/
theorem C62_ended (group : String) (token : Option String) (acts : List RunnerAct)
    (h : ((Runners.init group token).run acts).at_ = .ended) (engine : Bool) :
    ((Runners.init group token).run acts).statuses.getLast? ≠ some (.operational, engine) ∧
      ((Runners.init group token).run acts).statuses.getLast? ≠ some (.starting, engine) := by
  have hg := (Runners.good_run group token acts).said
  generalize (Runners.init group token).run acts = s at h hg
  rw [h] at hg
  unfold Runners.lastStatus at hg
  constructor
  · intro e; rw [e] at hg; rcases hg with hg | hg <;> cases hg
  · intro e; rw [e] at hg; rcases hg with hg | hg <;> cases hg

/-- An engine is restarted, then the runner is cancelled. -/
def exRestarted : List RunnerAct :=
  [.start, .done, .done, .done, .restart, .done, .done, .done, .done, .done, .done, .done]

example : ((Runners.init "group" none).run exRestarted).engine = some true ∧
    ((Runners.init "group" none).run exRestarted).statuses.map Prod.fst =
      [.starting, .operational, .stopping, .standby, .starting, .operational] ∧
    ((Runners.init "group" none).run (exRestarted ++ [.cancel, .done, .done, .done, .done])).at_ = .ended := by
  refine ⟨by decide, by decide, by decide⟩

end HatEvent
