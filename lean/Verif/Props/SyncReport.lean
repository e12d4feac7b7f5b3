import Verif.Proof.SyncReport
import Verif.Props.Sync

/-!
# C85: reports of a synchronisation
-/

namespace HatEvent

open Spec

/-- **C85**: the reports are `CONNECTED`, then `SYNCING` if the remote server has answered with events, then
`SYNCED` with the number of events it has answered with; the last one is made when the synchronisation is done. -/
theorem C85_states (remoteId : Int) (keep : Event → Bool) (last : EventId) (operational engine : Bool)
    (acts : List ReportAct) :
    let r := (Reporter.init remoteId keep last operational engine).run acts
    r.reports <+: dueReports r.answers.flatten ∧
      (r.sync.task = .synced → r.reports = dueReports r.answers.flatten) := by
  have h := reportOk_run (reportOk_init remoteId keep last operational engine) acts
  refine ⟨h.reports, fun hs => ?_⟩
  have ht := h.task
  rw [hs] at ht
  obtain ⟨_, _, _, hc, hr⟩ := ht
  rw [hr, hc, firstReports_all]

/-- The last report is made at the end. -/
theorem reported_synced {r : Reporter} (h : ReportOk r) {n : Nat} (hn : ⟨.synced, some n⟩ ∈ r.reports) :
    r.sync.task = .synced ∧ n = r.counter := by
  have no : ∀ c, ⟨.synced, some n⟩ ∉ firstReports c := by
    intro c
    unfold firstReports
    split <;> simp
  have ht := h.task
  cases htask : r.sync.task with
  | starting =>
    rw [htask] at ht
    obtain ⟨_, _, _, _, _, ht | ht⟩ := ht
    · rw [ht.2.2] at hn; simp at hn
    · rw [ht.2] at hn; simp at hn
  | asking l events =>
    rw [htask] at ht
    exact absurd (ht.2.2.1 ▸ hn) (no _)
  | answered l events result more =>
    rw [htask] at ht
    obtain ⟨_, _, _, _, ⟨_, ht, _⟩ | ⟨_, _, _, ht⟩⟩ := ht
    · exact absurd (ht ▸ hn) (no _)
    · rw [ht] at hn; simp at hn
  | storing l events more =>
    rw [htask] at ht
    exact absurd (ht.2.2.2.2.2.1 ▸ hn) (no _)
  | draining l =>
    rw [htask] at ht
    exact absurd (ht.2.2.2.2.2 ▸ hn) (no _)
  | synced =>
    rw [htask] at ht
    obtain ⟨_, _, hp, hc, hr⟩ := ht
    rw [hr] at hn
    rcases List.mem_append.1 hn with hn | hn
    · exact absurd hn (no _)
    · exact ⟨rfl, by simpa using hn⟩

/-- **C85**: when `SYNCED` is reported with a count, that many events have been registered in the local backend, and they are
the answers of the remote server. -/
theorem C85_count (remoteId : Int) (keep : Event → Bool) (last : EventId) (operational engine : Bool)
    (acts : List ReportAct) (n : Nat)
    (hn : ⟨.synced, some n⟩ ∈ ((Reporter.init remoteId keep last operational engine).run acts).reports) :
    let r := (Reporter.init remoteId keep last operational engine).run acts
    r.sync.calls.flatten.take n = r.answers.flatten ∧ r.answers.flatten.length = n := by
  have h := reportOk_run (reportOk_init remoteId keep last operational engine) acts
  obtain ⟨hs, rfl⟩ := reported_synced h hn
  have ht := h.task
  rw [hs] at ht
  obtain ⟨_, _, hp, hc, _⟩ := ht
  refine ⟨?_, hc.symm⟩
  rw [hc]
  exact (List.prefix_iff_eq_take.1 hp).symm

/-- **C85**: when `SYNCED` was reported and no message is on its way, the local backend has accepted every event that the
remote server stores and that follows the last one known before. -/
theorem C85_synced (server : Int) (keep : Event → Bool) (last : EventId) (operational engine : Bool)
    (acts : List ReportAct) (n : Nat) (h : Increasing (flushed server (acts.flatMap remoteActs)))
    (hn : ⟨.synced, some n⟩ ∈ ((Reporter.init server keep last operational engine).run acts).reports)
    (hw : ((Reporter.init server keep last operational engine).run acts).sync.wire = [])
    (hu : ((Reporter.init server keep last operational engine).run acts).sync.unnotified = [])
    {e : Event} (he : e ∈ stored server keep (acts.flatMap remoteActs)) (hle : IdLt last e.id) :
    e ∈ accept last ((Reporter.init server keep last operational engine).run acts).sync.calls.flatten := by
  have ht := (reported_synced (reportOk_run (reportOk_init server keep last operational engine) acts) hn).1
  obtain ⟨sacts, h1, h2, h3⟩ := report_sync_run (.init server keep last operational engine) acts
  rw [h1] at hw hu ht ⊢
  exact C37_quiet server keep last sacts (by rw [h3]; exact h) ⟨ht, hw, hu⟩ (by rw [h2]; exact he) hle

/-- **C85**: when the remote server is operational, has told its status and has handled what the client has sent, the
last report its engine was given is the state of the client: also if the engine was started after the synchronisation. -/
theorem C85_remote (remoteId : Int) (keep : Event → Bool) (last : EventId) (operational engine : Bool)
    (acts : List ReportAct) (s : SyncedState) :
    let r := (Reporter.init remoteId keep last operational engine).run acts
    r.operational = true → r.toTell = false → r.down = [] → r.up = [] → r.state = some s →
      ∃ report, r.remote.getLast? = some report ∧ report.state = s := by
  intro r ho ht hd hu hs
  have h := (remoteOk_run (remoteOk_init remoteId keep last operational engine) acts).last ho ht hd s hs
  rw [show ((Reporter.init remoteId keep last operational engine).run acts).up = [] from hu, List.append_nil] at h
  exact h

theorem hereOk_run (remoteId : Int) (keep : Event → Bool) (last : EventId) (operational : Bool) (acts : List ReportAct)
    (h : EngineStays acts) : HereOk ((Reporter.init remoteId keep last operational true).run acts) := by
  induction acts using List.reverseRecOn with
  | nil => exact ⟨rfl, by simp [Reporter.run, Reporter.init], rfl⟩
  | append_singleton acts a ih =>
    have h1 : EngineStays acts := fun hm => h (List.mem_append_left _ hm)
    have h2 : a ≠ .engine false := fun hm => h (by rw [hm]; simp)
    have := hereOk_step (ih h1) a h2
    unfold Reporter.run at this ⊢
    rw [List.foldl_append]
    exact this

/-- **C85**: if the local server is operational all the time, its engine is given the same reports; and between reports it has
got all of them. -/
theorem C85_local (remoteId : Int) (keep : Event → Bool) (last : EventId) (operational : Bool) (acts : List ReportAct)
    (h : EngineStays acts) :
    let r := (Reporter.init remoteId keep last operational true).run acts
    r.here <+: r.reports ∧ (r.stage = .idle → r.here = r.reports) := by
  have h := hereOk_run remoteId keep last operational acts h
  refine ⟨⟨_, h.here⟩, fun hs => ?_⟩
  have := h.here
  unfold Reporter.owed at this
  rw [hs, List.append_nil] at this
  exact this

/-- The client ends the connection only when it is closed, if no local engine closes (missing: see
`C85_interrupted_refuted`). -/
theorem C85_open_partial (remoteId : Int) (keep : Event → Bool) (last : EventId) (operational : Bool)
    (acts : List ReportAct) (h : EngineStays acts) (hc : .close ∉ acts) :
    ((Reporter.init remoteId keep last operational true).run acts).sync.closed = false := by
  induction acts using List.reverseRecOn with
  | nil => rfl
  | append_singleton acts a ih =>
    have h1 : EngineStays acts := fun hm => h (List.mem_append_left _ hm)
    have h2 : .close ∉ acts := fun hm => hc (List.mem_append_left _ hm)
    have h3 : a ≠ .close := fun hm => hc (by rw [hm]; simp)
    have ok := hereOk_run remoteId keep last operational acts h1
    have hcl := ih h1 h2
    unfold Reporter.run at ok hcl ⊢
    rw [List.foldl_append]
    simp only [List.foldl_cons, List.foldl_nil]
    exact closed_step ok.stage hcl h3

/-- **C85 is violated**: an engine of the local server that closes while it is given a report ends the connection,
although nothing is wrong with it: `register` raises (`engine.py:92-93,144-145`), `_synchronize` takes this for an error of the
synchronisation and closes the client (`eventer_client.py:184-186`).  Events the remote server has are not registered. -/
theorem C85_interrupted_refuted : ∃ (remoteId : Int) (keep : Event → Bool) (last : EventId) (acts : List ReportAct),
    .close ∉ acts ∧
      let r := (Reporter.init remoteId keep last true true).run acts
      r.sync.closed = true ∧ r.sync.disk ≠ [] ∧ r.sync.calls = [] ∧ r.reports = [⟨.connected, none⟩] := by
  refine ⟨2, fun _ => true, ⟨2, 0, 0⟩, [.flush [[⟨⟨2, 1, 1⟩, ["a"], ⟨1, 0⟩, none, none⟩]], .connect, .advance, .advance,
    .engine false, .raised], by simp, rfl, ?_, rfl, rfl⟩
  exact List.cons_ne_nil _ _

/-! ## An example -/

/-- An event of the remote server. -/
def exReportEvent (session : Int) : Event := ⟨⟨2, session, 1⟩, ["a"], ⟨session, 0⟩, none, none⟩

/-- Two events are asked for, one is notified; afterwards the remote server becomes operational. -/
def exReportActs : List ReportAct :=
  [.flush [[exReportEvent 1], [exReportEvent 2]], .notify, .notify, .connect, .advance, .handle, .advance, .returned,
    .advance, .serve 10, .deliver, .advance, .advance, .returned, .advance, .advance, .advance,
    .flush [[exReportEvent 3]], .notify, .deliver, .advance, .advance, .advance, .returned, .handle, .handle,
    .status true, .tell, .hear, .handle]

example :
    let r := (Reporter.init 2 (fun _ => true) ⟨2, 0, 0⟩ false true).run exReportActs
    r.reports = [⟨.connected, none⟩, ⟨.syncing, none⟩, ⟨.synced, some 2⟩] ∧ r.here = r.reports ∧
      r.answers = [[exReportEvent 1, exReportEvent 2]] ∧
      r.sync.calls = [[exReportEvent 1], [exReportEvent 2], [exReportEvent 3]] ∧ r.sync.task = .synced ∧
      r.stage = .idle ∧ r.operational = true ∧ r.toTell = false ∧ r.down = [] ∧ r.up = [] ∧
      r.state = some .synced ∧ r.remote = [⟨.synced, none⟩] :=
  ⟨rfl, rfl, rfl, rfl, rfl, rfl, rfl, rfl, rfl, rfl, rfl, rfl⟩

example : EngineStays exReportActs ∧ .close ∉ exReportActs := by
  constructor <;> simp [EngineStays, exReportActs]

example : Increasing (flushed 2 (exReportActs.flatMap remoteActs)) ∧
    stored 2 (fun _ => true) (exReportActs.flatMap remoteActs) =
      [exReportEvent 1, exReportEvent 2, exReportEvent 3] ∧
    ((Reporter.init 2 (fun _ => true) ⟨2, 0, 0⟩ false true).run exReportActs).sync.wire = [] ∧
    ((Reporter.init 2 (fun _ => true) ⟨2, 0, 0⟩ false true).run exReportActs).sync.unnotified = [] := by
  refine ⟨?_, rfl, rfl, rfl⟩
  simp [flushed, exReportActs, remoteActs, exReportEvent, Increasing, IdLt]

end HatEvent
