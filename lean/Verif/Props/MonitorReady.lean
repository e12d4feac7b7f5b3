import Verif.Proof.MonitorReady

/-! # C73: readiness of the server -/

namespace HatEvent
open Readiness

/-- A request, the token disappears. -/
def exReset : List ReadyAct := [.told, .request, .notice, .told, .state true, .recheck, .state false, .recheck]

/-- The monitor is told true first, and after that each call of `set_ready` is with the other value. -/
theorem C73_alternates (flag token : Bool) (acts : List ReadyAct) :
    (false :: ((init flag token).run acts).told).IsChain (· ≠ ·) ∧ ((init flag token).run acts).told.head? = some true := by
  refine ⟨(inv_run flag token acts).chain, ?_⟩
  obtain ⟨rest, h⟩ := told_run (init flag token) acts
  rw [← h]; rfl

example : ((init false true).run exReset).told = [true, false, true] := by decide

/-- A request made while the loop is idle is answered: when the loop gets to run, whatever else happened in between, the monitor is
told that the server is not ready. -/
theorem C73_request_partial (flag token : Bool) (acts more : List ReadyAct)
    (hidle : ((init flag token).run acts).at_ = .idle) (hm : .notice ∈ more) :
    ((init flag token).run acts).told ++ [false] <+: ((init flag token).run (acts ++ .request :: more)).told := by
  rw [run_append, run_cons]
  exact notice_run (s := ((init flag token).run acts).step .request) hidle rfl more hm

example : ((init false true).run [.told]).at_ = .idle ∧
    ((init false true).run ([.told] ++ .request :: [.state false, .told, .notice])).told = [true, false] := by decide

/-- After a reset the monitor is told that the server is ready only if the token is gone, or else after the timeout. -/
theorem C73_token (flag token : Bool) (acts : List ReadyAct) (a : ReadyAct)
    (h : ((init flag token).run (acts ++ [a])).told = ((init flag token).run acts).told ++ [true]) :
    ((init flag token).run acts).token = false ∨ a = .timeout := by
  rw [run_snoc] at h
  generalize (init flag token).run acts = s at h
  have hdrain : s.drain.told = s.told ++ [true] → s.token = false := by
    unfold drain; split
    · intro h'; simp at h'
    · next ht => intro _; simpa using ht
  have hno : ¬ s.told = s.told ++ [true] := by simp
  cases a with
  | timeout => exact .inr rfl
  | request => exact absurd h hno
  | state t => exact absurd h hno
  | told =>
    left
    change s.returned.told = _ at h
    unfold returned at h
    split at h
    · exact absurd h hno
    · exact hdrain h
    · exact absurd h hno
  | notice =>
    unfold step at h; dsimp only at h
    split at h
    · simp [retract] at h
    · exact absurd h hno
  | recheck =>
    unfold step at h; dsimp only at h
    split at h
    · exact .inl (hdrain h)
    · exact absurd h hno

example : ((init false true).run ([.told, .request, .notice, .told, .state false] ++ [.recheck])).told =
    ((init false true).run [.told, .request, .notice, .told, .state false]).told ++ [true] ∧
    ((init false true).run ([.told, .request, .notice, .told] ++ [.timeout])).told = [true, false, true] := by decide

/-- No change of the token is missed: while the loop waits for the end of the token and it is gone, the loop goes on and tells the
monitor that the server is ready. -/
theorem C73_wakes (flag token : Bool) (acts : List ReadyAct) (hw : ((init flag token).run acts).at_ = .draining)
    (ht : ((init flag token).run acts).token = false) :
    ((init flag token).run (acts ++ [.recheck])).told = ((init flag token).run acts).told ++ [true] := by
  have := (inv_run flag token acts).wake hw ht
  rw [run_snoc]
  simp [step, hw, this, drain, ht, tell]

example : ((init false true).run [.told, .request, .notice, .told, .state true, .recheck, .state false]).at_ = .draining ∧
    ((init false true).run [.told, .request, .notice, .told, .state true, .recheck, .state false]).token = false := by decide

/-- The loop always gets back to the state where the server is ready: from any point it takes at most the end of `set_ready`, the
timeout and the end of `set_ready`. -/
theorem C73_returns (flag token : Bool) (acts : List ReadyAct) :
    ((init flag token).run (acts ++ [.told, .timeout, .told])).at_ = .idle ∧
      ((init flag token).run (acts ++ [.told, .timeout, .told])).told.getLast? = some true := by
  have hat : ((init flag token).run (acts ++ [.told, .timeout, .told])).at_ = .idle := by
    rw [run_append]
    generalize (init flag token).run acts = s
    cases h : s.at_ <;> cases ht : s.token <;> simp [run, step, returned, drain, tell, h, ht]
  refine ⟨hat, ?_⟩
  rw [(inv_run flag token _).last, hat]
  rfl

example : ((init false true).run ([.told, .request, .notice] ++ [.told, .timeout, .told])).told = [true, false, true] := by decide

/-- C73 is false: a request made while the monitor is being told that the server is ready is forgotten; the monitor is never told that the server
is not ready, unless there is another request. -/
theorem C73_refuted : ∃ acts : List ReadyAct, ((init false true).run acts).told.getLast? = some true ∧
    ∀ more, .request ∉ more → ((init false true).run (acts ++ .request :: .told :: more)).told = ((init false true).run acts).told := by
  refine ⟨exReset, by decide, ?_⟩
  intro more hm
  rw [run_append, run_cons, run_cons]
  rw [(idle_run (s := (((init false true).run exReset).step .request).step .told) (by decide) (by decide) more hm).1]
  decide

end HatEvent
