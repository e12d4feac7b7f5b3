import Verif.Model.MonitorReady
import Verif.Proof.Tactics
import Mathlib.Data.List.Induction
import Mathlib.Data.List.Chain

/-! # Facts about readiness -/

namespace HatEvent
namespace Readiness

theorem run_snoc (s : Readiness) (acts : List ReadyAct) (a : ReadyAct) : s.run (acts ++ [a]) = (s.run acts).step a := by simp [run]

theorem run_append (s : Readiness) (acts more : List ReadyAct) : s.run (acts ++ more) = (s.run acts).run more := by simp [run]

theorem run_cons (s : Readiness) (a : ReadyAct) (more : List ReadyAct) : s.run (a :: more) = (s.step a).run more := rfl

structure Inv (s : Readiness) : Prop where
  chain : (false :: s.told).IsChain (· ≠ ·)
  last : s.told.getLast? = some (decide (s.at_ = .telling ∨ s.at_ = .idle))
  wake : s.at_ = .draining → s.token = false → s.woken = true

theorem chain_snoc {l : List Bool} {b : Bool} (h : (false :: l).IsChain (· ≠ ·)) (hl : l.getLast? = some (!b)) :
    (false :: (l ++ [b])).IsChain (· ≠ ·) := by
  rw [← List.cons_append, List.isChain_append]
  refine ⟨h, by simp, ?_⟩
  intro x hx y hy
  have hx' : (false :: l).getLast? = some (!b) := by
    rw [List.getLast?_cons, hl]; rfl
  rw [hx'] at hx
  cases hx
  simp at hy
  rw [hy]
  cases y <;> simp

theorem inv_tell {s : Readiness} (h : Inv s) (h1 : ¬(s.at_ = .telling ∨ s.at_ = .idle)) : Inv s.tell := by
  refine ⟨chain_snoc h.chain (by rw [h.last]; simp [h1]), by simp [tell], by simp [tell]⟩

theorem inv_drain {s : Readiness} (h : Inv s) (h1 : ¬(s.at_ = .telling ∨ s.at_ = .idle)) : Inv s.drain := by
  unfold drain
  split
  · next ht =>
    refine ⟨h.chain, ?_, ?_⟩
    · rw [h.last]; simp [h1]
    · intro _ h'; rw [show s.token = false from h'] at ht; cases ht
  · exact inv_tell h h1

theorem inv_step {s : Readiness} (h : Inv s) (a : ReadyAct) : Inv (s.step a) := by
  cases a with
  | request => exact ⟨h.chain, h.last, h.wake⟩
  | state t => exact ⟨h.chain, h.last, fun _ _ => rfl⟩
  | told =>
    show Inv s.returned
    unfold returned
    split
    · next hp => exact ⟨h.chain, by rw [h.last]; simp [hp], by simp⟩
    · next hp => exact inv_drain h (by simp [hp])
    · exact h
  | notice =>
    unfold step
    dsimp only
    split
    · next hp => exact ⟨chain_snoc h.chain (by rw [h.last]; simp [hp.1]), by simp [retract], by simp [retract]⟩
    · exact h
  | recheck =>
    unfold step
    dsimp only
    split
    · next hp => exact inv_drain h (by simp [hp.1])
    · exact h
  | timeout =>
    unfold step
    dsimp only
    split
    · next hp => exact inv_tell h (by simp [hp])
    · exact h

theorem inv_run (flag token : Bool) (acts : List ReadyAct) : Inv ((init flag token).run acts) := by
  induction acts using List.reverseRecOn with
  | nil => exact ⟨by simp [run, init], by simp [run, init], by simp [run, init]⟩
  | append_singleton acts a ih => rw [run_snoc]; exact inv_step ih a

/-- Nothing that was told is taken back. -/
theorem told_step (s : Readiness) (a : ReadyAct) : s.told <+: (s.step a).told := by
  have htell : s.told <+: s.tell.told := List.prefix_append _ _
  have hdrain : s.told <+: s.drain.told := by
    unfold drain; split
    · exact List.prefix_rfl
    · exact htell
  cases a with
  | request => exact List.prefix_rfl
  | state t => exact List.prefix_rfl
  | told =>
    show s.told <+: s.returned.told
    unfold returned
    split
    · exact List.prefix_rfl
    · exact hdrain
    · exact List.prefix_rfl
  | notice => unfold step; dsimp only; split; exacts [List.prefix_append _ _, List.prefix_rfl]
  | recheck => unfold step; dsimp only; split; exacts [hdrain, List.prefix_rfl]
  | timeout => unfold step; dsimp only; split; exacts [htell, List.prefix_rfl]

theorem told_run (s : Readiness) (acts : List ReadyAct) : s.told <+: (s.run acts).told := by
  induction acts using List.reverseRecOn with
  | nil => exact List.prefix_rfl
  | append_singleton acts a ih => rw [run_snoc]; exact ih.trans (told_step _ a)

/-- An idle loop with a request notices it. -/
theorem notice_run {s : Readiness} (h1 : s.at_ = .idle) (h2 : s.flag = true) (more : List ReadyAct) (hm : .notice ∈ more) :
    s.told ++ [false] <+: (s.run more).told := by
  induction more generalizing s with
  | nil => cases hm
  | cons a more ih =>
    rw [run_cons]
    cases a with
    | notice =>
      have : s.step .notice = s.retract := by simp [step, h1, h2]
      rw [this]
      exact told_run s.retract more
    | request => exact ih (s := s.step .request) h1 rfl (by simpa using hm)
    | state t => exact ih (s := s.step (.state t)) h1 h2 (by simpa using hm)
    | told =>
      have : s.step .told = s := by simp [step, returned, h1]
      rw [this]; exact ih h1 h2 (by simpa using hm)
    | recheck =>
      have : s.step .recheck = s := by simp [step, h1]
      rw [this]; exact ih h1 h2 (by simpa using hm)
    | timeout =>
      have : s.step .timeout = s := by simp [step, h1]
      rw [this]; exact ih h1 h2 (by simpa using hm)

/-- An idle loop without a request stays idle. -/
theorem idle_run {s : Readiness} (h1 : s.at_ = .idle) (h2 : s.flag = false) (more : List ReadyAct) (hm : .request ∉ more) :
    (s.run more).told = s.told ∧ (s.run more).at_ = .idle := by
  induction more generalizing s with
  | nil => exact ⟨rfl, h1⟩
  | cons a more ih =>
    rw [run_cons]
    have hm' : .request ∉ more := fun h => hm (List.mem_cons_of_mem _ h)
    cases a with
    | request => simp at hm
    | state t => exact ih (s := s.step (.state t)) h1 h2 hm'
    | notice =>
      have : s.step .notice = s := by simp [step, h2]
      rw [this]; exact ih h1 h2 hm'
    | told =>
      have : s.step .told = s := by simp [step, returned, h1]
      rw [this]; exact ih h1 h2 hm'
    | recheck =>
      have : s.step .recheck = s := by simp [step, h1]
      rw [this]; exact ih h1 h2 hm'
    | timeout =>
      have : s.step .timeout = s := by simp [step, h1]
      rw [this]; exact ih h1 h2 hm'

end Readiness
end HatEvent
