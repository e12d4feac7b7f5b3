import Verif.Proof.LmdbLive
import Verif.Props.LmdbAsync

/-!
# C86: calls of the backend end

`Async.create conf disk m` is a backend that has just been opened, with any
content.  `acts` is an endless schedule.  Flushes may fail in it, and the backend
may be closed at any time.
-/

namespace HatEvent
open Spec

theorem taken_create (conf : Conf) (disk : Disk) (m : Mem) :
    taken (.create conf disk m) ++ (Async.create conf disk m).requests = [] := rfl

theorem flushCalls_upTo (s : Async) (acts : Nat → Act) {n m : Nat} (h : n ≤ m) :
    (flushCalls s (upTo acts n)).Subperm (flushCalls s (upTo acts m)) := by
  obtain ⟨d, rfl⟩ := Nat.le.dest h
  have e : upTo acts (n + d) = upTo acts n ++ (List.range d).map fun i => acts (n + i) := by
    simp [upTo, List.range_add, List.map_append, Function.comp_def]
  rw [e, flushCalls_append]
  exact (List.sublist_append_left _ _).subperm

/-- Calls that were made when nothing is waiting. -/
theorem flushCalls_taken (conf : Conf) (disk : Disk) (m : Mem) (acts : List Act)
    (h : ((Async.create conf disk m).run acts).requests = []) :
    (taken ((Async.create conf disk m).run acts)).Perm (flushCalls (.create conf disk m) acts) := by
  have := flushCalls_run (loopOk_create conf disk m) acts
  rw [taken_create, List.nil_append, h, List.append_nil] at this
  exact this

/-- If the event loop and the database thread do not stop, every call of `flush`
returns or raises; if the backend is still open then, it has returned. -/
theorem C86_flush (conf : Conf) (disk : Disk) (m : Mem) (acts : Nat → Act) (hf : Fair acts) (n : Nat) :
    ∃ k, n ≤ k ∧ ∃ s, s = (Async.create conf disk m).run (upTo acts k) ∧
      (flushCalls (.create conf disk m) (upTo acts n)).Subperm (s.flushed ++ s.refused) ∧
      (s.isOpen = true → (flushCalls (.create conf disk m) (upTo acts n)).Subperm s.flushed) := by
  suffices h : ∃ k, n ≤ k ∧ LoopOk ((Async.create conf disk m).run (upTo acts k)) ∧
      (flushCalls (.create conf disk m) (upTo acts n)).Subperm
        (settled ((Async.create conf disk m).run (upTo acts k))) by
    obtain ⟨k, h1, h2, h3⟩ := h
    refine ⟨k, h1, _, rfl, h3, ?_⟩
    intro ho
    have hr : ((Async.create conf disk m).run (upTo acts k)).refused = [] := by
      by_contra hne
      have := h2.refused hne
      rw [ho] at this; cases this
    have h4 := h3
    unfold settled at h4
    rw [hr, List.append_nil] at h4
    exact h4
  have hok : ∀ k, LoopOk ((Async.create conf disk m).run (upTo acts k)) := fun k =>
    loopOk_run (loopOk_create conf disk m) _
  obtain ⟨m1, f1, h1, h2⟩ := some_done hf (.create conf disk m) n (hok n)
  cases f1 with
  | true =>
    refine ⟨m1, h1, hok _, (flushCalls_upTo _ acts h1).trans ?_⟩
    have := flushCalls_taken conf disk m (upTo acts m1) ((hok m1).ended h2.2).2.1
    unfold taken at this
    rw [h2.serving, List.append_nil] at this
    exact this.symm.subperm
  | false =>
    obtain ⟨m2, f2, h3, h4, h5⟩ := idle_awaiting hf _ m1 (hok m1) h2.2
    obtain ⟨m3, h6, h7⟩ := awaiting_resumed hf _ m2 f2 h4
    obtain ⟨m4, h8, h9⟩ := resumed_done hf _ m3 f2 h7
    refine ⟨m4, by omega, hok _, (flushCalls_upTo _ acts (h1.trans h3)).trans ?_⟩
    refine (flushCalls_taken conf disk m (upTo acts m2) h5).symm.subperm.trans ?_
    have := grows taken (I := LoopOk) (fun s a h => loopOk_step h a) (fun s a h => (flushCall_step s h a).2.1) acts
      (.create conf disk m) (h6.trans h8) (hok m2)
    have e : taken ((Async.create conf disk m).run (upTo acts m4)) =
        settled ((Async.create conf disk m).run (upTo acts m4)) := by
      unfold taken; rw [h9.serving, List.append_nil]
    rw [← e]; exact this

/-- A call of `flush` raises only if the backend has been closed, and calls that
returned or raised have been made. -/
theorem C86_refused (conf : Conf) (disk : Disk) (m : Mem) (acts : List Act) (s : Async)
    (hs : s = (Async.create conf disk m).run acts) :
    (s.refused ≠ [] → s.isOpen = false) ∧ (s.flushed ++ s.refused).Subperm (flushCalls (.create conf disk m) acts) := by
  subst hs
  refine ⟨(loopOk_run (loopOk_create conf disk m) acts).refused, ?_⟩
  have := flushCalls_run (loopOk_create conf disk m) acts
  rw [taken_create, List.nil_append] at this
  refine List.Subperm.trans ?_ this.subperm
  unfold taken settled
  rw [List.append_assoc]
  exact (List.sublist_append_left _ _).subperm

/-- A backend that is closed (by the user, or after a failed flush or cleanup)
ends its flush loop, even if the last flush fails.  Then all calls of `flush`
have returned or raised. -/
theorem C86_close (conf : Conf) (disk : Disk) (m : Mem) (acts : Nat → Act) (hf : Fair acts) (n : Nat)
    (hc : ((Async.create conf disk m).run (upTo acts n)).isOpen = false) :
    ∃ k, n ≤ k ∧ ∀ k' s, k ≤ k' → s = (Async.create conf disk m).run (upTo acts k') →
      s.flusher = .ended ∧ (s.flushed ++ s.refused).Perm (flushCalls (.create conf disk m) (upTo acts k')) := by
  have hok : ∀ k, LoopOk ((Async.create conf disk m).run (upTo acts k)) := fun k =>
    loopOk_run (loopOk_create conf disk m) _
  obtain ⟨k, h1, h2⟩ := closed_ends hf _ n (hok n) hc
  refine ⟨k, h1, ?_⟩
  rintro k' s hk rfl
  have he := always_of_step (I := fun s => s.flusher = .ended) (fun s a h => ended_stays s h a) acts
    (.create conf disk m) hk h2.2
  refine ⟨he, ?_⟩
  have h3 := (hok k').ended he
  have := flushCalls_taken conf disk m (upTo acts k') h3.2.1
  unfold taken settled at this
  rwa [h3.2.2, List.append_nil] at this

/-- Every query of an open backend gets a result, also if the backend is closed
meanwhile. -/
theorem C86_query (conf : Conf) (disk : Disk) (m : Mem) (acts : Nat → Act) (hf : Fair acts) (n : Nat) :
    ∃ k, n ≤ k ∧ (queryCalls (.create conf disk m) (upTo acts n)).Subperm
      (answered ((Async.create conf disk m).run (upTo acts k))) := by
  have h0 := queryCalls_run (.create conf disk m) (upTo acts n)
  rw [show answered (.create conf disk m) ++ askedRead (Async.create conf disk m).read ++
    askedJobs (Async.create conf disk m).jobs = [] from rfl, List.nil_append] at h0
  obtain ⟨m1, h1, h2⟩ := jobs_done hf (.create conf disk m) (queryCalls (.create conf disk m) (upTo acts n)) _ n
    ⟨le_refl _, by rw [List.take_length]; exact h0.symm.subperm⟩
  have h3 := h2.2
  rw [List.take_zero, show askedJobs [] = [] from rfl, List.append_nil] at h3
  obtain ⟨m2, h4, h5⟩ := reads_done hf (.create conf disk m) (queryCalls (.create conf disk m) (upTo acts n)) _ m1
    ⟨le_refl _, by rw [List.take_length]; exact h3⟩
  have h6 := h5.2
  rw [List.take_zero, show askedRead [] = [] from rfl, List.append_nil] at h6
  exact ⟨m2, h1.trans h4, h6⟩

/-! ## Example

A schedule in which a flush fails (`exRace`) while a call of `flush` waits, and
which goes on for ever. -/

def exEndless (n : Nat) : Act :=
  match (.request :: exRace : List Act)[n]? with
  | some a => a
  | none =>
    if n % 4 = 0 then .flush else if n % 4 = 1 then .job false else if n % 4 = 2 then .notify else .finish 0

theorem exEndless_later (n : Nat) (h : 12 ≤ n) : exEndless n =
    if n % 4 = 0 then .flush else if n % 4 = 1 then .job false else if n % 4 = 2 then .notify else .finish 0 := by
  unfold exEndless
  rw [List.getElem?_eq_none (by simp [exRace]; omega)]

theorem exEndless_fair : Fair exEndless := by
  refine ⟨fun n => ⟨4 * (n + 3), by omega, ?_⟩, fun n => ⟨4 * (n + 3) + 1, by omega, false, ?_⟩,
    fun n => ⟨4 * (n + 3) + 2, by omega, ?_⟩, fun n => ⟨4 * (n + 3) + 3, by omega, ?_⟩⟩
  all_goals rw [exEndless_later _ (by omega)]
  · rw [if_pos (by omega)]
  · rw [if_neg (by omega), if_pos (by omega)]
  · rw [if_neg (by omega), if_neg (by omega), if_pos (by omega)]
  · rw [if_neg (by omega), if_neg (by omega), if_neg (by omega)]

example : exStart = .create exStart.conf exStart.disk exStart.mem := rfl

set_option maxRecDepth 100000 in
/-- Hypotheses of `C86_flush`, `C86_query`, `C86_refused` and `C86_close`. -/
example : Fair exEndless ∧ flushCalls exStart (upTo exEndless 12) = [0] ∧
    (queryCalls exStart (upTo exEndless 12)).length = 2 ∧
    (exStart.run (upTo exEndless 24)).isOpen = false ∧ (exStart.run (upTo exEndless 24)).refused = [0] ∧
    (exStart.run (upTo exEndless 24)).flusher = .ended ∧ (exStart.run (upTo exEndless 24)).results.length = 2 :=
  ⟨exEndless_fair, by rfl, by rfl, by rfl, by rfl, by rfl, by rfl⟩

end HatEvent
