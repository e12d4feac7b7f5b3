import Verif.Spec.SyncReport
import Verif.Proof.Tactics
import Mathlib.Data.List.Induction

/-!
# Invariants of reports of a synchronisation
-/

namespace HatEvent

open Spec

/-- Answers that are on their way. -/
def Sync.flying (s : Sync) : List (List Event) := s.wire.filterMap SyncMsg.answer

/-- Reports before the last one, when that many events are known. -/
def firstReports (counter : Nat) : List SyncedReport :=
  if counter = 0 then [⟨.connected, none⟩] else [⟨.connected, none⟩, ⟨.syncing, none⟩]

/-- What is known at each place of `_synchronize`. -/
def SyncPlaceOk (r : Reporter) : SyncTask → Prop
  | .starting =>
    r.answers = [] ∧ r.counter = 0 ∧ r.sync.calls = [] ∧ r.sync.request = none ∧ r.sync.flying = [] ∧
      ((r.state = none ∧ r.stage = .idle ∧ r.reports = []) ∨
        (r.state = some .connected ∧ r.reports = [⟨.connected, none⟩]))
  | .asking _ events =>
    r.stage = .idle ∧ r.counter = (r.sync.calls.flatten ++ events).length ∧
      r.reports = firstReports r.counter ∧ (r.counter = 0 → r.state ≠ some .syncing) ∧
      ((r.sync.flying = [] ∧ r.answers.flatten = r.sync.calls.flatten ++ events) ∨
        (r.sync.request = none ∧ ∃ result, r.sync.flying = [result] ∧
          r.answers.flatten = r.sync.calls.flatten ++ events ++ result))
  | .answered _ events result _ =>
    r.sync.request = none ∧ r.sync.flying = [] ∧ r.counter = (r.sync.calls.flatten ++ events).length ∧
      r.answers.flatten = r.sync.calls.flatten ++ events ++ result ∧
      ((r.stage = .idle ∧ r.reports = firstReports r.counter ∧ (r.counter = 0 → r.state ≠ some .syncing)) ∨
        (r.counter = 0 ∧ result ≠ [] ∧ r.state = some .syncing ∧ r.reports = [⟨.connected, none⟩, ⟨.syncing, none⟩]))
  | .storing _ events _ =>
    r.stage = .idle ∧ r.sync.request = none ∧ r.sync.flying = [] ∧ r.answers.flatten = r.sync.calls.flatten ++ events ∧
      r.counter = r.answers.flatten.length ∧ r.reports = firstReports r.counter ∧
      (r.counter = 0 → r.state ≠ some .syncing)
  | .draining _ =>
    r.stage = .idle ∧ r.sync.request = none ∧ r.sync.flying = [] ∧ r.answers.flatten <+: r.sync.calls.flatten ∧
      r.counter = r.answers.flatten.length ∧ r.reports = firstReports r.counter
  | .synced =>
    r.sync.request = none ∧ r.sync.flying = [] ∧ r.answers.flatten <+: r.sync.calls.flatten ∧
      r.counter = r.answers.flatten.length ∧ r.reports = firstReports r.counter ++ [⟨.synced, some r.counter⟩]

/-- The invariant of `C85_states`. -/
structure ReportOk (r : Reporter) : Prop where
  queue : r.sync.task ≠ .synced → r.sync.queue ≠ none
  task : SyncPlaceOk r r.sync.task

/-- `SyncPlaceOk` depends on some fields only. -/
theorem SyncPlaceOk.congr {r r' : Reporter} {t : SyncTask} (h : SyncPlaceOk r t) (h1 : r'.answers = r.answers)
    (h2 : r'.counter = r.counter) (h3 : r'.sync.calls = r.sync.calls) (h4 : r'.sync.request = r.sync.request)
    (h5 : r'.sync.flying = r.sync.flying) (h6 : r'.state = r.state) (h7 : r'.stage = r.stage)
    (h8 : r'.reports = r.reports) : SyncPlaceOk r' t := by
  cases t <;> simp only [SyncPlaceOk, h1, h2, h3, h4, h5, h6, h7, h8] at h ⊢ <;> exact h

theorem firstReports_prefix {counter : Nat} {received : List Event} (h : counter ≤ received.length) :
    firstReports counter <+: dueReports received := by
  unfold firstReports dueReports
  by_cases hr : received = []
  · subst hr
    simp only [List.length_nil, Nat.le_zero] at h
    rw [if_pos h, if_pos rfl]
    exact ⟨[_], rfl⟩
  · rw [if_neg hr]
    split
    · exact ⟨[_, _], rfl⟩
    · exact ⟨[_], rfl⟩

theorem firstReports_all {received : List Event} :
    firstReports received.length ++ [⟨.synced, some received.length⟩] = dueReports received := by
  unfold firstReports dueReports
  cases received <;> simp

theorem ReportOk.reports {r : Reporter} (h : ReportOk r) :
    r.reports <+: dueReports r.answers.flatten := by
  have ht := h.task
  generalize r.sync.task = t at ht
  have one : ∀ l, [(⟨.connected, none⟩ : SyncedReport)] <+: dueReports l := fun l =>
    firstReports_prefix (counter := 0) (Nat.zero_le _)
  cases t with
  | starting =>
    obtain ⟨_, _, _, _, _, h | h⟩ := ht
    · rw [h.2.2]; exact List.nil_prefix
    · rw [h.2]; exact one _
  | asking last events =>
    obtain ⟨_, hc, hr, _, h⟩ := ht
    rw [hr]
    apply firstReports_prefix
    rcases h with ⟨_, h⟩ | ⟨_, result, _, h⟩ <;> rw [h, hc] <;> simp
  | answered last events result more =>
    obtain ⟨_, _, hc, ha, ⟨_, hr, _⟩ | ⟨_, hne, _, hr⟩⟩ := ht
    · rw [hr]
      apply firstReports_prefix
      rw [ha, hc]
      simp
    · rw [hr]
      refine firstReports_prefix (counter := 1) ?_
      rw [ha]
      have := List.length_pos_iff.2 hne
      simp only [List.length_append]
      omega
  | storing last events more =>
    obtain ⟨_, _, _, _, hc, hr, _⟩ := ht
    rw [hr]
    exact firstReports_prefix hc.le
  | draining last =>
    obtain ⟨_, _, _, _, hc, hr⟩ := ht
    rw [hr]
    exact firstReports_prefix hc.le
  | synced =>
    obtain ⟨_, _, _, hc, hr⟩ := ht
    rw [hr, hc, firstReports_all]
    exact List.prefix_rfl

/-! ## Steps -/

theorem reportOk_init (remoteId : Int) (keep : Event → Bool) (last : EventId) (op engine : Bool) :
    ReportOk (.init remoteId keep last op engine) :=
  ⟨fun _ => by simp [Reporter.init, Sync.init],
    ⟨rfl, rfl, rfl, rfl, rfl, .inl ⟨rfl, rfl, rfl⟩⟩⟩

theorem ReportOk.congr {r r' : Reporter} (h : ReportOk r) (h0 : r'.sync.task = r.sync.task)
    (hq : r'.sync.queue = none → r.sync.queue = none) (h1 : r'.answers = r.answers)
    (h2 : r'.counter = r.counter) (h3 : r'.sync.calls = r.sync.calls) (h4 : r'.sync.request = r.sync.request)
    (h5 : r'.sync.flying = r.sync.flying) (h6 : r'.state = r.state) (h7 : r'.stage = r.stage)
    (h8 : r'.reports = r.reports) : ReportOk r' :=
  ⟨fun hn hq' => h.queue (h0 ▸ hn) (hq hq'), by rw [h0]; exact h.task.congr h1 h2 h3 h4 h5 h6 h7 h8⟩

theorem reportOk_notify {r : Reporter} (h : ReportOk r) : ReportOk { r with sync := r.sync.sendNotify } := by
  unfold Sync.sendNotify
  split
  · exact h
  · simp only
    split
    · exact h.congr rfl id rfl rfl rfl rfl (by simp [Sync.flying, SyncMsg.answer]) rfl rfl rfl
    · exact h.congr rfl id rfl rfl rfl rfl rfl rfl rfl rfl

theorem reportOk_serve {r : Reporter} (h : ReportOk r) (size : Nat) : ReportOk (r.serve size) := by
  unfold Reporter.serve Sync.step
  simp only
  by_cases hc : r.sync.closed
  · rw [if_pos hc]
    exact h.congr rfl id (by simp) rfl rfl rfl rfl rfl rfl rfl
  · rw [if_neg hc]
    unfold Sync.serve
    cases hq : r.sync.request with
    | none => exact h.congr rfl id (by simp) rfl rfl (by simp [hq]) rfl rfl rfl rfl
    | some last =>
      have ht := h.task
      simp only [List.drop_left, List.filterMap_cons, SyncMsg.answer, List.filterMap_nil]
      refine ⟨h.queue, ?_⟩
      show SyncPlaceOk _ r.sync.task
      cases htask : r.sync.task with
      | asking l events =>
        rw [htask] at ht
        obtain ⟨h1, h2, h3, h4, h5⟩ := ht
        refine ⟨h1, h2, h3, h4, .inr ⟨rfl, (r.sync.disk.filter fun e => last.lt e.id).take size, ?_, ?_⟩⟩
        · rcases h5 with ⟨h5, _⟩ | ⟨h5, _⟩
          · simp only [Sync.flying] at h5 ⊢
            rw [List.filterMap_append, h5]
            rfl
          · rw [hq] at h5; cases h5
        · rcases h5 with ⟨_, h5⟩ | ⟨h5, _⟩
          · rw [List.flatten_append, h5]; simp
          · rw [hq] at h5; cases h5
      | starting =>
        rw [htask] at ht
        exact absurd (hq.symm.trans ht.2.2.2.1) (by simp)
      | answered l events result more =>
        rw [htask] at ht
        exact absurd (hq.symm.trans ht.1) (by simp)
      | storing l events more =>
        rw [htask] at ht
        exact absurd (hq.symm.trans ht.2.1) (by simp)
      | draining l =>
        rw [htask] at ht
        exact absurd (hq.symm.trans ht.2.1) (by simp)
      | synced =>
        rw [htask] at ht
        exact absurd (hq.symm.trans ht.1) (by simp)

theorem reportOk_deliver {r : Reporter} (h : ReportOk r) : ReportOk { r with sync := r.sync.step .deliver } := by
  unfold Sync.step
  simp only
  split
  · exact h
  · cases hw : r.sync.wire with
    | nil => exact h
    | cons m w =>
      cases m with
      | notify events =>
        have hf : Sync.flying { r.sync with wire := w } = r.sync.flying := by
          simp only [Sync.flying, hw]
          exact (List.filterMap_cons_none rfl).symm
        simp only [Sync.receive]
        cases hq : r.sync.queue with
        | some q => exact h.congr rfl (fun e => by simp at e) rfl rfl rfl rfl hf rfl rfl rfl
        | none =>
          have hs : r.sync.task = .synced := by
            by_contra hn
            exact h.queue hn hq
          have ht := h.task
          rw [hs] at ht
          obtain ⟨h1, h2, h3, h4, h5⟩ := ht
          refine ⟨fun hn => absurd hs hn, ?_⟩
          show SyncPlaceOk _ r.sync.task
          rw [hs]
          refine ⟨h1, hf.trans h2, ?_, h4, h5⟩
          show _ <+: (r.sync.calls ++ [events]).flatten
          rw [List.flatten_append]
          exact h3.trans (List.prefix_append ..)
      | response result more =>
        have hf : r.sync.flying = result :: w.filterMap SyncMsg.answer := by
          simp [Sync.flying, hw, SyncMsg.answer]
        have ht := h.task
        cases htask : r.sync.task with
        | asking l events =>
          rw [htask] at ht
          obtain ⟨h1, h2, h3, h4, ⟨h5, _⟩ | ⟨h5, result', h6, h7⟩⟩ := ht
          · rw [hf] at h5; cases h5
          · rw [hf] at h6
            simp only [List.cons.injEq] at h6
            obtain ⟨rfl, h6⟩ := h6
            simp only [Sync.receive, htask]
            refine ⟨fun _ => h.queue (by rw [htask]; simp), ?_⟩
            exact ⟨h5, h6, h2, h7, .inl ⟨h1, h3, h4⟩⟩
        | starting =>
          rw [htask] at ht
          exact absurd (hf.symm.trans ht.2.2.2.2.1) (by simp)
        | answered l events result more =>
          rw [htask] at ht
          exact absurd (hf.symm.trans ht.2.1) (by simp)
        | storing l events more =>
          rw [htask] at ht
          exact absurd (hf.symm.trans ht.2.2.1) (by simp)
        | draining l =>
          rw [htask] at ht
          exact absurd (hf.symm.trans ht.2.2.1) (by simp)
        | synced =>
          rw [htask] at ht
          exact absurd (hf.symm.trans ht.2.1) (by simp)

theorem reportOk_store {r : Reporter} {last : EventId} {events : List Event} {more : Bool}
    (hq : r.sync.queue ≠ none) (h : SyncPlaceOk r (.storing last events more)) :
    ReportOk { r with sync := r.sync.store last events more } := by
  obtain ⟨h1, h2, h3, h4, h5, h6, h7⟩ := h
  unfold Sync.store
  cases events with
  | nil =>
    simp only [List.append_nil] at h4
    simp only
    split
    · exact ⟨fun _ => hq, ⟨h1, by simpa [h4] using h5, h6, h7, .inl ⟨h3, by simpa using h4⟩⟩⟩
    · exact ⟨fun _ => hq, ⟨h1, h2, h3, by rw [h4]; exact List.prefix_rfl, h5, h6⟩⟩
  | cons e es =>
    simp only
    split
    · refine ⟨fun _ => hq, h1, h2, h3, ?_, h5, h6, h7⟩
      simp only [List.flatten_append, List.flatten_cons, List.flatten_nil, List.append_nil]
      rw [h4, List.append_assoc, List.takeWhile_append_dropWhile]
    · split
      · exact ⟨fun _ => hq, h1, by rw [h5, h4], h6, h7, .inl ⟨h3, h4⟩⟩
      · refine ⟨fun _ => hq, h1, h2, h3, ?_, h5, h6⟩
        simp only [List.flatten_append, List.flatten_cons, List.flatten_nil, List.append_nil]
        rw [h4]
        exact List.prefix_rfl

theorem reportOk_work {r : Reporter} (h : ReportOk r) (hs : r.stage = .idle) : ReportOk r.work := by
  have ht := h.task
  have hq := h.queue
  unfold Reporter.work
  cases htask : r.sync.task with
  | starting =>
    rw [htask] at ht
    have hq := hq (by rw [htask]; simp)
    obtain ⟨h1, h2, h3, h4, h5, h6⟩ := ht
    simp only
    split
    · rename_i hn
      rcases h6 with h6 | h6
      · refine ⟨fun _ => hq, ?_⟩
        show SyncPlaceOk _ r.sync.task
        rw [htask]
        refine ⟨h1, h2, h3, h4, h5, .inr ⟨rfl, ?_⟩⟩
        show r.reports ++ _ = _
        rw [h6.2.2]
        rfl
      · rw [hn] at h6; cases h6.1
    · rename_i hn
      rcases h6 with h6 | h6
      · exact absurd h6.1 hn
      · unfold Sync.advance
        rw [htask]
        refine ⟨fun _ => hq, hs, ?_, ?_, fun _ => ?_, .inl ⟨h5, ?_⟩⟩
        · simp [h2, h3]
        · show r.reports = firstReports r.counter
          rw [h2, h6.2]
          rfl
        · show r.state ≠ _
          rw [h6.1]; simp
        · simp [h1, h3]
  | asking last events =>
    simp only
    unfold Sync.advance
    rw [htask]
    exact h
  | answered last events result more =>
    rw [htask] at ht
    have hq := hq (by rw [htask]; simp)
    obtain ⟨h1, h2, h3, h4, h5⟩ := ht
    simp only
    split
    · rename_i hc
      simp only [Bool.and_eq_true, Bool.not_eq_true', List.isEmpty_eq_false_iff, beq_iff_eq, bne_iff_ne] at hc
      obtain ⟨⟨hr, hc⟩, hst⟩ := hc
      rcases h5 with ⟨_, h5, _⟩ | ⟨_, _, h5, _⟩
      · refine ⟨fun _ => hq, ?_⟩
        show SyncPlaceOk _ r.sync.task
        rw [htask]
        refine ⟨h1, h2, h3, h4, .inr ⟨hc, hr, rfl, ?_⟩⟩
        show r.reports ++ _ = _
        rw [h5, hc]
        rfl
      · exact absurd h5 hst
    · rename_i hc
      simp only [Bool.and_eq_true, Bool.not_eq_true', List.isEmpty_eq_false_iff, beq_iff_eq, bne_iff_ne, not_and,
        not_not] at hc
      unfold Sync.advance
      rw [htask]
      have hcount : r.counter + result.length = r.answers.flatten.length := by
        rw [h3, h4]; simp [Nat.add_assoc]
      refine ⟨fun _ => hq, hs, h1, h2, by rw [h4, List.append_assoc], hcount, ?_, ?_⟩
      · show r.reports = firstReports (r.counter + result.length)
        rcases h5 with ⟨_, h5, h6⟩ | ⟨h6, hr, _, h5⟩
        · rw [h5]
          by_cases hr : result = []
          · simp [hr]
          · have : r.counter ≠ 0 := fun h0 => h6 h0 (hc ⟨hr, h0⟩)
            unfold firstReports
            rw [if_neg this, if_neg (by omega)]
        · rw [h5]
          have := List.length_pos_iff.2 hr
          unfold firstReports
          rw [if_neg (by omega)]
      · intro h0
        have h0' : r.counter + result.length = 0 := h0
        show r.state ≠ _
        rcases h5 with ⟨_, _, h6⟩ | ⟨_, hr, _⟩
        · exact h6 (by omega)
        · have := List.length_pos_iff.2 hr
          omega
  | storing last events more =>
    simp only
    unfold Sync.advance
    rw [htask] at ht ⊢
    exact reportOk_store (hq (by rw [htask]; simp)) ht
  | draining last =>
    rw [htask] at ht
    have hq := hq (by rw [htask]; simp)
    obtain ⟨h1, h2, h3, h4, h5, h6⟩ := ht
    simp only
    unfold Sync.advance
    rw [htask]
    simp only
    unfold Sync.drain
    cases hqq : r.sync.queue with
    | none => exact absurd hqq hq
    | some q =>
      cases q with
      | nil =>
        simp only
        refine ⟨fun hn => absurd rfl hn, h2, h3, h4, h5, ?_⟩
        show r.reports ++ _ = _
        rw [h6]
        rfl
      | cons es q =>
        simp only [Bool.false_eq_true, if_false]
        split
        · exact ⟨fun _ => by simp, by
            show SyncPlaceOk _ r.sync.task
            rw [htask]
            exact ⟨h1, h2, h3, h4, h5, h6⟩⟩
        · refine ⟨fun _ => by simp, ?_⟩
          show SyncPlaceOk _ r.sync.task
          rw [htask]
          refine ⟨h1, h2, h3, ?_, h5, h6⟩
          show _ <+: (r.sync.calls ++ [_]).flatten
          rw [List.flatten_append]
          exact h4.trans (List.prefix_append ..)
  | synced =>
    simp only
    unfold Sync.advance
    rw [htask]
    exact h

/-- The stage of a report may change at places where a report is made. -/
theorem ReportOk.stage {r : Reporter} (h : ReportOk r) (hs : r.stage ≠ .idle) (s : ReportStage)
    (r' : Reporter) (h0 : r'.sync = r.sync) (h1 : r'.answers = r.answers) (h2 : r'.counter = r.counter)
    (h6 : r'.state = r.state) (h8 : r'.reports = r.reports) (h9 : r'.stage = s) : ReportOk r' := by
  have ht := h.task
  refine ⟨fun hn => by rw [h0] at hn ⊢; exact h.queue hn, ?_⟩
  rw [h0]
  cases htask : r.sync.task with
  | starting =>
    rw [htask] at ht
    obtain ⟨a1, a2, a3, a4, a5, a6 | a6⟩ := ht
    · exact absurd a6.2.1 hs
    · refine ⟨h1 ▸ a1, h2 ▸ a2, by rw [h0]; exact a3, by rw [h0]; exact a4, by rw [h0]; exact a5, .inr ⟨h6 ▸ a6.1, ?_⟩⟩
      rw [h8]; exact a6.2
  | answered l events result more =>
    rw [htask] at ht
    obtain ⟨a1, a2, a3, a4, a5 | a5⟩ := ht
    · exact absurd a5.1 hs
    · refine ⟨by rw [h0]; exact a1, by rw [h0]; exact a2, by rw [h0, h2]; exact a3, by rw [h0, h1]; exact a4, .inr ?_⟩
      rw [h2, h6, h8]
      exact a5
  | synced =>
    rw [htask] at ht
    obtain ⟨a1, a2, a3, a4, a5⟩ := ht
    refine ⟨by rw [h0]; exact a1, by rw [h0]; exact a2, by rw [h0, h1]; exact a3, by rw [h2, h1]; exact a4, ?_⟩
    rw [h8, h2]
    exact a5
  | asking l events => rw [htask] at ht; exact absurd ht.1 hs
  | storing l events more => rw [htask] at ht; exact absurd ht.1 hs
  | draining l => rw [htask] at ht; exact absurd ht.1 hs

theorem reportOk_advance {r : Reporter} (h : ReportOk r) : ReportOk r.advance := by
  unfold Reporter.advance
  split
  · exact h
  · split
    · rename_i hs
      exact reportOk_work h hs
    · rename_i report hs
      unfold Reporter.call
      split
      · exact h.stage (by rw [hs]; simp) (.calling false) _ rfl rfl rfl rfl rfl rfl
      · exact h.stage (by rw [hs]; simp) .idle _ rfl rfl rfl rfl rfl rfl
    · exact h

theorem reportOk_step {r : Reporter} (h : ReportOk r) (a : ReportAct) : ReportOk (r.step a) := by
  cases a with
  | flush registered => exact h.congr rfl id rfl rfl rfl rfl rfl rfl rfl rfl
  | remove gone => exact h.congr rfl id rfl rfl rfl rfl rfl rfl rfl rfl
  | connect => exact h.congr rfl id rfl rfl rfl rfl rfl rfl rfl rfl
  | notify => exact reportOk_notify h
  | serve size => exact reportOk_serve h size
  | deliver => exact reportOk_deliver h
  | advance => exact reportOk_advance h
  | close => exact h.congr rfl id rfl rfl rfl rfl rfl rfl rfl rfl
  | status op =>
    unfold Reporter.step Reporter.setStatus
    simp only
    split
    · exact h
    · exact h.congr rfl id rfl rfl rfl rfl rfl rfl rfl rfl
  | tell =>
    unfold Reporter.step
    simp only
    split <;> exact h.congr rfl id rfl rfl rfl rfl rfl rfl rfl rfl
  | hear =>
    unfold Reporter.step
    simp only
    split
    · exact h
    · split
      · exact h
      · unfold Reporter.onStatus
        split
        · exact h.congr rfl id rfl rfl rfl rfl rfl rfl rfl rfl
        · split <;> exact h.congr rfl id rfl rfl rfl rfl rfl rfl rfl rfl
  | handle =>
    unfold Reporter.step Reporter.handle
    simp only
    split
    · exact h
    · exact h.congr rfl id rfl rfl rfl rfl rfl rfl rfl rfl
  | engine isOpen =>
    unfold Reporter.step
    by_cases hs : (r.stage = .calling false && !isOpen) = true
    · have hs' := hs
      simp only [Bool.and_eq_true, decide_eq_true_eq] at hs'
      exact h.stage (by rw [hs'.1]; simp) (.calling true) _ rfl rfl rfl rfl rfl (by simp only; rw [if_pos hs])
    · exact h.congr rfl id rfl rfl rfl rfl rfl rfl (by simp only; rw [if_neg hs]) rfl
  | returned =>
    unfold Reporter.step
    simp only
    split
    · rename_i hs
      refine h.stage ?_ .idle _ rfl rfl rfl rfl rfl rfl
      intro hi
      rw [hi] at hs
      simp at hs
    · exact h
  | raised =>
    unfold Reporter.step
    simp only
    split
    · exact h.congr rfl id rfl rfl rfl rfl rfl rfl rfl rfl
    · exact h

theorem reportOk_run {r : Reporter} (h : ReportOk r) (acts : List ReportAct) : ReportOk (r.run acts) := by
  induction acts using List.reverseRecOn with
  | nil => exact h
  | append_singleton acts a ih =>
    unfold Reporter.run at ih ⊢
    rw [List.foldl_append]
    exact reportOk_step ih a

/-! ## The remote server -/

/-- The invariant of `C85_remote`. -/
structure RemoteOk (r : Reporter) : Prop where
  before : r.sync.connected = false → r.state = none ∧ r.down = []
  down : r.toTell = false → r.down ≠ [] → r.down.getLast? = some r.operational
  last : r.operational = true → r.toTell = false → r.down = [] → ∀ s, r.state = some s →
    ∃ report, (r.remote ++ r.up).getLast? = some report ∧ report.state = s

theorem remoteOk_init (remoteId : Int) (keep : Event → Bool) (last : EventId) (op engine : Bool) :
    RemoteOk (.init remoteId keep last op engine) :=
  ⟨fun _ => ⟨rfl, rfl⟩, fun _ h => absurd rfl h, fun _ _ _ s h => nomatch h⟩

/-- `RemoteOk` depends on some fields only. -/
theorem RemoteOk.congr {r r' : Reporter} (h : RemoteOk r) (h1 : r'.sync.connected = r.sync.connected)
    (h2 : r'.state = r.state) (h3 : r'.down = r.down) (h4 : r'.toTell = r.toTell)
    (h5 : r'.operational = r.operational) (h6 : r'.remote = r.remote) (h7 : r'.up = r.up) : RemoteOk r' := by
  refine ⟨?_, ?_, ?_⟩
  · rw [h1, h2, h3]; exact h.before
  · rw [h3, h4, h5]; exact h.down
  · rw [h2, h3, h4, h5, h6, h7]; exact h.last

theorem remoteOk_setSynced {r : Reporter} (h : RemoteOk r) (hc : r.sync.connected = true) (state : SyncedState)
    (count : Option Nat) : RemoteOk (r.setSynced state count) := by
  refine ⟨fun h' => absurd (hc.symm.trans h') (by simp), h.down, fun _ _ _ s hs => ⟨⟨state, count⟩, ?_, ?_⟩⟩
  · show (r.remote ++ (r.up ++ _)).getLast? = _
    rw [← List.append_assoc, List.getLast?_append]
    rfl
  · exact Option.some.inj hs

theorem advance_connected (s : Sync) : s.advance.connected = s.connected := by
  unfold Sync.advance Sync.store Sync.drain
  simp only
  repeat' split
  all_goals rfl

theorem remoteOk_advance {r : Reporter} (h : RemoteOk r) : RemoteOk r.advance := by
  have adv : RemoteOk { r with sync := r.sync.advance } := h.congr (advance_connected _) rfl rfl rfl rfl rfl rfl
  unfold Reporter.advance
  split
  · exact h
  · rename_i hc
    have hc' : r.sync.connected = true := by
      simp only [Bool.or_eq_true, Bool.not_eq_true', not_or, Bool.not_eq_true, Bool.not_eq_false] at hc
      exact hc.2
    split
    · unfold Reporter.work
      split
      · split
        · exact remoteOk_setSynced h hc' ..
        · exact adv
      · split
        · exact remoteOk_setSynced h hc' ..
        · exact h.congr (advance_connected _) rfl rfl rfl rfl rfl rfl
      · split
        · exact remoteOk_setSynced adv ((advance_connected _).trans hc') ..
        · exact adv
      · exact adv
    · unfold Reporter.call
      split <;> exact h.congr rfl rfl rfl rfl rfl rfl rfl
    · exact h

theorem step_connected (s : Sync) (a : SyncAct) (h : a ≠ .connect) : (s.step a).connected = s.connected := by
  cases a with
  | connect => exact absurd rfl h
  | notify =>
    show s.sendNotify.connected = _
    unfold Sync.sendNotify
    simp only
    repeat' split
    all_goals rfl
  | serve size =>
    show (if s.closed then s else s.serve size).connected = _
    unfold Sync.serve
    repeat' split
    all_goals rfl
  | deliver =>
    simp only [Sync.step, Sync.receive]
    repeat' split
    all_goals rfl
  | advance =>
    unfold Sync.step
    simp only
    split
    · rfl
    · exact advance_connected s
  | flush _ => rfl
  | remove _ => rfl
  | close => rfl

theorem remoteOk_step {r : Reporter} (h : RemoteOk r) (a : ReportAct) : RemoteOk (r.step a) := by
  cases a with
  | flush registered => exact h.congr rfl rfl rfl rfl rfl rfl rfl
  | remove gone => exact h.congr rfl rfl rfl rfl rfl rfl rfl
  | connect =>
    unfold Reporter.step
    by_cases hc : r.sync.connected
    · exact h.congr hc.symm rfl rfl (by simp [hc]) rfl rfl rfl
    · rw [Bool.not_eq_true] at hc
      obtain ⟨h1, h2⟩ := h.before hc
      exact ⟨fun h' => by simp [Sync.step] at h', fun _ h' => absurd h2 h', fun _ _ _ s hs => by
        have : none = some s := h1.symm.trans hs
        cases this⟩
  | notify => exact h.congr (step_connected _ .notify (by simp)) rfl rfl rfl rfl rfl rfl
  | serve size => exact h.congr (step_connected _ (.serve size) (by simp)) rfl rfl rfl rfl rfl rfl
  | deliver => exact h.congr (step_connected _ .deliver (by simp)) rfl rfl rfl rfl rfl rfl
  | advance => exact remoteOk_advance h
  | close => exact h.congr rfl rfl rfl rfl rfl rfl rfl
  | status op =>
    unfold Reporter.step Reporter.setStatus
    simp only
    split
    · exact h
    · exact ⟨h.before, fun h' => (by cases h'), fun _ h' => (by cases h')⟩
  | tell =>
    unfold Reporter.step
    simp only
    split
    · rename_i hc
      rw [Bool.and_eq_true] at hc
      exact ⟨fun h' => absurd (hc.2.symm.trans h') (by simp), fun _ _ => by simp, fun _ _ h' => by simp at h'⟩
    · rename_i hc
      by_cases ht : r.toTell
      · have hc' : r.sync.connected = false := by simpa [ht] using hc
        obtain ⟨h1, h2⟩ := h.before hc'
        exact ⟨fun _ => ⟨h1, h2⟩, fun _ h' => absurd h2 h', fun _ _ _ s hs => by
          have : none = some s := h1.symm.trans hs
          cases this⟩
      · rw [Bool.not_eq_true] at ht
        exact h.congr rfl rfl rfl ht.symm rfl rfl rfl
  | hear =>
    unfold Reporter.step
    simp only
    cases hd : r.down with
    | nil => exact h
    | cons op down =>
      simp only
      split
      · exact h
      · have hcon : r.sync.connected = true := by
          by_contra hc
          have := (h.before (by simpa using hc)).2
          rw [hd] at this
          cases this
        unfold Reporter.onStatus
        have hdown : r.toTell = false → down ≠ [] → down.getLast? = some r.operational := by
          intro ht hne
          have := h.down ht (by rw [hd]; simp)
          rw [hd, List.getLast?_cons_of_ne_nil hne] at this
          exact this
        cases hs : r.state with
        | none =>
          exact ⟨fun h' => absurd (hcon.symm.trans h') (by simp), hdown, fun _ _ _ s hs' => nomatch hs'⟩
        | some state =>
          simp only
          cases op with
          | true =>
            refine ⟨fun h' => absurd (hcon.symm.trans h') (by simp), hdown, fun _ _ _ s hs' => ⟨⟨state, none⟩, ?_, ?_⟩⟩
            · show (r.remote ++ (r.up ++ _)).getLast? = _
              rw [← List.append_assoc, List.getLast?_append]
              rfl
            · exact Option.some.inj hs'
          | false =>
            refine ⟨fun h' => absurd (hcon.symm.trans h') (by simp), hdown, fun hop ht hnil => ?_⟩
            have hnil' : down = [] := hnil
            have := h.down ht (by rw [hd]; simp)
            rw [hd, hnil'] at this
            exact absurd ((Option.some.inj this).trans hop) (by simp)
  | handle =>
    unfold Reporter.step Reporter.handle
    simp only
    cases hu : r.up with
    | nil => exact h
    | cons report up =>
      refine ⟨h.before, h.down, fun hop ht hd s hs => ?_⟩
      obtain ⟨x, h1, h2⟩ := h.last hop ht hd s hs
      refine ⟨x, ?_, h2⟩
      have hop' : r.operational = true := hop
      simp only [hop', if_true]
      rw [hu] at h1
      simpa using h1
  | engine isOpen => exact h.congr rfl rfl rfl rfl rfl rfl rfl
  | returned =>
    unfold Reporter.step
    simp only
    split
    · exact h.congr rfl rfl rfl rfl rfl rfl rfl
    · exact h
  | raised =>
    unfold Reporter.step
    simp only
    split
    · exact h.congr rfl rfl rfl rfl rfl rfl rfl
    · exact h

theorem remoteOk_run {r : Reporter} (h : RemoteOk r) (acts : List ReportAct) : RemoteOk (r.run acts) := by
  induction acts using List.reverseRecOn with
  | nil => exact h
  | append_singleton acts a ih =>
    unfold Reporter.run at ih ⊢
    rw [List.foldl_append]
    exact remoteOk_step ih a

/-! ## The local server -/

/-- What the local engine still has to be given. -/
def Reporter.owed (r : Reporter) : List SyncedReport :=
  match r.stage with
  | .sent report => [report]
  | _ => []

/-- The invariant of `C85_local`: an engine is open all the time. -/
structure HereOk (r : Reporter) : Prop where
  engine : r.engine = true
  stage : r.stage ≠ .calling true
  here : r.here ++ r.owed = r.reports

theorem HereOk.congr {r r' : Reporter} (h : HereOk r) (h1 : r'.engine = r.engine) (h2 : r'.stage = r.stage)
    (h3 : r'.here = r.here) (h4 : r'.reports = r.reports) : HereOk r' := by
  refine ⟨h1 ▸ h.engine, h2 ▸ h.stage, ?_⟩
  have := h.here
  unfold Reporter.owed at this ⊢
  rw [h2, h3, h4]
  exact this

theorem hereOk_setSynced {r : Reporter} (h : HereOk r) (hs : r.stage = .idle) (state : SyncedState) (count : Option Nat) :
    HereOk (r.setSynced state count) := by
  refine ⟨h.engine, by simp [Reporter.setSynced], ?_⟩
  have := h.here
  unfold Reporter.owed at this
  rw [hs] at this
  simp only [List.append_nil] at this
  show r.here ++ [_] = r.reports ++ [_]
  rw [this]

theorem hereOk_advance {r : Reporter} (h : HereOk r) : HereOk r.advance := by
  have adv : HereOk { r with sync := r.sync.advance } := h.congr rfl rfl rfl rfl
  unfold Reporter.advance
  split
  · exact h
  · split
    · rename_i hs
      unfold Reporter.work
      split
      · split
        · exact hereOk_setSynced h hs ..
        · exact adv
      · split
        · exact hereOk_setSynced h hs ..
        · exact h.congr rfl rfl rfl rfl
      · split
        · exact hereOk_setSynced adv hs ..
        · exact adv
      · exact adv
    · rename_i report hs
      unfold Reporter.call
      rw [if_pos h.engine]
      refine ⟨h.engine, by simp, ?_⟩
      have := h.here
      unfold Reporter.owed at this
      rw [hs] at this
      show (r.here ++ [report]) ++ [] = r.reports
      rw [List.append_nil, this]
    · exact h

theorem hereOk_step {r : Reporter} (h : HereOk r) (a : ReportAct) (ha : a ≠ .engine false) : HereOk (r.step a) := by
  cases a with
  | advance => exact hereOk_advance h
  | status op =>
    unfold Reporter.step Reporter.setStatus
    simp only
    split
    · exact h
    · exact h.congr rfl rfl rfl rfl
  | tell =>
    unfold Reporter.step
    simp only
    split <;> exact h.congr rfl rfl rfl rfl
  | hear =>
    unfold Reporter.step
    simp only
    split
    · exact h
    · split
      · exact h
      · unfold Reporter.onStatus
        split
        · exact h.congr rfl rfl rfl rfl
        · split <;> exact h.congr rfl rfl rfl rfl
  | handle =>
    unfold Reporter.step Reporter.handle
    simp only
    split
    · exact h
    · exact h.congr rfl rfl rfl rfl
  | engine isOpen =>
    cases isOpen with
    | false => exact absurd rfl ha
    | true => exact h.congr h.engine.symm (by simp [Reporter.step]) rfl rfl
  | returned =>
    unfold Reporter.step
    simp only
    cases hs : r.stage with
    | calling lost =>
      refine ⟨h.engine, by simp, ?_⟩
      have := h.here
      unfold Reporter.owed at this
      rw [hs] at this
      exact this
    | idle => simpa [hs] using h
    | sent report => simpa [hs] using h
  | raised =>
    unfold Reporter.step
    simp only
    rw [if_neg h.stage]
    exact h
  | flush _ => exact h.congr rfl rfl rfl rfl
  | remove _ => exact h.congr rfl rfl rfl rfl
  | connect => exact h.congr rfl rfl rfl rfl
  | notify => exact h.congr rfl rfl rfl rfl
  | serve _ => exact h.congr rfl rfl rfl rfl
  | deliver => exact h.congr rfl rfl rfl rfl
  | close => exact h.congr rfl rfl rfl rfl

theorem advance_closed (s : Sync) : s.advance.closed = s.closed := by
  unfold Sync.advance Sync.store Sync.drain
  simp only
  repeat' split
  all_goals rfl

/-- A client that is not waiting for a closed engine closes only by `close`. -/
theorem closed_step {r : Reporter} {a : ReportAct} (hs : r.stage ≠ .calling true) (h : r.sync.closed = false)
    (ha : a ≠ .close) : (r.step a).sync.closed = false := by
  cases a with
  | close => exact absurd rfl ha
  | advance =>
    have adv : r.sync.advance.closed = false := (advance_closed _).trans h
    unfold Reporter.step Reporter.advance Reporter.work Reporter.call Reporter.setSynced
    simp only
    repeat' split
    all_goals first | exact h | exact adv
  | serve size =>
    show (if r.sync.closed then r.sync else r.sync.serve size).closed = _
    unfold Sync.serve
    repeat' split
    all_goals exact h
  | deliver =>
    simp only [Reporter.step, Sync.step, Sync.receive]
    repeat' split
    all_goals exact h
  | notify =>
    simp only [Reporter.step, Sync.step, Sync.sendNotify]
    repeat' split
    all_goals exact h
  | status op =>
    unfold Reporter.step Reporter.setStatus
    simp only
    split <;> exact h
  | tell =>
    unfold Reporter.step
    simp only
    split <;> exact h
  | hear =>
    unfold Reporter.step Reporter.onStatus
    simp only
    repeat' split
    all_goals exact h
  | handle =>
    unfold Reporter.step Reporter.handle
    simp only
    split <;> exact h
  | returned =>
    unfold Reporter.step
    simp only
    repeat' split
    all_goals exact h
  | raised =>
    unfold Reporter.step
    simp only
    rw [if_neg hs]
    exact h
  | flush _ => exact h
  | remove _ => exact h
  | connect => exact h
  | engine _ => exact h

/-! ## The synchronisation itself -/

/-- A step is a step of the synchronisation or none. -/
theorem report_sync (r : Reporter) (a : ReportAct) : ∃ acts, (r.step a).sync = r.sync.run acts ∧
    ∀ server keep l, (acts.foldl (storedStep server keep) l = (remoteActs a).foldl (storedStep server keep) l) ∧
      flushed server acts = flushed server (remoteActs a) := by
  have none' (h : (r.step a).sync = r.sync) (ha : remoteActs a = []) : ∃ acts, (r.step a).sync = r.sync.run acts ∧
      ∀ server keep l, (acts.foldl (storedStep server keep) l = (remoteActs a).foldl (storedStep server keep) l) ∧
        flushed server acts = flushed server (remoteActs a) :=
    ⟨[], h, fun _ _ _ => by rw [ha]; exact ⟨rfl, rfl⟩⟩
  cases a with
  | flush registered => exact ⟨[.flush registered], rfl, fun _ _ _ => ⟨rfl, rfl⟩⟩
  | remove gone => exact ⟨[.remove gone], rfl, fun _ _ _ => ⟨rfl, rfl⟩⟩
  | connect => exact ⟨[.connect], rfl, fun _ _ _ => ⟨rfl, rfl⟩⟩
  | notify => exact ⟨[.notify], rfl, fun _ _ _ => ⟨rfl, rfl⟩⟩
  | serve size => exact ⟨[.serve size], rfl, fun _ _ _ => ⟨rfl, rfl⟩⟩
  | deliver => exact ⟨[.deliver], rfl, fun _ _ _ => ⟨rfl, rfl⟩⟩
  | close => exact ⟨[.close], rfl, fun _ _ _ => ⟨rfl, rfl⟩⟩
  | advance =>
    by_cases hc : (r.sync.closed || !r.sync.connected) = true
    · refine none' ?_ rfl
      unfold Reporter.step Reporter.advance
      simp only
      rw [if_pos hc]
    · have hadv : r.sync.advance = r.sync.run [.advance] := by
        show _ = if _ then _ else _
        rw [if_neg hc]
      have : (r.step .advance).sync = r.sync ∨ (r.step .advance).sync = r.sync.advance := by
        unfold Reporter.step Reporter.advance Reporter.work Reporter.call Reporter.setSynced
        simp only
        repeat' split
        all_goals first | exact .inl rfl | exact .inr rfl
      rcases this with h | h
      · exact none' h rfl
      · exact ⟨[.advance], h.trans hadv, fun _ _ _ => ⟨rfl, rfl⟩⟩
  | status op =>
    refine none' ?_ rfl
    unfold Reporter.step Reporter.setStatus
    simp only
    split <;> rfl
  | tell =>
    refine none' ?_ rfl
    unfold Reporter.step
    simp only
    split <;> rfl
  | hear =>
    refine none' ?_ rfl
    unfold Reporter.step Reporter.onStatus
    simp only
    repeat' split
    all_goals rfl
  | handle =>
    refine none' ?_ rfl
    unfold Reporter.step Reporter.handle
    simp only
    split <;> rfl
  | engine isOpen => exact none' rfl rfl
  | returned =>
    refine none' ?_ rfl
    unfold Reporter.step
    simp only
    repeat' split
    all_goals rfl
  | raised =>
    by_cases hs : r.stage = .calling true
    · refine ⟨[.close], ?_, fun _ _ _ => ⟨rfl, rfl⟩⟩
      unfold Reporter.step
      simp only
      rw [if_pos hs]
      rfl
    · refine none' ?_ rfl
      unfold Reporter.step
      simp only
      rw [if_neg hs]

/-- The synchronisation of a history is one of `Model/Sync.lean`. -/
theorem report_sync_run (r : Reporter) (acts : List ReportAct) : ∃ sacts, (r.run acts).sync = r.sync.run sacts ∧
    (∀ server keep, stored server keep sacts = stored server keep (acts.flatMap remoteActs)) ∧
      ∀ server, flushed server sacts = flushed server (acts.flatMap remoteActs) := by
  induction acts using List.reverseRecOn with
  | nil => exact ⟨[], rfl, fun _ _ => rfl, fun _ => rfl⟩
  | append_singleton acts a ih =>
    obtain ⟨sacts, h1, h2, h3⟩ := ih
    obtain ⟨sacts', h4, h5⟩ := report_sync (r.run acts) a
    refine ⟨sacts ++ sacts', ?_, fun server keep => ?_, fun server => ?_⟩
    · show ((acts ++ [a]).foldl Reporter.step r).sync = (sacts ++ sacts').foldl Sync.step r.sync
      rw [List.foldl_append, List.foldl_append]
      exact h4.trans (by rw [h1]; rfl)
    · have := h2 server keep
      unfold stored at this ⊢
      rw [List.foldl_append, this, (h5 server keep _).1, List.flatMap_append, List.foldl_append]
      simp
    · have h3 := h3 server
      have h5 := (h5 server (fun _ => true) []).2
      unfold flushed at h3 h5 ⊢
      rw [List.flatMap_append, List.filter_append, h3, h5, List.flatMap_append (f := remoteActs), List.flatMap_append,
        List.filter_append]
      simp

end HatEvent
