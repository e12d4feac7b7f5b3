import Verif.Proof.SyncSessions

/-!
# Synchronisation (C37, C38)
-/

namespace HatEvent
open Spec

/-- An event of server 2. -/
def exSync (session instance_ : Int) : Event :=
  ⟨⟨2, session, instance_⟩, ["a"], ⟨session, 0⟩, none, none⟩

/-! ## C37 -/

theorem stored_run (server : Int) (keep : Event → Bool) (last : EventId) (acts : List SyncAct) :
    ((Sync.init server keep last).run acts).disk = stored server keep acts := by
  induction acts using List.reverseRecOn with
  | nil => rfl
  | append_singleton acts a ih =>
    obtain ⟨e1, e2, _⟩ := sync_run_same (Sync.init server keep last) acts
    change _ = server at e1
    change _ = keep at e2
    rw [sync_run_snoc]
    unfold stored at ih ⊢
    rw [List.foldl_append, ← ih]
    generalize (Sync.init server keep last).run acts = s at e1 e2 ⊢
    simp only [List.foldl_cons, List.foldl_nil]
    cases a with
    | flush r =>
      simp only [Sync.step, Sync.flush, storedStep, Sync.relevant, e1, e2, List.filter_filter]
      congr 1
      apply List.filter_congr
      intro e _
      exact Bool.and_comm _ _
    | remove g => rfl
    | connect => rfl
    | notify => exact (sendNotify_same s).2.2.1
    | serve n =>
      simp only [Sync.step, Sync.serve, storedStep]
      split
      · rfl
      · split <;> rfl
    | deliver =>
      simp only [Sync.step, storedStep]
      split
      · rfl
      · split
        · rfl
        · next m w _ => cases m <;> simp only [Sync.receive] <;> split <;> rfl
    | advance =>
      simp only [Sync.step, storedStep]
      split
      · rfl
      · unfold Sync.advance
        split
        · rfl
        · rfl
        · rfl
        · unfold Sync.store
          split
          · split <;> rfl
          · split
            · rfl
            · split <;> rfl
        · unfold Sync.drain
          split
          · rfl
          · rfl
          · simp only
            split <;> rfl
        · rfl
    | close => rfl

theorem accept_sorted (c : EventId) (l : List Event) : Increasing (accept c l) := by
  induction l generalizing c with
  | nil => exact List.Pairwise.nil
  | cons y l ih =>
    simp only [accept]
    split
    · exact List.pairwise_cons.2 ⟨fun x hx => (accept_sub _ _ x hx).2, ih _⟩
    · exact ih _

/-- An increasing part of an increasing list without gaps is a beginning of it. -/
theorem increasing_prefix {a l : List Event} (hl : Increasing l) (ha : Increasing a) (hs : ∀ x ∈ a, x ∈ l)
    (hg : ∀ e ∈ l, ∀ x ∈ a, IdLt e.id x.id → e ∈ a) : a <+: l := by
  have irr : ∀ {x : Event}, ¬ IdLt x.id x.id := not_idLt.2 .refl
  induction l generalizing a with
  | nil =>
    have h0 : a = [] := List.eq_nil_iff_forall_not_mem.2 fun x hx => by simpa using hs x hx
    rw [h0]
    exact List.prefix_rfl
  | cons y l ih =>
    cases a with
    | nil => exact List.nil_prefix
    | cons z a =>
      have h1 := List.pairwise_cons.1 hl
      have h2 := List.pairwise_cons.1 ha
      have hzy : z = y := by
        rcases List.mem_cons.1 (hs z List.mem_cons_self) with h | h
        · exact h
        · have h3 := h1.1 z h
          rcases List.mem_cons.1 (hg y List.mem_cons_self z List.mem_cons_self h3) with h4 | h4
          · exact h4.symm
          · exact absurd (h3.trans (h2.1 y h4)) irr
      subst hzy
      refine List.cons_prefix_cons.2 ⟨rfl, ih h1.2 h2.2 ?_ ?_⟩
      · intro x hx
        rcases List.mem_cons.1 (hs x (List.mem_cons_of_mem _ hx)) with h | h
        · subst h; exact absurd (h2.1 x hx) irr
        · exact h
      · intro e he x hx hlt
        rcases List.mem_cons.1 (hg e (List.mem_cons_of_mem _ he) x (List.mem_cons_of_mem _ hx) hlt) with h | h
        · subst h; exact absurd (h1.1 e he) irr
        · exact h

/-- **C37** What the local backend accepts during a connection are events of the remote server after the local last id,
in their order and each once.  Whatever the page sizes, the flushes, removals and notifications are. -/
theorem C37_order (server : Int) (keep : Event → Bool) (last : EventId) (acts : List SyncAct)
    (h : Increasing (flushed server acts)) :
    (accept last ((Sync.init server keep last).run acts).calls.flatten).Sublist (after last (flushed server acts)) := by
  obtain ⟨pre, hp⟩ := syncOk_run (keep := keep) (last := last) h
  have hs : ∀ x ∈ accept last ((Sync.init server keep last).run acts).calls.flatten, x ∈ after last (flushed server acts) := by
    intro x hx
    obtain ⟨h1, h2⟩ := accept_sub _ _ x hx
    exact mem_after.2 ⟨hp.known x (List.mem_append_left _ h1), h2⟩
  have ha := accept_sorted last ((Sync.init server keep last).run acts).calls.flatten
  exact increasing_sublist (increasing_after h last) ha hs

/-- **C37** Nothing is skipped: when the local backend has accepted an event, it has accepted all events before it
that the remote server still stores. -/
theorem C37_gapless (server : Int) (keep : Event → Bool) (last : EventId) (acts : List SyncAct)
    (h : Increasing (flushed server acts)) {e x : Event} (he : e ∈ stored server keep acts) (hle : IdLt last e.id)
    (hx : x ∈ accept last ((Sync.init server keep last).run acts).calls.flatten) (hlt : IdLt e.id x.id) :
    e ∈ accept last ((Sync.init server keep last).run acts).calls.flatten := by
  obtain ⟨pre, hp⟩ := syncOk_run (keep := keep) (last := last) h
  obtain ⟨_, _, hl⟩ := sync_run_same (Sync.init server keep last) acts
  change _ = last at hl
  rw [← stored_run server keep last] at he
  generalize (Sync.init server keep last).run acts = s at *
  subst hl
  exact hp.gapless he hle (accept_sub _ _ x hx).1 hlt

/-- Everything was sent and received. -/
def Sync.quiet (s : Sync) : Prop := s.task = .synced ∧ s.wire = [] ∧ s.unnotified = []

/-- **C37** Once synchronised, with no message on its way, the local backend has accepted every event after the local
last id that the remote server stores. -/
theorem C37_quiet (server : Int) (keep : Event → Bool) (last : EventId) (acts : List SyncAct)
    (h : Increasing (flushed server acts)) (hq : ((Sync.init server keep last).run acts).quiet)
    {e : Event} (he : e ∈ stored server keep acts) (hle : IdLt last e.id) :
    e ∈ accept last ((Sync.init server keep last).run acts).calls.flatten := by
  obtain ⟨pre, hp⟩ := syncOk_run (keep := keep) (last := last) h
  obtain ⟨_, _, hl⟩ := sync_run_same (Sync.init server keep last) acts
  change _ = last at hl
  rw [← stored_run server keep last] at he
  generalize (Sync.init server keep last).run acts = s at *
  subst hl
  exact hp.quiet hq.1 hq.2.1 hq.2.2 he hle

/-- Without removals everything that was kept is stored. -/
theorem stored_all {server : Int} {keep : Event → Bool} {acts : List SyncAct} (h : ∀ a ∈ acts, keepsAll a) :
    stored server keep acts = (flushed server acts).filter keep := by
  induction acts using List.reverseRecOn with
  | nil => rfl
  | append_singleton acts a ih =>
    have ih := ih fun b hb => h b (List.mem_append_left _ hb)
    have ha := h a (by simp)
    rw [flushed_snoc, List.filter_append, ← ih]
    unfold stored
    rw [List.foldl_append]
    simp only [List.foldl_cons, List.foldl_nil]
    cases a with
    | flush r =>
      simp only [storedStep, flushed, List.flatMap_cons, List.flatMap_nil, List.append_nil, List.filter_filter]
      congr 1
      apply List.filter_congr
      intro e _
      exact Bool.and_comm _ _
    | remove g => exact absurd ha id
    | _ => simp [storedStep, flushed]

theorem accepted_stored {server : Int} {keep : Event → Bool} {last : EventId} {acts : List SyncAct}
    (h : Increasing (flushed server acts)) :
    ∀ x ∈ (accept last ((Sync.init server keep last).run acts).calls.flatten).filter keep,
      x ∈ after last ((flushed server acts).filter keep) := by
  intro x hx
  rw [List.mem_filter] at hx
  have h1 := mem_after.1 ((C37_order server keep last acts h).subset hx.1)
  exact mem_after.2 ⟨List.mem_filter.2 ⟨h1.1, hx.2⟩, h1.2⟩

/-- **C37** If the remote server removes nothing, the accepted events that it stores are always a beginning of its stored events
after the local last id. -/
theorem C37_order_partial (server : Int) (keep : Event → Bool) (last : EventId) (acts : List SyncAct)
    (h : Increasing (flushed server acts)) (hr : ∀ a ∈ acts, keepsAll a) :
    (accept last ((Sync.init server keep last).run acts).calls.flatten).filter keep <+:
      after last ((flushed server acts).filter keep) := by
  refine increasing_prefix (increasing_after (increasing_filter h _) _) (increasing_filter (accept_sorted _ _) _)
    (accepted_stored h) ?_
  intro e he x hx hlt
  have h1 := mem_after.1 he
  refine List.mem_filter.2 ⟨?_, (List.mem_filter.1 h1.1).2⟩
  exact C37_gapless server keep last acts h (by rw [stored_all hr]; exact h1.1) h1.2 (List.mem_filter.1 hx).1 hlt

/-- **C37** If the remote server removes nothing, then once synchronised, with no message on its way, the local backend has accepted
exactly the remote server's stored events after the local last id.  Missing for the full claim: that the calls of
`register` contain nothing else. -/
theorem C37_partial (server : Int) (keep : Event → Bool) (last : EventId) (acts : List SyncAct)
    (h : Increasing (flushed server acts)) (hr : ∀ a ∈ acts, keepsAll a)
    (hq : ((Sync.init server keep last).run acts).quiet) :
    (accept last ((Sync.init server keep last).run acts).calls.flatten).filter keep =
      after last ((flushed server acts).filter keep) := by
  have hall : ∀ e ∈ after last ((flushed server acts).filter keep),
      e ∈ (accept last ((Sync.init server keep last).run acts).calls.flatten).filter keep := by
    intro e he
    have h1 := mem_after.1 he
    exact List.mem_filter.2 ⟨C37_quiet server keep last acts h hq (by rw [stored_all hr]; exact h1.1) h1.2,
      (List.mem_filter.1 h1.1).2⟩
  refine (C37_order_partial server keep last acts h hr).sublist.eq_of_length_le (List.Sublist.length_le ?_)
  exact (increasing_prefix (increasing_filter (accept_sorted _ _) _) (increasing_after (increasing_filter h _) _) hall
    fun e he _ _ _ => accepted_stored h e he).sublist

/-- **C37** Once synchronised, every event after the local last id that the remote server stores was registered or is in a notification
that is on its way. -/
theorem C37_complete (server : Int) (keep : Event → Bool) (last : EventId) (acts : List SyncAct)
    (h : Increasing (flushed server acts)) (hq : ((Sync.init server keep last).run acts).task = .synced)
    {e : Event} (he : e ∈ stored server keep acts) (hl : IdLt last e.id) :
    (∃ c ∈ ((Sync.init server keep last).run acts).calls, e ∈ c) ∨
    (∃ es, .notify es ∈ ((Sync.init server keep last).run acts).wire ∧ e ∈ es) ∨
    ∃ es ∈ ((Sync.init server keep last).run acts).unnotified, e ∈ es := by
  obtain ⟨pre, hp⟩ := syncOk_run (keep := keep) (last := last) h
  obtain ⟨_, _, hl'⟩ := sync_run_same (Sync.init server keep last) acts
  change _ = last at hl'
  rw [← stored_run server keep last] at he
  have hf := hp.final
  rw [hl'] at hf
  generalize (Sync.init server keep last).run acts = s at *
  have h1 := hf (by rw [hq]; rfl) e he hl
  have h2 := (accept_sub _ _ e h1).1
  rcases List.mem_append.1 h2 with h2 | h2
  · obtain ⟨c, hc, hec⟩ := List.mem_flatten.1 h2
    exact .inl ⟨c, hc, hec⟩
  · have hqn := hp.queue.1 hq
    unfold Sync.notes at h2
    rw [hqn] at h2
    simp only [Option.getD_none, List.flatten_nil, List.nil_append, List.mem_append] at h2
    rcases h2 with h2 | h2
    · refine .inr (.inl ?_)
      generalize s.wire = w at h2
      induction w with
      | nil => simp [notified] at h2
      | cons m w ih =>
        cases m with
        | notify es =>
          simp only [notified, List.mem_append] at h2
          rcases h2 with h2 | h2
          · exact ⟨es, List.mem_cons_self, h2⟩
          · obtain ⟨es', h3, h4⟩ := ih h2
            exact ⟨es', List.mem_cons_of_mem _ h3, h4⟩
        | response es more =>
          obtain ⟨es', h3, h4⟩ := ih h2
          exact ⟨es', List.mem_cons_of_mem _ h3, h4⟩
    · refine .inr (.inr ?_)
      have h3 := (List.mem_filter.1 h2).1
      obtain ⟨es, h4, h5⟩ := List.mem_flatten.1 h3
      exact ⟨es, h4, h5⟩

/-- Flushes before and during the connection, pages of one event, a notification that is cached and
one that is received after synchronisation. -/
def exSyncActs : List SyncAct :=
  [.flush [[exSync 1 1, exSync 1 2], [exSync 2 1]], .notify, .notify, .connect, .advance,
   .serve 1, .flush [[exSync 3 1]], .notify, .deliver, .deliver, .advance, .advance,
   .serve 2, .deliver, .advance, .advance, .advance, .serve 2, .deliver, .advance, .advance, .advance, .advance,
   .advance, .flush [[exSync 4 1]], .notify, .deliver]

example : Increasing (flushed 2 exSyncActs) ∧ (∀ a ∈ exSyncActs, keepsAll a) ∧
    ((Sync.init 2 (fun _ => true) ⟨2, 0, 0⟩).run exSyncActs).quiet ∧
    ((Sync.init 2 (fun _ => true) ⟨2, 0, 0⟩).run exSyncActs).calls =
      [[exSync 1 1, exSync 1 2], [exSync 2 1], [exSync 3 1], [exSync 4 1]] := by
  refine ⟨?_, ?_, ⟨rfl, rfl, rfl⟩, rfl⟩
  · simp [flushed, exSyncActs, exSync, Increasing, IdLt]
  · simp [exSyncActs, keepsAll]

/-- Removal of an event that was received and of one that was not asked for yet: it is never received. -/
def exRemoveActs : List SyncAct :=
  [.flush [[exSync 1 1, exSync 1 2], [exSync 2 1], [exSync 3 1]], .notify, .notify, .notify, .connect, .advance,
   .serve 1, .deliver, .advance, .advance, .remove (fun e => e.id.instance_ = 1 && e.id.session ≠ 3), .serve 5, .deliver,
   .advance, .advance, .advance, .advance]

example : Increasing (flushed 2 exRemoveActs) ∧
    ((Sync.init 2 (fun _ => true) ⟨2, 0, 0⟩).run exRemoveActs).quiet ∧
    stored 2 (fun _ => true) exRemoveActs = [exSync 1 2, exSync 3 1] ∧
    ((Sync.init 2 (fun _ => true) ⟨2, 0, 0⟩).run exRemoveActs).calls =
      [[exSync 1 1, exSync 1 2], [exSync 3 1]] := by
  refine ⟨?_, ⟨rfl, rfl, rfl⟩, rfl, rfl⟩
  simp [flushed, exRemoveActs, exSync, Increasing, IdLt]

/-- **C37 refuted** An event is registered twice: the query is answered after the flush was written and
before the notification of the same events is sent, and the notification is received after
synchronisation, when nothing is compared with the ids received (`eventer_client.py:116-120`). -/
theorem C37_refuted : ∃ acts : List SyncAct, Increasing (flushed 2 acts) ∧
    ((Sync.init 2 (fun _ => true) ⟨2, 0, 0⟩).run acts).quiet ∧
    ((Sync.init 2 (fun _ => true) ⟨2, 0, 0⟩).run acts).calls.flatten ≠ after ⟨2, 0, 0⟩ (flushed 2 acts) := by
  refine ⟨[.connect, .advance, .flush [[exSync 1 1]], .serve 10, .deliver, .advance, .advance, .advance, .notify,
    .deliver], ?_, ⟨rfl, rfl, rfl⟩, ?_⟩
  · simp [flushed, exSync, Increasing]
  · have h1 : ((Sync.init 2 (fun _ => true) ⟨2, 0, 0⟩).run [.connect, .advance, .flush [[exSync 1 1]], .serve 10,
      .deliver, .advance, .advance, .advance, .notify, .deliver]).calls.flatten = [exSync 1 1, exSync 1 1] := rfl
    rw [h1]
    intro h
    have h2 := congrArg List.length h
    have h3 : (after ⟨2, 0, 0⟩ (flushed 2 [.connect, .advance, .flush [[exSync 1 1]], .serve 10,
      .deliver, .advance, .advance, .advance, .notify, .deliver])).length ≤ 1 :=
      List.length_filter_le _ [exSync 1 1]
    rw [← h2] at h3
    simp at h3

/-- **C37 refuted** An event that the remote server does not store is registered: notifications contain all
registered events (`backends/lmdb/backend.py:183-186,311-315`). -/
theorem C37_unstored_refuted : ∃ acts : List SyncAct, Increasing (flushed 2 acts) ∧
    ((Sync.init 2 (fun _ => false) ⟨2, 0, 0⟩).run acts).disk = [] ∧
    ((Sync.init 2 (fun _ => false) ⟨2, 0, 0⟩).run acts).calls = [[exSync 1 1]] := by
  refine ⟨[.connect, .advance, .serve 10, .deliver, .advance, .advance, .advance, .flush [[exSync 1 1]], .notify,
    .deliver], ?_, rfl, rfl⟩
  simp [flushed, exSync, Increasing]

/-! ## C38 -/

/-- **C38** Before synchronisation is done with its questions, the calls of `register` consist of whole sessions of the
events received, in order, and the events received but not registered are of later sessions. -/
theorem C38_meanwhile (server : Int) (keep : Event → Bool) (last : EventId) (acts : List SyncAct)
    (h : Increasing (flushed server acts))
    (ht : ∀ l, ((Sync.init server keep last).run acts).task ≠ .draining l)
    (hs : ((Sync.init server keep last).run acts).task ≠ .synced) :
    ∃ done rest, WholeSessions ((Sync.init server keep last).run acts).calls done ∧
      queried (Sync.init server keep last) acts = done ++ rest ∧
      ∀ a ∈ done, ∀ b ∈ rest, a.id.session < b.id.session := by
  have hq := questionsOk_run (keep := keep) (last := last) h
  generalize (Sync.init server keep last).run acts = s at hq ht hs ⊢
  generalize queried (Sync.init server keep last) acts = q at hq ⊢
  cases hk : s.task with
  | starting =>
    rw [hk] at hq
    refine ⟨[], [], ?_, by rw [hq.2]; rfl, by simp⟩
    rw [hq.1]
    exact ⟨rfl, by simp, by simp, by simp⟩
  | asking a b => rw [hk] at hq; exact ⟨_, b, hq.1, hq.2.1, hq.2.2.1⟩
  | answered a b c d => rw [hk] at hq; exact ⟨_, b ++ c, hq.1, by rw [hq.2.1, List.append_assoc], hq.2.2.1⟩
  | storing a b c => rw [hk] at hq; exact ⟨_, b, hq.1, hq.2.1, hq.2.2.1⟩
  | draining a => exact absurd hk (ht a)
  | synced => exact absurd hk hs

/-- **C38** Afterwards the calls begin with the whole sessions of all events received in answers; the calls that
follow come from notifications. -/
theorem C38_done (server : Int) (keep : Event → Bool) (last : EventId) (acts : List SyncAct)
    (h : Increasing (flushed server acts))
    (ht : (∃ l, ((Sync.init server keep last).run acts).task = .draining l) ∨
      ((Sync.init server keep last).run acts).task = .synced) :
    ∃ asked noticed, ((Sync.init server keep last).run acts).calls = asked ++ noticed ∧
      WholeSessions asked (queried (Sync.init server keep last) acts) := by
  have hq := questionsOk_run (keep := keep) (last := last) h
  rcases ht with ⟨l, ht⟩ | ht
  · rw [ht] at hq; exact hq
  · rw [ht] at hq; exact hq

example : Increasing (flushed 2 exSyncActs) ∧
    ((Sync.init 2 (fun _ => true) ⟨2, 0, 0⟩).run exSyncActs).task = .synced ∧
    queried (Sync.init 2 (fun _ => true) ⟨2, 0, 0⟩) exSyncActs =
      [exSync 1 1, exSync 1 2, exSync 2 1, exSync 3 1] := by
  refine ⟨?_, rfl, rfl⟩
  simp [flushed, exSyncActs, exSync, Increasing, IdLt]

/-- The session 2 is registered when session 3 is known to follow. -/
example : ((Sync.init 2 (fun _ => true) ⟨2, 0, 0⟩).run (exSyncActs.take 17)).task =
      .asking ⟨2, 2, 1⟩ [exSync 2 1] ∧
    ((Sync.init 2 (fun _ => true) ⟨2, 0, 0⟩).run (exSyncActs.take 17)).calls = [[exSync 1 1, exSync 1 2]] :=
  ⟨rfl, rfl⟩

end HatEvent
