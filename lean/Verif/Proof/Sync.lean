import Verif.Spec.Sync
import Verif.Proof.Event
import Verif.Proof.Tactics
import Mathlib.Data.List.Induction

/-!
# Synchronisation
-/

namespace HatEvent
open Spec

/-! ### Accepted events -/

theorem accept_append (c : EventId) (l l' : List Event) :
    accept c (l ++ l') = accept c l ++ accept (lastAfter c l) l' := by
  induction l generalizing c with
  | nil => rfl
  | cons e l ih =>
    simp only [List.cons_append, accept, lastAfter]
    split
    · rw [ih]; rfl
    · rw [ih]

theorem lastAfter_append (c : EventId) (l l' : List Event) :
    lastAfter c (l ++ l') = lastAfter (lastAfter c l) l' := by
  induction l generalizing c with
  | nil => rfl
  | cons e l ih =>
    simp only [List.cons_append, lastAfter]
    split <;> rw [ih]

theorem le_lastAfter (c : EventId) (l : List Event) : IdLe c (lastAfter c l) := by
  induction l generalizing c with
  | nil => exact .refl
  | cons e l ih =>
    simp only [lastAfter]
    split
    · next h => exact .inl (h.trans_le (ih e.id))
    · exact ih c

theorem lastAfter_lt {c b : EventId} {l : List Event} (h : ∀ e ∈ l, IdLt e.id b) :
    IdLt (lastAfter c l) b ↔ IdLt c b := by
  induction l generalizing c with
  | nil => exact Iff.rfl
  | cons e l ih =>
    simp only [lastAfter]
    have hl : ∀ x ∈ l, IdLt x.id b := fun x hx => h x (List.mem_cons_of_mem _ hx)
    split
    · next hc => rw [ih hl]; exact ⟨fun h' => hc.trans h', fun _ => h e List.mem_cons_self⟩
    · exact ih hl

theorem mem_le_lastAfter (c : EventId) (l : List Event) {e : Event} (h : e ∈ l) : IdLe e.id (lastAfter c l) := by
  induction l generalizing c with
  | nil => simp at h
  | cons x l ih =>
    simp only [lastAfter]
    rcases List.mem_cons.1 h with rfl | h
    · split
      · exact le_lastAfter _ _
      · next hc => exact (not_idLt.1 hc).trans (le_lastAfter _ _)
    · split <;> exact ih _ h

theorem after_append (c : EventId) (l l' : List Event) : after c (l ++ l') = after c l ++ after c l' := by
  simp [after]

theorem mem_after {c : EventId} {l : List Event} {e : Event} : e ∈ after c l ↔ e ∈ l ∧ IdLt c e.id := by
  simp [after]

theorem Spec.Increasing.sublist {l l' : List Event} (h : Increasing l) (h' : l'.Sublist l) : Increasing l' :=
  List.Pairwise.sublist h' h

theorem increasing_filter {l : List Event} (h : Increasing l) (p : Event → Bool) : Increasing (l.filter p) :=
  h.sublist List.filter_sublist

theorem increasing_after {l : List Event} (h : Increasing l) (c : EventId) : Increasing (after c l) :=
  h.sublist List.filter_sublist

theorem after_all {c : EventId} {l : List Event} (h : ∀ e ∈ l, IdLt c e.id) : after c l = l := by
  unfold after
  rw [List.filter_eq_self]
  intro e he
  simpa using h e he

theorem after_none {c : EventId} {l : List Event} (h : ∀ e ∈ l, IdLe e.id c) : after c l = [] := by
  unfold after
  rw [List.filter_eq_nil_iff]
  intro e he
  simp only [decide_eq_true_eq]
  exact not_idLt.2 (h e he)

theorem accept_increasing {c : EventId} {l : List Event} (h : Increasing l) : accept c l = after c l := by
  induction l generalizing c with
  | nil => rfl
  | cons e l ih =>
    have h1 := List.pairwise_cons.1 h
    simp only [accept]
    split
    · next hc =>
      rw [ih h1.2, after_all h1.1, after_all]
      intro x hx
      rcases List.mem_cons.1 hx with rfl | hx
      · exact hc
      · exact hc.trans (h1.1 x hx)
    · next hc =>
      rw [ih h1.2]
      simp [after, hc]

theorem after_after {c c' : EventId} {l : List Event} (h : IdLe c c') : after c' (after c l) = after c' l := by
  unfold after
  rw [List.filter_filter]
  congr 1
  funext e
  by_cases h' : IdLt c' e.id
  · simp [h', h.trans_lt h']
  · simp [h']

theorem after_filter (c : EventId) (l : List Event) (p : Event → Bool) : (after c l).filter p = after c (l.filter p) := by
  unfold after
  rw [List.filter_filter, List.filter_filter]
  congr 1
  funext e
  exact Bool.and_comm _ _

/-- What follows a beginning of the events after an id. -/
theorem after_rest {c : EventId} {l g r : List Event} (h : Increasing l) (hg : after c l = g ++ r) :
    after (lastAfter c g) l = r := by
  rw [← after_after (le_lastAfter c g), hg, after_append]
  have h1 : Increasing (g ++ r) := hg ▸ increasing_after h c
  rw [after_none, after_all, List.nil_append]
  · intro e he
    rw [lastAfter_lt]
    · exact (mem_after.1 (hg ▸ List.mem_append_right g he)).2
    · intro x hx
      exact (List.pairwise_append.1 h1).2.2 x hx e he
  · intro e he
    exact mem_le_lastAfter c g he

theorem lastAfter_getLast {c : EventId} {l : List Event} (h : Increasing l) (hc : ∀ e ∈ l, IdLt c e.id) :
    lastAfter c l = (l.getLast?.map Event.id).getD c := by
  induction l generalizing c with
  | nil => rfl
  | cons e l ih =>
    have h1 := List.pairwise_cons.1 h
    simp only [lastAfter]
    rw [if_pos (hc e List.mem_cons_self), ih h1.2 h1.1]
    cases l with
    | nil => rfl
    | cons x l => rw [List.getLast?_cons_cons]; simp [List.getLast?_cons]

/-! ### Invariant -/

/-- The events of notifications among messages. -/
def notified : List SyncMsg → List Event
  | [] => []
  | .notify es :: w => es ++ notified w
  | .response _ _ :: w => notified w

/-- The answers among messages. -/
def responses : List SyncMsg → List (List Event × Bool)
  | [] => []
  | .notify _ :: w => responses w
  | .response es more :: w => (es, more) :: responses w

theorem notified_append (w w' : List SyncMsg) : notified (w ++ w') = notified w ++ notified w' := by
  induction w with
  | nil => rfl
  | cons m w ih => cases m <;> simp [notified, ih]

theorem responses_append (w w' : List SyncMsg) : responses (w ++ w') = responses w ++ responses w' := by
  induction w with
  | nil => rfl
  | cons m w ih => cases m <;> simp [responses, ih]

/-- Notifications that have not been processed. -/
def Sync.notes (s : Sync) : List Event :=
  (s.queue.getD []).flatten ++ notified s.wire ++ s.relevant s.unnotified.flatten

/-- Nothing that was flushed before the notifications is left to ask for after `c`. -/
def Nothing (s : Sync) (pre : List Event) (c : EventId) : Prop := ∀ e ∈ s.disk, e ∈ pre → ¬ IdLt c e.id

/-- Stored events after the last id, in order, without those that were removed but without other gaps. -/
structure PartOf (keep : Event → Bool) (last : EventId) (disk all g : List Event) : Prop where
  sorted : Increasing g
  known : ∀ e ∈ g, e ∈ all ∧ keep e = true ∧ IdLt last e.id
  gapless : ∀ e ∈ disk, IdLt last e.id → IdLe e.id (lastAfter last g) → e ∈ g

/-- The same for a state. -/
abbrev Part (s : Sync) (all g : List Event) : Prop := PartOf s.keep s.last s.disk all g

/-- An answer to a question that follows `g`. -/
def PageOk (s : Sync) (all pre g es : List Event) (more : Bool) : Prop :=
  Part s all (g ++ es) ∧ (more = false → Nothing s pre (lastAfter s.last (g ++ es)))

/-- What holds at each point of the task. -/
def TaskOk (s : Sync) (all pre : List Event) : SyncTask → Prop
  | .starting => s.calls = [] ∧ s.request = none ∧ responses s.wire = []
  | .asking last events => Part s all (s.calls.flatten ++ events) ∧ last = lastAfter s.last (s.calls.flatten ++ events) ∧
      ((s.request = some last ∧ responses s.wire = []) ∨
        ∃ es more, s.request = none ∧ responses s.wire = [(es, more)] ∧
          PageOk s all pre (s.calls.flatten ++ events) es more)
  | .answered last events es more => Part s all (s.calls.flatten ++ events) ∧
      last = lastAfter s.last (s.calls.flatten ++ events) ∧ s.request = none ∧ responses s.wire = [] ∧
      PageOk s all pre (s.calls.flatten ++ events) es more
  | .storing last events more => Part s all (s.calls.flatten ++ events) ∧
      last = lastAfter s.last (s.calls.flatten ++ events) ∧ s.request = none ∧ responses s.wire = [] ∧
      (more = false → Nothing s pre last)
  | .draining last => IdLe last (lastAfter s.last s.calls.flatten) ∧ s.request = none ∧ responses s.wire = []
  | .synced => s.request = none ∧ responses s.wire = []

/-- The task has finished with its questions. -/
def SyncTask.late : SyncTask → Bool
  | .draining _ => true
  | .synced => true
  | _ => false

/-- The invariant; `all` are the events of the remote server that were flushed. -/
structure SyncOk (s : Sync) (all : List Event) (pre : List Event) : Prop where
  disk : s.disk.Sublist (all.filter s.keep)
  sorted : Increasing all
  known : ∀ e ∈ s.calls.flatten ++ s.notes, e ∈ all
  before : s.connected = false → s.task = .starting ∧ s.wire = [] ∧ s.queue = some []
  queue : s.task = .synced ↔ s.queue = none
  split : s.task.late = false → all = pre ++ s.notes
  task : TaskOk s all pre s.task
  final : s.task.late = true → ∀ e ∈ s.disk, IdLt s.last e.id → e ∈ accept s.last (s.calls.flatten ++ s.notes)

/-- The disk has only what it had, or events that follow all known ones. -/
def DiskMore (s s' : Sync) (all : List Event) : Prop :=
  ∀ e ∈ s'.disk, e ∈ s.disk ∨ ∀ x ∈ all, IdLt x.id e.id

theorem lastAfter_cases (c : EventId) (l : List Event) : lastAfter c l = c ∨ ∃ e ∈ l, lastAfter c l = e.id := by
  induction l generalizing c with
  | nil => exact .inl rfl
  | cons e l ih =>
    simp only [lastAfter]
    split
    · rcases ih e.id with h | ⟨x, hx, h⟩
      · exact .inr ⟨e, List.mem_cons_self, h⟩
      · exact .inr ⟨x, List.mem_cons_of_mem _ hx, h⟩
    · rcases ih c with h | ⟨x, hx, h⟩
      · exact .inl h
      · exact .inr ⟨x, List.mem_cons_of_mem _ hx, h⟩

theorem part_more {s s' : Sync} {all all' g : List Event} (hl : s'.last = s.last) (hk : s'.keep = s.keep)
    (ha : ∀ e ∈ all, e ∈ all') (hd : DiskMore s s' all) (h : Part s all g) : Part s' all' g := by
  constructor
  · exact h.sorted
  · intro e he
    obtain ⟨h1, h2, h3⟩ := h.known e he
    exact ⟨ha e h1, by rw [hk]; exact h2, by rw [hl]; exact h3⟩
  · rw [hl]
    intro e he h1 h2
    rcases hd e he with h3 | h3
    · exact h.gapless e h3 h1 h2
    · exfalso
      rcases lastAfter_cases s.last g with h4 | ⟨x, hx, h4⟩
      · rw [h4] at h2; exact not_idLt.2 h2 h1
      · rw [h4] at h2; exact not_idLt.2 h2 (h3 x (h.known x hx).1)

theorem nothing_more {s s' : Sync} {all pre : List Event} {c : EventId} (hp : ∀ e ∈ pre, e ∈ all)
    (hd : DiskMore s s' all) (h : Nothing s pre c) : Nothing s' pre c := by
  intro e he hpe
  rcases hd e he with h1 | h1
  · exact h e h1 hpe
  · exact absurd (h1 e (hp e hpe)) (not_idLt.2 .refl)

theorem pageOk_more {s s' : Sync} {all all' pre g es : List Event} {more : Bool} (hl : s'.last = s.last)
    (hk : s'.keep = s.keep) (ha : ∀ e ∈ all, e ∈ all') (hp : ∀ e ∈ pre, e ∈ all) (hd : DiskMore s s' all)
    (h : PageOk s all pre g es more) : PageOk s' all' pre g es more :=
  ⟨part_more hl hk ha hd h.1, fun hm => by rw [hl]; exact nothing_more hp hd (h.2 hm)⟩

theorem taskOk_more {s s' : Sync} {all all' pre : List Event} {t : SyncTask} (hl : s'.last = s.last)
    (hk : s'.keep = s.keep) (ha : ∀ e ∈ all, e ∈ all') (hp : t.late = false → ∀ e ∈ pre, e ∈ all)
    (hd : DiskMore s s' all) (hc : s'.calls = s.calls) (hr : s'.request = s.request)
    (hw : responses s'.wire = responses s.wire) (h : TaskOk s all pre t) : TaskOk s' all' pre t := by
  cases t with
  | starting => exact ⟨hc.trans h.1, hr.trans h.2.1, hw.trans h.2.2⟩
  | asking last events =>
    obtain ⟨h1, h2, h3⟩ := h
    refine ⟨by rw [hc]; exact part_more hl hk ha hd h1, by rw [hl, hc]; exact h2, ?_⟩
    rcases h3 with h3 | ⟨es, more, h3, h4, h5⟩
    · exact .inl ⟨hr.trans h3.1, hw.trans h3.2⟩
    · exact .inr ⟨es, more, hr.trans h3, hw.trans h4, by rw [hc]; exact pageOk_more hl hk ha (hp rfl) hd h5⟩
  | answered last events es more =>
    obtain ⟨h1, h2, h3, h4, h5⟩ := h
    exact ⟨by rw [hc]; exact part_more hl hk ha hd h1, by rw [hl, hc]; exact h2, hr.trans h3, hw.trans h4,
      by rw [hc]; exact pageOk_more hl hk ha (hp rfl) hd h5⟩
  | storing last events more =>
    obtain ⟨h1, h2, h3, h4, h5⟩ := h
    exact ⟨by rw [hc]; exact part_more hl hk ha hd h1, by rw [hl, hc]; exact h2, hr.trans h3, hw.trans h4,
      fun hm => nothing_more (hp rfl) hd (h5 hm)⟩
  | draining last =>
    obtain ⟨h1, h2, h3⟩ := h
    exact ⟨by rw [hl, hc]; exact h1, hr.trans h2, hw.trans h3⟩
  | synced => exact ⟨hr.trans h.1, hw.trans h.2⟩

theorem diskMore_same {s s' : Sync} (all : List Event) (h : s'.disk = s.disk) : DiskMore s s' all :=
  fun e he => .inl (h ▸ he)

theorem SyncOk.pre_known {s : Sync} {all pre : List Event} (h : SyncOk s all pre) :
    s.task.late = false → ∀ e ∈ pre, e ∈ all := by
  intro hl e he
  rw [h.split hl]
  exact List.mem_append_left _ he

/-- The same task, with the same events on the disk. -/
theorem SyncOk.task_same {s s' : Sync} {all pre : List Event} (h : SyncOk s all pre) (hl : s'.last = s.last)
    (hk : s'.keep = s.keep) (hd : s'.disk = s.disk) (hc : s'.calls = s.calls) (hr : s'.request = s.request)
    (hw : responses s'.wire = responses s.wire) : TaskOk s' all pre s.task :=
  taskOk_more hl hk (fun _ he => he) h.pre_known (diskMore_same all hd) hc hr hw h.task

theorem syncOk_flush {s : Sync} {all pre : List Event} {registered : List (List Event)} (h : SyncOk s all pre)
    (hs : Increasing (all ++ s.relevant registered.flatten)) :
    SyncOk (s.flush registered) (all ++ s.relevant registered.flatten) pre := by
  have hn : (s.flush registered).notes = s.notes ++ s.relevant registered.flatten := by
    simp [Sync.notes, Sync.flush, Sync.relevant]
  have hd : (s.flush registered).disk = s.disk ++ (s.relevant registered.flatten).filter s.keep := rfl
  have h1 := List.pairwise_append.1 hs
  constructor
  · rw [hd, List.filter_append]
    exact List.Sublist.append h.disk (List.Sublist.refl _)
  · exact hs
  · intro e he
    rw [hn, ← List.append_assoc] at he
    rcases List.mem_append.1 he with he | he
    · exact List.mem_append_left _ (h.known e he)
    · exact List.mem_append_right _ he
  · exact h.before
  · exact h.queue
  · intro hl
    rw [hn, ← List.append_assoc, ← h.split hl]
  · refine taskOk_more (s := s) rfl rfl (fun e he => List.mem_append_left _ he) h.pre_known ?_ rfl rfl rfl h.task
    intro e he
    rw [hd] at he
    rcases List.mem_append.1 he with he | he
    · exact .inl he
    · exact .inr fun x hx => h1.2.2 x hx e (List.mem_filter.1 he).1
  · intro hl e he hle
    rw [hn, ← List.append_assoc, accept_append]
    rw [hd] at he
    rcases List.mem_append.1 he with he | he
    · exact List.mem_append_left _ (h.final hl e he hle)
    · apply List.mem_append_right
      rw [accept_increasing h1.2.1, mem_after]
      refine ⟨(List.mem_filter.1 he).1, ?_⟩
      exact (lastAfter_lt fun x hx => h1.2.2 x (h.known x hx) e (List.mem_filter.1 he).1).2 hle

theorem syncOk_remove {s : Sync} {all pre : List Event} (gone : Event → Bool) (h : SyncOk s all pre) :
    SyncOk ({ s with disk := s.disk.filter fun e => !gone e } : Sync) all pre := by
  constructor
  · exact List.filter_sublist.trans h.disk
  · exact h.sorted
  · exact h.known
  · exact h.before
  · exact h.queue
  · exact h.split
  · refine taskOk_more (s := s) rfl rfl (fun _ he => he) h.pre_known ?_ rfl rfl rfl h.task
    intro e he
    exact .inl (List.mem_filter.1 he).1
  · intro hl e he hle
    exact h.final hl e (List.mem_filter.1 he).1 hle

theorem notify_notes {s : Sync} (hc : s.connected = true) : s.sendNotify.notes = s.notes ∧
    responses s.sendNotify.wire = responses s.wire := by
  unfold Sync.sendNotify
  cases hu : s.unnotified with
  | nil => exact ⟨rfl, rfl⟩
  | cons es r =>
    simp only [hc, Bool.true_and]
    split
    · constructor
      · simp [Sync.notes, hu, notified_append, notified, Sync.relevant]
      · simp [responses_append, responses]
    · next he =>
      constructor
      · simp only [Bool.not_eq_true, Bool.not_eq_false'] at he
        have he := List.isEmpty_iff.1 he
        simp only [Sync.relevant] at he
        simp [Sync.notes, hu, Sync.relevant, he]
      · rfl

theorem sendNotify_same (s : Sync) : s.sendNotify.last = s.last ∧ s.sendNotify.keep = s.keep ∧
    s.sendNotify.disk = s.disk ∧ s.sendNotify.calls = s.calls ∧ s.sendNotify.request = s.request ∧
    s.sendNotify.task = s.task ∧ s.sendNotify.queue = s.queue ∧ s.sendNotify.connected = s.connected ∧
    s.sendNotify.remoteId = s.remoteId := by
  unfold Sync.sendNotify
  cases hu : s.unnotified with
  | nil => simp
  | cons es r => simp only; split <;> simp

theorem syncOk_notify {s : Sync} {all pre : List Event} (h : SyncOk s all pre) :
    ∃ pre', SyncOk s.sendNotify all pre' := by
  obtain ⟨e1, e2, e3, e4, e5, e6, e7, e8, e9⟩ := sendNotify_same s
  by_cases hc : s.connected = true
  · obtain ⟨n1, n2⟩ := notify_notes hc
    refine ⟨pre, ?_⟩
    constructor
    · rw [e3, e2]; exact h.disk
    · exact h.sorted
    · rw [e4, n1]; exact h.known
    · rw [e8, hc]; simp
    · rw [e6, e7]; exact h.queue
    · rw [e6, n1]; exact h.split
    · rw [e6]; exact h.task_same e1 e2 e3 e4 e5 n2
    · rw [e6, e1, e3, e4, n1]; exact h.final
  · have hc : s.connected = false := by simpa using hc
    obtain ⟨b1, b2, b3⟩ := h.before hc
    have hw : s.sendNotify.wire = [] := by
      unfold Sync.sendNotify
      cases hu : s.unnotified with
      | nil => simp [b2]
      | cons es r => simp [hc, b2]
    have hn : ∃ x, s.notes = x ++ s.sendNotify.notes := by
      unfold Sync.notes
      rw [e7, b3, b2, hw]
      unfold Sync.sendNotify Sync.relevant
      cases hu : s.unnotified with
      | nil => exact ⟨[], by simp [hu]⟩
      | cons es r => exact ⟨s.relevant es, by simp [hc, notified, Sync.relevant]⟩
    obtain ⟨x, hx⟩ := hn
    have ht := h.task
    rw [b1] at ht
    refine ⟨pre ++ x, ?_⟩
    constructor
    · rw [e3, e2]; exact h.disk
    · exact h.sorted
    · rw [e4]
      intro e he
      apply h.known e
      rw [hx]
      simp only [List.mem_append] at he ⊢
      tauto
    · rw [e8, e6, e7, hw]; exact fun _ => ⟨b1, rfl, b3⟩
    · rw [e6, e7]; exact h.queue
    · intro _
      rw [List.append_assoc, ← hx]
      exact h.split (by rw [b1]; rfl)
    · rw [e6, b1]
      exact ⟨e4.trans ht.1, e5.trans ht.2.1, by rw [hw]; rfl⟩
    · rw [e6, b1]; simp [SyncTask.late]

theorem filter_lt_after (c : EventId) (l : List Event) : (l.filter fun e => c.lt e.id) = after c l := by
  unfold after
  apply List.filter_congr
  intro e _
  by_cases h : IdLt c e.id
  · simp [h, EventId.lt_iff.2 h]
  · simp only [h, decide_false]
    exact Bool.eq_false_iff.2 fun h' => h (EventId.lt_iff.1 h')

theorem part_page {s : Sync} {all g : List Event} {size : Nat} (hd : s.disk.Sublist (all.filter s.keep))
    (hi : Increasing s.disk) (h : Part s all g) :
    Part s all (g ++ (after (lastAfter s.last g) s.disk).take size) := by
  have hia := increasing_after hi (lastAfter s.last g)
  have hin : ∀ e ∈ (after (lastAfter s.last g) s.disk).take size, e ∈ s.disk ∧ IdLt (lastAfter s.last g) e.id :=
    fun e he => mem_after.1 (List.mem_of_mem_take he)
  constructor
  · refine List.pairwise_append.2 ⟨h.sorted, hia.sublist (List.take_sublist _ _), ?_⟩
    intro x hx y hy
    exact (mem_le_lastAfter s.last g hx).trans_lt (hin y hy).2
  · intro e he
    rcases List.mem_append.1 he with he | he
    · exact h.known e he
    · obtain ⟨h1, h2⟩ := hin e he
      have h3 := List.mem_filter.1 (hd.subset h1)
      exact ⟨h3.1, h3.2, (le_lastAfter _ _).trans_lt h2⟩
  · intro e he h1 h2
    by_cases h3 : IdLt (lastAfter s.last g) e.id
    · apply List.mem_append_right
      have h4 : e ∈ after (lastAfter s.last g) s.disk := mem_after.2 ⟨he, h3⟩
      rw [← List.take_append_drop size (after (lastAfter s.last g) s.disk)] at h4 hia
      rcases List.mem_append.1 h4 with h4 | h4
      · exact h4
      · exfalso
        rw [lastAfter_append] at h2
        refine not_idLt.2 h2 ?_
        rw [lastAfter_lt fun x hx => (List.pairwise_append.1 hia).2.2 x hx e h4]
        exact h3
    · exact List.mem_append_left _ (h.gapless e he h1 (not_idLt.1 h3))

theorem syncOk_serve {s : Sync} {all pre : List Event} (size : Nat) (h : SyncOk s all pre) :
    SyncOk (s.serve size) all pre := by
  unfold Sync.serve
  cases hr : s.request with
  | none => exact h
  | some c =>
    simp only [filter_lt_after]
    have ht := h.task
    obtain ⟨t, hk⟩ : ∃ t, s.task = t := ⟨_, rfl⟩
    cases t with
    | asking last events =>
      rw [hk] at ht
      obtain ⟨h1, h2, h3⟩ := ht
      rcases h3 with ⟨h3, h4⟩ | ⟨_, _, h3, _⟩
      · rw [hr] at h3
        obtain rfl : c = last := by simpa using h3
        have hi : Increasing s.disk := (increasing_filter h.sorted _).sublist h.disk
        have hsp := h.split (by rw [hk]; rfl)
        have hn : ∀ r w, notified (s.wire ++ [.response r w]) = notified s.wire := by
          intro r w; rw [notified_append]; simp [notified]
        have hpart := part_page h.disk hi h1 (size := size)
        rw [← h2] at hpart
        constructor
        · exact h.disk
        · exact h.sorted
        · unfold Sync.notes; rw [hn]; exact h.known
        · intro hc
          have hb := (h.before hc).1
          rw [hk] at hb
          cases hb
        · exact h.queue
        · unfold Sync.notes; rw [hn]; exact h.split
        · show TaskOk _ _ _ s.task
          rw [hk]
          refine ⟨⟨h1.sorted, h1.known, h1.gapless⟩, h2, .inr ⟨(after c s.disk).take size, decide (size < (after c s.disk).length), rfl, ?_, ?_, ?_⟩⟩
          · rw [responses_append, h4]; rfl
          · exact ⟨hpart.sorted, hpart.known, hpart.gapless⟩
          · intro hm
            have hle : (after c s.disk).length ≤ size := by simpa using hm
            rw [List.take_of_length_le hle]
            intro e he _ hlt
            change IdLt (lastAfter s.last (s.calls.flatten ++ events ++ after c s.disk)) e.id at hlt
            have h5 : IdLt c e.id := by
              rw [lastAfter_append, ← h2] at hlt
              exact (le_lastAfter _ _).trans_lt hlt
            exact not_idLt.2 (mem_le_lastAfter s.last _ (List.mem_append_right _ (mem_after.2 ⟨he, h5⟩))) hlt
        · unfold Sync.notes; rw [hn]; exact h.final
      · rw [hr] at h3; simp at h3
    | starting => rw [hk] at ht; simp [TaskOk, hr] at ht
    | answered a b c d => rw [hk] at ht; simp [TaskOk, hr] at ht
    | storing a b c => rw [hk] at ht; simp [TaskOk, hr] at ht
    | draining a => rw [hk] at ht; simp [TaskOk, hr] at ht
    | synced => rw [hk] at ht; simp [TaskOk, hr] at ht

theorem nothing_accept {s : Sync} {all pre g : List Event} (hd : s.disk.Sublist (all.filter s.keep))
    (hi : Increasing all) (hs : all = pre ++ s.notes) (hg : Part s all g)
    (hn : Nothing s pre (lastAfter s.last g)) :
    ∀ e ∈ s.disk, IdLt s.last e.id → e ∈ accept s.last (g ++ s.notes) := by
  intro e he hle
  have hni : Increasing s.notes := by
    rw [hs] at hi; exact (List.pairwise_append.1 hi).2.1
  rw [accept_append, accept_increasing hg.sorted, accept_increasing hni]
  by_cases h : IdLt (lastAfter s.last g) e.id
  · apply List.mem_append_right
    have h1 := (List.mem_filter.1 (hd.subset he)).1
    rw [hs] at h1
    rcases List.mem_append.1 h1 with h1 | h1
    · exact absurd h (hn e he h1)
    · exact mem_after.2 ⟨h1, h⟩
  · exact List.mem_append_left _ (mem_after.2 ⟨hg.gapless e he hle (not_idLt.1 h), hle⟩)

theorem syncOk_receive {s : Sync} {all pre : List Event} {m : SyncMsg} {w : List SyncMsg} (hw : s.wire = m :: w)
    (h : SyncOk s all pre) : SyncOk (({ s with wire := w } : Sync).receive m) all pre := by
  have hconn : s.connected = true := by
    by_contra hc
    have := (h.before (by simpa using hc)).2.1
    rw [hw] at this
    cases this
  cases m with
  | notify es =>
    unfold Sync.receive
    cases hq : s.queue with
    | some q =>
      have hn : ({ s with wire := w, queue := some (q ++ [es]) } : Sync).notes = s.notes := by
        simp [Sync.notes, hq, hw, notified, Sync.relevant]
      simp only
      constructor
      · exact h.disk
      · exact h.sorted
      · rw [hn]; exact h.known
      · intro hc; rw [hconn] at hc; cases hc
      · have := h.queue
        rw [hq] at this
        simpa using this
      · rw [hn]; exact h.split
      · refine h.task_same rfl rfl rfl rfl rfl ?_
        rw [hw]; rfl
      · rw [hn]; exact h.final
    | none =>
      have ht : s.task = .synced := h.queue.2 hq
      have hn : (s.calls ++ [es]).flatten ++ ({ s with wire := w, calls := s.calls ++ [es] } : Sync).notes =
          s.calls.flatten ++ s.notes := by
        simp [Sync.notes, hq, hw, notified, Sync.relevant]
      simp only
      rw [hq] at hn
      constructor
      · exact h.disk
      · exact h.sorted
      · rw [hn]; exact h.known
      · intro hc; rw [hconn] at hc; cases hc
      · have := h.queue
        rw [hq] at this
        exact this
      · intro hl
        change s.task.late = false at hl
        rw [ht] at hl; cases hl
      · have := h.task
        change TaskOk _ _ _ s.task
        rw [ht] at this ⊢
        exact ⟨this.1, by have h2 := this.2; rw [hw] at h2; exact h2⟩
      · rw [hn]; exact h.final
  | response es more =>
    unfold Sync.receive
    have ht := h.task
    have hn : ∀ t, ({ s with wire := w, task := t } : Sync).notes = s.notes := by
      intro t
      simp [Sync.notes, hw, notified, Sync.relevant]
    have hr : responses s.wire = (es, more) :: responses w := by rw [hw]; rfl
    obtain ⟨t, hk⟩ : ∃ t, s.task = t := ⟨_, rfl⟩
    rw [hk] at ht
    cases t with
    | asking last events =>
      obtain ⟨h1, h2, h3⟩ := ht
      rcases h3 with ⟨_, h4⟩ | ⟨es', more', h3, h4, h5⟩
      · rw [hr] at h4; cases h4
      · rw [hr] at h4
        simp only [List.cons.injEq, Prod.mk.injEq] at h4
        obtain ⟨⟨rfl, rfl⟩, h4⟩ := h4
        simp only [hk]
        constructor
        · exact h.disk
        · exact h.sorted
        · rw [hn]; exact h.known
        · intro hc; rw [hconn] at hc; cases hc
        · have := h.queue
          rw [hk] at this
          simpa using this
        · rw [hn]; exact fun _ => h.split (by rw [hk]; rfl)
        · exact ⟨h1, h2, h3, h4, h5⟩
        · intro hl; cases hl
    | starting => simp [TaskOk, hr] at ht
    | answered a b c d => obtain ⟨_, _, _, h4, _⟩ := ht; rw [hr] at h4; cases h4
    | storing a b c => obtain ⟨_, _, _, h4, _⟩ := ht; rw [hr] at h4; cases h4
    | draining a => obtain ⟨_, _, h4⟩ := ht; rw [hr] at h4; cases h4
    | synced => obtain ⟨_, h4⟩ := ht; rw [hr] at h4; cases h4

theorem accept_after {c b : EventId} (h : IdLe b c) (l : List Event) :
    accept c (after b l) = accept c l ∧ lastAfter c (after b l) = lastAfter c l := by
  induction l generalizing c with
  | nil => exact ⟨rfl, rfl⟩
  | cons e l ih =>
    by_cases hb : IdLt b e.id
    · have h1 : after b (e :: l) = e :: after b l := by simp [after, hb]
      rw [h1]
      simp only [accept, lastAfter]
      split
      · have := ih (c := e.id) (.inl hb)
        exact ⟨by rw [this.1], this.2⟩
      · exact ih h
    · have h1 : after b (e :: l) = after b l := by simp [after, hb]
      have hc : ¬ IdLt c e.id := fun h' => hb (h.trans_lt h')
      rw [h1]
      simp only [accept, lastAfter, hc, if_false]
      exact ih h

/-- The task goes on with its questions, having moved `buf` events to calls. -/
theorem syncOk_ask {s s' : Sync} {all pre : List Event} (h : SyncOk s all pre) (hc : s.connected = true)
    (hl : s.task.late = false) (hl' : s'.task.late = false)
    (e1 : s'.disk = s.disk) (e2 : s'.keep = s.keep) (e3 : s'.wire = s.wire) (e4 : s'.queue = s.queue)
    (e5 : s'.unnotified = s.unnotified) (e6 : s'.remoteId = s.remoteId) (e7 : s'.connected = s.connected)
    (hk : ∀ e ∈ s'.calls.flatten, e ∈ all) (ht : TaskOk s' all pre s'.task) : SyncOk s' all pre := by
  have hn : s'.notes = s.notes := by unfold Sync.notes Sync.relevant; rw [e3, e4, e5, e6]
  have hns : ∀ t : SyncTask, t.late = false → t ≠ .synced := by
    intro t h1 h2; rw [h2] at h1; cases h1
  constructor
  · rw [e1, e2]; exact h.disk
  · exact h.sorted
  · rw [hn]
    intro e he
    rcases List.mem_append.1 he with he | he
    · exact hk e he
    · exact h.known e (List.mem_append_right _ he)
  · rw [e7, hc]; simp
  · rw [e4]
    exact ⟨fun h1 => absurd h1 (hns _ hl'), fun h1 => absurd (h.queue.2 h1) (hns _ hl)⟩
  · intro _; rw [hn]; exact h.split hl
  · exact ht
  · rw [hl']; simp

/-- The task is done with its questions. -/
theorem syncOk_done {s s' : Sync} {all pre : List Event} {last : EventId} (h : SyncOk s all pre)
    (hc : s.connected = true) (hl : s.task.late = false) (hl' : s'.task = .draining last)
    (e1 : s'.disk = s.disk) (e2 : s'.keep = s.keep) (e3 : s'.wire = s.wire) (e4 : s'.queue = s.queue)
    (e5 : s'.unnotified = s.unnotified) (e6 : s'.remoteId = s.remoteId) (e7 : s'.connected = s.connected)
    (e8 : s'.last = s.last) (hp : Part s all s'.calls.flatten) (hl2 : last = lastAfter s.last s'.calls.flatten)
    (hnt : Nothing s pre last) (hr : s'.request = none) (hw : responses s.wire = []) : SyncOk s' all pre := by
  have hn : s'.notes = s.notes := by unfold Sync.notes Sync.relevant; rw [e3, e4, e5, e6]
  have hns : s.task ≠ .synced := by intro h2; rw [h2] at hl; cases hl
  constructor
  · rw [e1, e2]; exact h.disk
  · exact h.sorted
  · rw [hn]
    intro e he
    rcases List.mem_append.1 he with he | he
    · exact (hp.known e he).1
    · exact h.known e (List.mem_append_right _ he)
  · rw [e7, hc]; simp
  · rw [e4, hl']
    exact ⟨fun h1 => (by cases h1), fun h1 => absurd (h.queue.2 h1) hns⟩
  · rw [hl']; intro h1; cases h1
  · rw [hl']
    exact ⟨by rw [e8, ← hl2]; exact .refl, hr, by rw [e3]; exact hw⟩
  · intro _
    rw [hn, e8, e1]
    exact nothing_accept h.disk h.sorted (h.split hl) hp (hl2 ▸ hnt)

theorem syncOk_store {s : Sync} {all pre : List Event} {last : EventId} {events : List Event} {more : Bool}
    (hk : s.task = .storing last events more) (hc : s.connected = true) (h : SyncOk s all pre) :
    SyncOk (s.store last events more) all pre := by
  have ht := h.task
  rw [hk] at ht
  obtain ⟨h1, h2, h3, h4, h5⟩ := ht
  have hl : s.task.late = false := by rw [hk]; rfl
  have hall : ∀ e ∈ s.calls.flatten ++ events, e ∈ all := by
    intro e he
    exact (h1.known e he).1
  have hcalls : ∀ e ∈ s.calls.flatten, e ∈ all := fun e he => hall e (List.mem_append_left _ he)
  unfold Sync.store
  cases events with
  | nil =>
    simp only
    cases more with
    | true =>
      exact syncOk_ask h hc hl rfl rfl rfl rfl rfl rfl rfl rfl hcalls ⟨h1, h2, .inl ⟨rfl, h4⟩⟩
    | false =>
      rw [List.append_nil] at h1 h2
      exact syncOk_done h hc hl rfl rfl rfl rfl rfl rfl rfl rfl rfl h1 h2 (h5 rfl) h3 h4
  | cons e l =>
    simp only
    split
    · have hsplit : (s.calls ++ [(e :: l).takeWhile fun x => decide (x.id.session = e.id.session)]).flatten ++
          (e :: l).dropWhile (fun x => decide (x.id.session = e.id.session)) = s.calls.flatten ++ (e :: l) := by
        simp only [List.flatten_append, List.flatten_singleton, List.append_assoc, List.takeWhile_append_dropWhile]
      refine syncOk_ask h hc hl rfl rfl rfl rfl rfl rfl rfl rfl ?_ ?_
      · intro x hx
        apply hall
        rw [← hsplit]
        exact List.mem_append_left _ hx
      · refine ⟨?_, ?_, h3, h4, h5⟩
        · simp only [hsplit]; exact h1
        · simp only [hsplit]; exact h2
    · cases more with
      | true =>
        exact syncOk_ask h hc hl rfl rfl rfl rfl rfl rfl rfl rfl hcalls ⟨h1, h2, .inl ⟨rfl, h4⟩⟩
      | false =>
        have hf : (s.calls ++ [e :: l]).flatten = s.calls.flatten ++ (e :: l) := by simp
        refine syncOk_done h hc hl rfl rfl rfl rfl rfl rfl rfl rfl rfl ?_ ?_ (h5 rfl) h3 h4
        · change Part s all (s.calls ++ [e :: l]).flatten
          rw [hf]; exact h1
        · change last = lastAfter s.last (s.calls ++ [e :: l]).flatten
          rw [hf]; exact h2

theorem syncOk_drain {s : Sync} {all pre : List Event} {last : EventId}
    (hk : s.task = .draining last) (hc : s.connected = true) (h : SyncOk s all pre) :
    SyncOk (s.drain last) all pre := by
  have ht := h.task
  rw [hk] at ht
  obtain ⟨h1, h2, h3⟩ := ht
  have hfin := h.final (by rw [hk]; rfl)
  unfold Sync.drain
  cases hq : s.queue with
  | none => exact h
  | some q =>
    cases q with
    | nil =>
      have hn : ({ s with queue := none, task := .synced } : Sync).notes = s.notes := by
        simp [Sync.notes, Sync.relevant, hq]
      simp only
      constructor
      · exact h.disk
      · exact h.sorted
      · rw [hn]; exact h.known
      · intro h'; rw [hc] at h'; cases h'
      · simp
      · intro h'; cases h'
      · exact ⟨h2, h3⟩
      · rw [hn]; exact fun _ => hfin
    | cons es q =>
      simp only [filter_lt_after]
      have hn : s.notes = es ++ ({ s with queue := some q } : Sync).notes := by
        simp [Sync.notes, Sync.relevant, hq]
      have hsub : ∀ e ∈ after last es, e ∈ es := fun e he => (mem_after.1 he).1
      have hacc := accept_after h1 es
      split
      · next he =>
        have he := List.isEmpty_iff.1 he
        rw [he] at hacc
        constructor
        · exact h.disk
        · exact h.sorted
        · intro e he
          apply h.known e
          rw [hn]
          simp only [List.mem_append] at he ⊢
          tauto
        · intro h'; rw [hc] at h'; cases h'
        · change s.task = _ ↔ _
          rw [hk]
          simp
        · intro h'
          change s.task.late = false at h'
          rw [hk] at h'; cases h'
        · change TaskOk _ _ _ s.task
          rw [hk]
          exact ⟨h1, h2, h3⟩
        · intro _ e hed hle
          have hin := hfin e hed hle
          rw [hn] at hin
          simp only [accept_append] at hin ⊢
          rw [← hacc.1, ← hacc.2] at hin
          simpa [accept, lastAfter] using hin
      · have hf : (s.calls ++ [after last es]).flatten = s.calls.flatten ++ after last es := by simp
        constructor
        · exact h.disk
        · exact h.sorted
        · intro e he
          apply h.known e
          rw [hn]
          simp only [hf, List.mem_append] at he ⊢
          rcases he with (he | he) | he
          · exact .inl he
          · exact .inr (.inl (hsub e he))
          · exact .inr (.inr he)
        · intro h'; rw [hc] at h'; cases h'
        · change s.task = _ ↔ _
          rw [hk]
          simp
        · intro h'
          change s.task.late = false at h'
          rw [hk] at h'; cases h'
        · change TaskOk _ _ _ s.task
          rw [hk]
          refine ⟨?_, h2, h3⟩
          simp only [hf, lastAfter_append]
          exact h1.trans (le_lastAfter _ _)
        · intro _ e hed hle
          have hin := hfin e hed hle
          rw [hn] at hin
          simp only [hf, accept_append, lastAfter_append, List.append_assoc] at hin ⊢
          rw [hacc.1, hacc.2]
          exact hin

theorem syncOk_advance {s : Sync} {all pre : List Event} (hc : s.connected = true) (h : SyncOk s all pre) :
    SyncOk s.advance all pre := by
  have ht := h.task
  obtain ⟨t, hk⟩ : ∃ t, s.task = t := ⟨_, rfl⟩
  rw [hk] at ht
  unfold Sync.advance
  cases t with
  | starting =>
    simp only [hk]
    obtain ⟨h1, h2, h3⟩ := ht
    refine syncOk_ask h hc (by rw [hk]; rfl) rfl rfl rfl rfl rfl rfl rfl rfl ?_ ?_
    · simp [h1]
    · refine ⟨?_, ?_, .inl ⟨rfl, h3⟩⟩
      · simp only [h1, List.flatten_nil, List.append_nil]
        exact ⟨List.Pairwise.nil, by simp, fun e _ h4 h5 => absurd h4 (not_idLt.2 h5)⟩
      · simp [h1, lastAfter]
  | asking a b => simp only [hk]; exact h
  | answered last events es more =>
    simp only [hk]
    obtain ⟨h1, h2, h3, h4, h5⟩ := ht
    refine syncOk_ask h hc (by rw [hk]; rfl) rfl rfl rfl rfl rfl rfl rfl rfl ?_ ?_
    · exact fun e he => h.known e (List.mem_append_left _ he)
    · have hlast : ((events ++ es).getLast?.map Event.id).getD last =
          lastAfter s.last (s.calls.flatten ++ (events ++ es)) := by
        cases hx : events ++ es with
        | nil =>
          have he : events = [] := (List.append_eq_nil_iff.1 hx).1
          simp only [List.getLast?_nil, Option.map_none, Option.getD_none]
          rw [h2, he]
        | cons y ys =>
          have hgi : Increasing (s.calls.flatten ++ (y :: ys)) := by
            rw [← hx, ← List.append_assoc]
            exact h5.1.sorted
          rw [lastAfter_getLast hgi]
          · simp [List.getLast?_append, List.getLast?_cons]
          · intro e he
            rw [← hx, ← List.append_assoc] at he
            exact (h5.1.known e he).2.2
      refine ⟨?_, ?_, h3, h4, ?_⟩
      · rw [← List.append_assoc]; exact h5.1
      · exact hlast
      · intro hm
        rw [hlast, ← List.append_assoc]
        exact h5.2 hm
  | storing a b c => simp only [hk]; exact syncOk_store hk hc h
  | draining a => simp only [hk]; exact syncOk_drain hk hc h
  | synced => simp only [hk]; exact h

theorem sync_same (s : Sync) (a : SyncAct) : (s.step a).remoteId = s.remoteId ∧ (s.step a).keep = s.keep ∧
    (s.step a).last = s.last := by
  cases a with
  | flush r => exact ⟨rfl, rfl, rfl⟩
  | remove g => exact ⟨rfl, rfl, rfl⟩
  | connect => exact ⟨rfl, rfl, rfl⟩
  | notify =>
    obtain ⟨e1, e2, _, _, _, _, _, _, e9⟩ := sendNotify_same s
    exact ⟨e9, e2, e1⟩
  | serve n =>
    simp only [Sync.step, Sync.serve]
    split
    · exact ⟨rfl, rfl, rfl⟩
    · split <;> exact ⟨rfl, rfl, rfl⟩
  | deliver =>
    simp only [Sync.step]
    split
    · exact ⟨rfl, rfl, rfl⟩
    · split
      · exact ⟨rfl, rfl, rfl⟩
      · next m w _ =>
        cases m <;> simp only [Sync.receive] <;> split <;> exact ⟨rfl, rfl, rfl⟩
  | advance =>
    simp only [Sync.step]
    split
    · exact ⟨rfl, rfl, rfl⟩
    · unfold Sync.advance
      split
      · exact ⟨rfl, rfl, rfl⟩
      · exact ⟨rfl, rfl, rfl⟩
      · exact ⟨rfl, rfl, rfl⟩
      · unfold Sync.store
        split
        · split <;> exact ⟨rfl, rfl, rfl⟩
        · split
          · exact ⟨rfl, rfl, rfl⟩
          · split <;> exact ⟨rfl, rfl, rfl⟩
      · unfold Sync.drain
        split
        · exact ⟨rfl, rfl, rfl⟩
        · exact ⟨rfl, rfl, rfl⟩
        · simp only
          split <;> exact ⟨rfl, rfl, rfl⟩
      · exact ⟨rfl, rfl, rfl⟩
  | close => exact ⟨rfl, rfl, rfl⟩

theorem sync_run_snoc (s : Sync) (acts : List SyncAct) (a : SyncAct) :
    s.run (acts ++ [a]) = (s.run acts).step a := by simp [Sync.run]

theorem sync_run_same (s : Sync) (acts : List SyncAct) : (s.run acts).remoteId = s.remoteId ∧
    (s.run acts).keep = s.keep ∧ (s.run acts).last = s.last := by
  induction acts using List.reverseRecOn with
  | nil => exact ⟨rfl, rfl, rfl⟩
  | append_singleton acts a ih =>
    rw [sync_run_snoc]
    obtain ⟨h1, h2, h3⟩ := sync_same (s.run acts) a
    exact ⟨h1.trans ih.1, h2.trans ih.2.1, h3.trans ih.2.2⟩

theorem syncOk_step {s : Sync} {server : Int} {all pre : List Event} (a : SyncAct) (hp : SyncOk s all pre)
    (hsame : s.remoteId = server) (h : Increasing (all ++ flushed server [a])) :
    ∃ pre, SyncOk (s.step a) (all ++ flushed server [a]) pre := by
  cases a with
  | flush registered =>
    have hf : flushed server [.flush registered] = s.relevant registered.flatten := by
      simp [flushed, Sync.relevant, hsame]
    rw [hf] at h ⊢
    exact ⟨pre, syncOk_flush hp h⟩
  | remove gone =>
    have hf : flushed server [.remove gone] = [] := rfl
    rw [hf, List.append_nil]
    exact ⟨pre, syncOk_remove gone hp⟩
  | connect =>
    have hf : flushed server [.connect] = [] := rfl
    rw [hf, List.append_nil]
    refine ⟨pre, ?_⟩
    constructor
    · exact hp.disk
    · exact hp.sorted
    · exact hp.known
    · intro hc; cases hc
    · exact hp.queue
    · exact hp.split
    · exact hp.task_same rfl rfl rfl rfl rfl rfl
    · exact hp.final
  | notify =>
    have hf : flushed server [.notify] = [] := rfl
    rw [hf, List.append_nil]
    exact syncOk_notify hp
  | serve n =>
    have hf : flushed server [.serve n] = [] := rfl
    rw [hf, List.append_nil]
    refine ⟨pre, ?_⟩
    simp only [Sync.step]
    split
    · exact hp
    · exact syncOk_serve n hp
  | deliver =>
    have hf : flushed server [.deliver] = [] := rfl
    rw [hf, List.append_nil]
    refine ⟨pre, ?_⟩
    simp only [Sync.step]
    split
    · exact hp
    · split
      · exact hp
      · next m w hw => exact syncOk_receive hw hp
  | advance =>
    have hf : flushed server [.advance] = [] := rfl
    rw [hf, List.append_nil]
    refine ⟨pre, ?_⟩
    simp only [Sync.step]
    split
    · exact hp
    · next hc =>
      simp only [Bool.or_eq_true, Bool.not_eq_true', not_or, Bool.not_eq_false] at hc
      exact syncOk_advance hc.2 hp
  | close =>
    have hf : flushed server [.close] = [] := rfl
    rw [hf, List.append_nil]
    refine ⟨pre, ?_⟩
    constructor
    · exact hp.disk
    · exact hp.sorted
    · exact hp.known
    · exact hp.before
    · exact hp.queue
    · exact hp.split
    · exact hp.task_same rfl rfl rfl rfl rfl rfl
    · exact hp.final

theorem flushed_snoc (server : Int) (acts : List SyncAct) (a : SyncAct) :
    flushed server (acts ++ [a]) = flushed server acts ++ flushed server [a] := by
  simp [flushed]

theorem syncOk_run {server : Int} {keep : Event → Bool} {last : EventId} {acts : List SyncAct}
    (h : Increasing (flushed server acts)) :
    ∃ pre, SyncOk ((Sync.init server keep last).run acts) (flushed server acts) pre := by
  induction acts using List.reverseRecOn with
  | nil =>
    refine ⟨[], ?_⟩
    constructor
    · exact List.nil_sublist _
    · exact h
    · intro e he; simp [Sync.run, Sync.init, Sync.notes, Sync.relevant, notified] at he
    · intro _; exact ⟨rfl, rfl, rfl⟩
    · simp [Sync.run, Sync.init]
    · intro _; rfl
    · exact ⟨rfl, rfl, rfl⟩
    · intro hl; cases hl
  | append_singleton acts a ih =>
    rw [flushed_snoc] at h ⊢
    rw [sync_run_snoc]
    obtain ⟨pre, hp⟩ := ih (List.pairwise_append.1 h).1
    have hsame := (sync_run_same (Sync.init server keep last) acts).1
    exact syncOk_step a hp hsame h

theorem accept_sub (c : EventId) (l : List Event) : ∀ x ∈ accept c l, x ∈ l ∧ IdLt c x.id := by
  induction l generalizing c with
  | nil => simp [accept]
  | cons y l ih =>
    intro x hx
    simp only [accept] at hx
    split at hx
    · next hc =>
      rcases List.mem_cons.1 hx with rfl | hx
      · exact ⟨List.mem_cons_self, hc⟩
      · obtain ⟨h1, h2⟩ := ih _ _ hx
        exact ⟨List.mem_cons_of_mem _ h1, hc.trans h2⟩
    · obtain ⟨h1, h2⟩ := ih _ _ hx
      exact ⟨List.mem_cons_of_mem _ h1, h2⟩

/-- Nothing is skipped among the calls. -/
theorem SyncOk.gapless {s : Sync} {all pre : List Event} (h : SyncOk s all pre) {e x : Event} (he : e ∈ s.disk)
    (hle : IdLt s.last e.id) (hx : x ∈ s.calls.flatten) (hlt : IdLt e.id x.id) :
    e ∈ accept s.last s.calls.flatten := by
  have ht := h.task
  have early : ∀ l, Part s all (s.calls.flatten ++ l) → e ∈ accept s.last s.calls.flatten := by
    intro l hpart
    have hsplit := List.pairwise_append.1 hpart.sorted
    rw [accept_increasing hsplit.1, mem_after]
    refine ⟨?_, hle⟩
    have h1 := hpart.gapless e he hle
      (.inl (hlt.trans_le (mem_le_lastAfter _ _ (List.mem_append_left _ hx))))
    rcases List.mem_append.1 h1 with h2 | h2
    · exact h2
    · exact absurd (hlt.trans (hsplit.2.2 x hx e h2)) (not_idLt.2 .refl)
  have late : s.task.late = true → e ∈ accept s.last s.calls.flatten := by
    intro hlate
    have h1 := h.final hlate e he hle
    rw [accept_append] at h1
    rcases List.mem_append.1 h1 with h1 | h1
    · exact h1
    · have h2 := (accept_sub _ _ e h1).2
      have h3 := mem_le_lastAfter s.last s.calls.flatten hx
      exact absurd ((h3.trans_lt h2).trans hlt) (not_idLt.2 .refl)
  cases hk : s.task with
  | starting =>
    rw [hk] at ht
    rw [ht.1] at hx
    simp at hx
  | asking a b => rw [hk] at ht; exact early _ ht.1
  | answered a b c d => rw [hk] at ht; exact early _ ht.1
  | storing a b c => rw [hk] at ht; exact early _ ht.1
  | draining a => exact late (by rw [hk]; rfl)
  | synced => exact late (by rw [hk]; rfl)

/-- Everything was accepted when nothing is on its way. -/
theorem SyncOk.quiet {s : Sync} {all pre : List Event} (h : SyncOk s all pre) (q1 : s.task = .synced)
    (q2 : s.wire = []) (q3 : s.unnotified = []) {e : Event} (he : e ∈ s.disk) (hle : IdLt s.last e.id) :
    e ∈ accept s.last s.calls.flatten := by
  have hn : s.notes = [] := by
    have := h.queue.1 q1
    simp [Sync.notes, this, q2, q3, notified, Sync.relevant]
  have h1 := h.final (by rw [q1]; rfl) e he hle
  rw [hn, List.append_nil] at h1
  exact h1

/-- An increasing part of an increasing list is in the same order. -/
theorem increasing_sublist {a l : List Event} (hl : Increasing l) (ha : Increasing a) (hs : ∀ x ∈ a, x ∈ l) :
    a.Sublist l := by
  have irr : ∀ {x : Event}, ¬ IdLt x.id x.id := not_idLt.2 .refl
  induction l generalizing a with
  | nil =>
    have h0 : a = [] := List.eq_nil_iff_forall_not_mem.2 fun x hx => by simpa using hs x hx
    rw [h0]
    exact List.Sublist.refl _
  | cons y l ih =>
    have h1 := List.pairwise_cons.1 hl
    cases a with
    | nil => exact List.nil_sublist _
    | cons z a =>
      have h2 := List.pairwise_cons.1 ha
      by_cases hzy : z = y
      · subst hzy
        refine List.Sublist.cons₂ _ (ih h1.2 h2.2 ?_)
        intro x hx
        rcases List.mem_cons.1 (hs x (List.mem_cons_of_mem _ hx)) with h | h
        · subst h; exact absurd (h2.1 x hx) irr
        · exact h
      · have hz : z ∈ l := (List.mem_cons.1 (hs z List.mem_cons_self)).resolve_left hzy
        refine List.Sublist.cons _ (ih h1.2 ha ?_)
        intro x hx
        rcases List.mem_cons.1 hx with rfl | hx'
        · exact hz
        · rcases List.mem_cons.1 (hs x hx) with h | h
          · subst h; exact absurd ((h1.1 z hz).trans (h2.1 x hx')) irr
          · exact h

/-- Increasing lists of the same events are the same. -/
theorem increasing_ext {a l : List Event} (hl : Increasing l) (ha : Increasing a) (hs : ∀ x, x ∈ a ↔ x ∈ l) :
    a = l :=
  (increasing_sublist hl ha fun x hx => (hs x).1 hx).eq_of_length_le
    (increasing_sublist ha hl fun x hx => (hs x).2 hx).length_le

end HatEvent
