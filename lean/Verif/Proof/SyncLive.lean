import Verif.Proof.Sync

/-!
# A synchronisation goes on

Lemmas for C88: in a schedule that goes on, each stage of a synchronisation ends.
-/

namespace HatEvent
open Spec

/-- What holds until something happens happens: a measure is decreased again and again. -/
theorem leads_measure {P Q : Nat → Prop} {f : Nat → Nat} {trig : Nat → Prop}
    (h1 : ∀ n, P n → Q (n + 1) ∨ (P (n + 1) ∧ f (n + 1) ≤ f n))
    (h2 : ∀ n, P n → trig n → Q (n + 1) ∨ (P (n + 1) ∧ f (n + 1) < f n))
    (hf : ∀ n, ∃ m, n ≤ m ∧ trig m) {n : Nat} (hp : P n) : ∃ m, n < m ∧ Q m := by
  have key : ∀ k n, f n ≤ k → P n → ∃ m, n < m ∧ Q m := by
    intro k
    induction k using Nat.strong_induction_on with
    | _ k ih =>
      intro n hk hp
      obtain ⟨m, hm, ht⟩ := hf n
      have walk : ∀ j, (∃ m, n < m ∧ Q m) ∨ (P (n + j) ∧ f (n + j) ≤ f n) := by
        intro j
        induction j with
        | zero => exact .inr ⟨hp, Nat.le_refl _⟩
        | succ j ihj =>
          rcases ihj with h | ⟨h, h'⟩
          · exact .inl h
          · rcases h1 _ h with h3 | ⟨h3, h4⟩
            · exact .inl ⟨_, by omega, h3⟩
            · exact .inr ⟨h3, Nat.le_trans h4 h'⟩
      rcases walk (m - n) with h | ⟨h, h'⟩
      · exact h
      · rw [show n + (m - n) = m by omega] at h h'
        rcases h2 m h ht with h3 | ⟨h3, h4⟩
        · exact ⟨_, by omega, h3⟩
        · obtain ⟨m', h5, h6⟩ := ih (f (m + 1)) (by omega) (m + 1) (Nat.le_refl _) h3
          exact ⟨m', by omega, h6⟩
  exact key _ n (Nat.le_refl _) hp

/-- A measure that is decreased again and again becomes zero for good. -/
theorem descend {f : Nat → Nat} {trig : Nat → Prop} {N : Nat} (h1 : ∀ n, N ≤ n → f (n + 1) ≤ f n)
    (h2 : ∀ n, N ≤ n → trig n → f n ≠ 0 → f (n + 1) < f n) (hf : ∀ n, ∃ m, n ≤ m ∧ trig m) :
    ∃ m, N ≤ m ∧ ∀ k, m ≤ k → f k = 0 := by
  have hz : ∃ m, N ≤ m ∧ f m = 0 := by
    by_cases h0 : f N = 0
    · exact ⟨N, Nat.le_refl _, h0⟩
    obtain ⟨m, h3, h4, h5⟩ := leads_measure (P := fun n => N ≤ n ∧ f n ≠ 0) (Q := fun n => N ≤ n ∧ f n = 0) (f := f)
      (trig := trig)
      (by
        rintro n ⟨h3, h4⟩
        by_cases h5 : f (n + 1) = 0
        · exact .inl ⟨by omega, h5⟩
        · exact .inr ⟨⟨by omega, h5⟩, h1 n h3⟩)
      (by
        rintro n ⟨h3, h4⟩ ht
        by_cases h5 : f (n + 1) = 0
        · exact .inl ⟨by omega, h5⟩
        · exact .inr ⟨⟨by omega, h5⟩, h2 n h3 ht h4⟩) hf ⟨Nat.le_refl N, h0⟩
    exact ⟨m, h4, h5⟩
  obtain ⟨m, hm, hz⟩ := hz
  refine ⟨m, hm, fun k hk => ?_⟩
  induction k, hk using Nat.le_induction with
  | base => exact hz
  | succ k hk ih => have := h1 k (by omega); omega

/-! ### Messages -/

open Classical in
/-- Number of messages up to the last one that counts. -/
noncomputable def uptoLast (P : List Event → Prop) : List (List Event) → Nat
  | [] => 0
  | m :: l => if uptoLast P l = 0 then (if P m then 1 else 0) else uptoLast P l + 1

section
variable {P : List Event → Prop}

theorem uptoLast_zero {l : List (List Event)} : uptoLast P l = 0 ↔ ∀ m ∈ l, ¬ P m := by
  induction l with
  | nil => simp [uptoLast]
  | cons m l ih =>
    rw [uptoLast, List.forall_mem_cons]
    split
    · next h => rw [ih] at h; split <;> simp_all
    · next h => rw [ih] at h; simp_all

theorem uptoLast_tail (m : List Event) (l : List (List Event)) :
    uptoLast P l ≤ uptoLast P (m :: l) ∧ (uptoLast P (m :: l) ≠ 0 → uptoLast P l < uptoLast P (m :: l)) := by
  rw [uptoLast]
  split
  · next h => split <;> omega
  · omega

theorem uptoLast_append {l l' : List (List Event)} (h : ∀ m ∈ l', ¬ P m) : uptoLast P (l ++ l') = uptoLast P l := by
  induction l with
  | nil => rw [List.nil_append, uptoLast_zero.2 h]; rfl
  | cons m l ih => rw [List.cons_append, uptoLast, uptoLast, ih]

end

/-- Number of messages up to the last one with an event. -/
noncomputable def upto (e : Event) (l : List (List Event)) : Nat := uptoLast (fun m => e ∈ m) l

theorem upto_zero {e : Event} {l : List (List Event)} : upto e l = 0 ↔ e ∉ l.flatten := by
  unfold upto
  rw [uptoLast_zero, List.mem_flatten]
  simp

theorem upto_tail (e : Event) (m : List Event) (l : List (List Event)) :
    upto e l ≤ upto e (m :: l) ∧ (upto e (m :: l) ≠ 0 → upto e l < upto e (m :: l)) := uptoLast_tail m l

theorem upto_append {e : Event} {l l' : List (List Event)} (h : e ∉ l'.flatten) : upto e (l ++ l') = upto e l :=
  uptoLast_append fun m hm he => h (List.mem_flatten.2 ⟨m, hm, he⟩)

/-- The events of the messages. -/
def wireLists (w : List SyncMsg) : List (List Event) :=
  w.map fun m => match m with
    | .notify es => es
    | .response _ _ => []

theorem wireLists_flatten (w : List SyncMsg) : (wireLists w).flatten = notified w := by
  induction w with
  | nil => rfl
  | cons m w ih => cases m <;> simp_all [wireLists, notified]

/-- Messages before the first answer. -/
def ahead : List SyncMsg → Nat
  | [] => 0
  | .notify _ :: w => ahead w + 1
  | .response _ _ :: _ => 0

theorem ahead_append {w w' : List SyncMsg} (h : responses w ≠ []) : ahead (w ++ w') = ahead w := by
  induction w with
  | nil => simp [responses] at h
  | cons m w ih =>
    cases m with
    | notify es => simp only [List.cons_append, ahead]; rw [ih (by simpa [responses] using h)]
    | response es more => rfl

/-! ### Schedules -/

/-- A synchronisation that goes on. -/
structure GoesOn (s : Nat → Sync) (all : Nat → List Event) (acts : Nat → SyncAct) : Prop where
  step : ∀ n, s (n + 1) = (s n).step (acts n)
  ok : ∀ n, ∃ pre, SyncOk (s n) (all n) pre
  more : ∀ n, all (n + 1) = all n ++ flushed (s 0).remoteId [acts n]
  owner : ∀ n, ∀ x ∈ all n, x.id.server = (s 0).remoteId
  isOpen : ∀ n, (s n).closed = false
  connected : ∀ n, (s n).connected = true
  size : ∀ n k, acts n = .serve k → 0 < k
  notify : ∀ n, ∃ m, n ≤ m ∧ acts m = .notify
  serve : ∀ n, ∃ m, n ≤ m ∧ ∃ k, acts m = .serve k
  deliver : ∀ n, ∃ m, n ≤ m ∧ acts m = .deliver
  advance : ∀ n, ∃ m, n ≤ m ∧ acts m = .advance

/-- An event that is not received yet stays stored, and no more events of its session are flushed. -/
structure Awaits (s : Nat → Sync) (all : Nat → List Event) (acts : Nat → SyncAct) (e : Event) : Prop
    extends GoesOn s all acts where
  stays : ∀ n, e ∈ (s n).disk
  last : IdLt (s 0).last e.id
  whole : ∀ n, ∀ x ∈ flushed (s 0).remoteId [acts n], x.id.session ≠ e.id.session

section
variable {s : Nat → Sync} {all : Nat → List Event} {acts : Nat → SyncAct} {e : Event}

theorem GoesOn.same (h : GoesOn s all acts) (n : Nat) : (s n).remoteId = (s 0).remoteId ∧ (s n).last = (s 0).last := by
  induction n with
  | zero => exact ⟨rfl, rfl⟩
  | succ n ih =>
    rw [h.step]
    obtain ⟨h1, _, h3⟩ := sync_same (s n) (acts n)
    exact ⟨h1.trans ih.1, h3.trans ih.2⟩

theorem Awaits.known (h : Awaits s all acts e) (n : Nat) : e ∈ all n := by
  obtain ⟨pre, hp⟩ := h.ok n
  exact (List.mem_filter.1 (hp.disk.subset (h.stays n))).1

/-- The event is not flushed again. -/
theorem Awaits.fresh (h : Awaits s all acts e) (n : Nat) : ∀ x ∈ flushed (s 0).remoteId [acts n], IdLt e.id x.id := by
  intro x hx
  obtain ⟨pre, hp⟩ := h.ok (n + 1)
  have hs := hp.sorted
  rw [h.more] at hs
  exact (List.pairwise_append.1 hs).2.2 e (h.known n) x hx

theorem Awaits.later (h : Awaits s all acts e) (n : Nat) : ∀ x ∈ all n, x ∈ all 0 ∨ e.id.session < x.id.session := by
  induction n with
  | zero => exact fun x hx => .inl hx
  | succ n ih =>
    intro x hx
    have ho := h.owner _ x hx
    rw [h.more] at hx
    rcases List.mem_append.1 hx with hx | hx
    · exact ih x hx
    · refine .inr ?_
      have h1 := h.fresh n x hx
      have h2 := h.whole n x hx
      have h3 := h.owner n e (h.known n)
      unfold IdLt at h1
      omega

theorem Awaits.unflushed (h : Awaits s all acts e) (n : Nat) {r : List (List Event)} (ha : acts n = .flush r) :
    e ∉ (s n).relevant r.flatten := by
  intro he
  have hf : flushed (s 0).remoteId [acts n] = (s n).relevant r.flatten := by
    rw [ha, ← (h.same n).1]
    simp [flushed, Sync.relevant]
  exact not_idLt.2 .refl (h.fresh n e (by rw [hf]; exact he))

/-! ### After the questions -/

theorem late_step (s : Sync) (a : SyncAct) (h : s.task.late = true) : (s.step a).task.late = true := by
  cases a with
  | flush r => exact h
  | remove g => exact h
  | connect => exact h
  | notify => rw [show (s.step .notify) = s.sendNotify from rfl, (sendNotify_same s).2.2.2.2.2.1]; exact h
  | serve n => simp only [Sync.step, Sync.serve]; split <;> [exact h; (split <;> exact h)]
  | deliver =>
    simp only [Sync.step]
    split
    · exact h
    · split
      · exact h
      · next m w _ =>
        cases m with
        | notify es => simp only [Sync.receive]; split <;> exact h
        | response es more =>
          simp only [Sync.receive]
          split
          · next ht => rw [show s.task = _ from ht] at h; cases h
          · exact h
  | advance =>
    simp only [Sync.step]
    split
    · exact h
    · unfold Sync.advance
      cases ht : s.task with
      | starting => rw [ht] at h; cases h
      | asking a b => rw [ht] at h; cases h
      | answered a b c d => rw [ht] at h; cases h
      | storing a b c => rw [ht] at h; cases h
      | synced => simp only; rw [ht]; rfl
      | draining l =>
        simp only [Sync.drain]
        split
        · exact h
        · rfl
        · split <;> exact h
  | close => exact h

theorem GoesOn.late (h : GoesOn s all acts) {N : Nat} (hl : (s N).task.late = true) :
    ∀ n, N ≤ n → (s n).task.late = true := by
  intro n hn
  induction n, hn using Nat.le_induction with
  | base => exact hl
  | succ n hn ih => rw [h.step]; exact late_step _ _ ih

/-- What an action does to the notifications that are not sent. -/
theorem unnotified_step (s : Sync) (a : SyncAct) :
    (∃ r, a = .flush r ∧ (s.step a).unnotified = s.unnotified ++ r) ∨
      (a = .notify ∧ (s.step a).unnotified = s.unnotified.tail) ∨ (a ≠ .notify ∧ (s.step a).unnotified = s.unnotified) := by
  cases a with
  | flush r => exact .inl ⟨r, rfl, rfl⟩
  | remove g => exact .inr (.inr ⟨by simp, rfl⟩)
  | connect => exact .inr (.inr ⟨by simp, rfl⟩)
  | notify =>
    refine .inr (.inl ⟨rfl, ?_⟩)
    show s.sendNotify.unnotified = _
    unfold Sync.sendNotify
    cases hu : s.unnotified with
    | nil => simp [hu]
    | cons m l => simp only; split <;> rfl
  | serve n =>
    refine .inr (.inr ⟨by simp, ?_⟩)
    simp only [Sync.step, Sync.serve]; split <;> [rfl; (split <;> rfl)]
  | deliver =>
    refine .inr (.inr ⟨by simp, ?_⟩)
    simp only [Sync.step]
    split
    · rfl
    · split
      · rfl
      · next m w _ => cases m <;> simp only [Sync.receive] <;> split <;> rfl
  | advance =>
    refine .inr (.inr ⟨by simp, ?_⟩)
    simp only [Sync.step]
    split
    · rfl
    · unfold Sync.advance
      split
      · rfl
      · rfl
      · rfl
      · unfold Sync.store; split <;> [(split <;> rfl); (split <;> [rfl; (split <;> rfl)])]
      · unfold Sync.drain; split <;> [rfl; rfl; (simp only; split <;> rfl)]
      · rfl
  | close => exact .inr (.inr ⟨by simp, rfl⟩)

/-- What an action does to the messages. -/
theorem wire_step (s : Sync) (a : SyncAct) (hc : s.closed = false) :
    (a = .notify ∧ ((s.step a).wire = s.wire ∨
      ∃ es, es ∈ s.unnotified ∧ (s.step a).wire = s.wire ++ [.notify (s.relevant es)])) ∨
      (∃ k, a = .serve k ∧ ((s.step a).wire = s.wire ∨ ∃ es more, (s.step a).wire = s.wire ++ [.response es more])) ∨
      (a = .deliver ∧ (s.step a).wire = s.wire.tail) ∨
      (a ≠ .deliver ∧ (s.step a).wire = s.wire) := by
  cases a with
  | flush r => exact .inr (.inr (.inr ⟨by simp, rfl⟩))
  | remove g => exact .inr (.inr (.inr ⟨by simp, rfl⟩))
  | connect => exact .inr (.inr (.inr ⟨by simp, rfl⟩))
  | notify =>
    refine .inl ⟨rfl, ?_⟩
    show s.sendNotify.wire = _ ∨ ∃ es, _ ∧ s.sendNotify.wire = _
    unfold Sync.sendNotify
    cases hu : s.unnotified with
    | nil => exact .inl rfl
    | cons m l => simp only; split <;> [exact .inr ⟨m, List.mem_cons_self, rfl⟩; exact .inl rfl]
  | serve n =>
    refine .inr (.inl ⟨n, rfl, ?_⟩)
    simp only [Sync.step, Sync.serve]; split <;> [exact .inl rfl; (split <;> [exact .inl rfl; exact .inr ⟨_, _, rfl⟩])]
  | deliver =>
    refine .inr (.inr (.inl ⟨rfl, ?_⟩))
    simp only [Sync.step, hc, Bool.false_eq_true, if_false]
    split
    · next hw => rw [hw]; rfl
    · next m w hw => rw [hw]; cases m <;> simp only [Sync.receive] <;> split <;> rfl
  | advance =>
    refine .inr (.inr (.inr ⟨by simp, ?_⟩))
    simp only [Sync.step]
    split
    · rfl
    · unfold Sync.advance
      split
      · rfl
      · rfl
      · rfl
      · unfold Sync.store; split <;> [(split <;> rfl); (split <;> [rfl; (split <;> rfl)])]
      · unfold Sync.drain; split <;> [rfl; rfl; (simp only; split <;> rfl)]
      · rfl
  | close => exact .inr (.inr (.inr ⟨by simp, rfl⟩))

/-- What an action does to the cached notifications. -/
theorem queue_step (s : Sync) (a : SyncAct) :
    (a = .deliver ∧ ((s.step a).queue = s.queue ∨
      ∃ es q, es ∈ wireLists s.wire ∧ s.queue = some q ∧ (s.step a).queue = some (q ++ [es]))) ∨
      (a = .advance ∧ ((s.step a).queue = s.queue ∨ (s.queue = some [] ∧ (s.step a).queue = none) ∨
        ∃ es q, s.queue = some (es :: q) ∧ (s.step a).queue = some q)) ∨
      (a ≠ .advance ∧ (s.step a).queue = s.queue) := by
  cases a with
  | flush r => exact .inr (.inr ⟨by simp, rfl⟩)
  | remove g => exact .inr (.inr ⟨by simp, rfl⟩)
  | connect => exact .inr (.inr ⟨by simp, rfl⟩)
  | notify => exact .inr (.inr ⟨by simp, (sendNotify_same s).2.2.2.2.2.2.1⟩)
  | serve n =>
    refine .inr (.inr ⟨by simp, ?_⟩)
    simp only [Sync.step, Sync.serve]; split <;> [rfl; (split <;> rfl)]
  | deliver =>
    refine .inl ⟨rfl, ?_⟩
    simp only [Sync.step]
    split
    · exact .inl rfl
    · split
      · exact .inl rfl
      · next m w hw =>
        cases m with
        | notify es =>
          simp only [Sync.receive]
          split
          · next q hq => exact .inr ⟨es, q, by simp [wireLists, hw], hq, rfl⟩
          · exact .inl rfl
        | response es more => simp only [Sync.receive]; split <;> exact .inl rfl
  | advance =>
    refine .inr (.inl ⟨rfl, ?_⟩)
    simp only [Sync.step]
    split
    · exact .inl rfl
    · unfold Sync.advance
      split
      · exact .inl rfl
      · exact .inl rfl
      · exact .inl rfl
      · unfold Sync.store
        split <;> [(split <;> exact .inl rfl); (split <;> [exact .inl rfl; (split <;> exact .inl rfl)])]
      · unfold Sync.drain
        split
        · exact .inl rfl
        · next hq => exact .inr (.inl ⟨hq, rfl⟩)
        · next es q hq => simp only; split <;> exact .inr (.inr ⟨es, q, hq, rfl⟩)
      · exact .inl rfl
  | close => exact .inr (.inr ⟨by simp, rfl⟩)

theorem drain_queue {s : Sync} {l : EventId} {es : List Event} {q : List (List Event)} (hc : s.closed = false)
    (hco : s.connected = true) (ht : s.task = .draining l) (hq : s.queue = some (es :: q)) :
    (s.step .advance).queue = some q := by
  simp only [Sync.step, hc, hco, Bool.not_true, Bool.or_self, Bool.false_eq_true, if_false, Sync.advance, ht, Sync.drain,
    hq]
  split <;> rfl

theorem mem_relevant {s : Sync} {l : List Event} {x : Event} : x ∈ s.relevant l ↔ x ∈ l ∧ x.id.server = s.remoteId := by
  simp [Sync.relevant]

theorem relevant_flatten (s : Sync) (l : List (List Event)) :
    (l.map s.relevant).flatten = s.relevant l.flatten := by
  induction l with
  | nil => rfl
  | cons m l ih => simp_all [Sync.relevant]

/-- After the questions, the event is received. -/
theorem Awaits.late_got (h : Awaits s all acts e) {N : Nat} (hl : (s N).task.late = true) :
    ∃ m, e ∈ accept (s 0).last (s m).calls.flatten := by
  have hlate := h.late hl
  obtain ⟨n1, h1, hz1⟩ := descend (f := fun n => upto e ((s n).unnotified.map (s 0).relevant)) (N := N)
    (trig := fun n => acts n = .notify)
    (by
      intro n _
      show upto e ((s (n + 1)).unnotified.map _) ≤ _
      rw [h.step]
      rcases unnotified_step (s n) (acts n) with ⟨r, h1, h2⟩ | ⟨h1, h2⟩ | ⟨h1, h2⟩
      · rw [h2, List.map_append, upto_append]
        rw [relevant_flatten]
        have := h.unflushed n h1
        rw [mem_relevant] at this ⊢
        rw [(h.same n).1] at this
        exact this
      · rw [h2]
        cases (s n).unnotified with
        | nil => exact Nat.le_refl _
        | cons m l => exact (upto_tail e _ _).1
      · rw [h2])
    (by
      intro n _ ht hne
      show upto e ((s (n + 1)).unnotified.map _) < upto e ((s n).unnotified.map _)
      rw [h.step]
      rcases unnotified_step (s n) (acts n) with ⟨r, h1, h2⟩ | ⟨h1, h2⟩ | ⟨h1, h2⟩
      · rw [ht] at h1; cases h1
      · rw [h2]
        cases hu : (s n).unnotified with
        | nil => rw [hu] at hne; exact absurd rfl hne
        | cons m l => rw [hu] at hne; exact (upto_tail e _ _).2 hne
      · exact absurd ht h1) h.notify
  have hun : ∀ n, n1 ≤ n → ∀ es ∈ (s n).unnotified, e ∉ (s n).relevant es := by
    intro n hn es hes he
    have := upto_zero.1 (hz1 n hn)
    apply this
    refine List.mem_flatten.2 ⟨_, List.mem_map_of_mem hes, ?_⟩
    rw [mem_relevant] at he ⊢
    rw [← (h.same n).1]
    exact he
  obtain ⟨n2, h2, hz2⟩ := descend (f := fun n => upto e (wireLists (s n).wire)) (N := n1)
    (trig := fun n => acts n = .deliver)
    (by
      intro n hn
      show upto e (wireLists (s (n + 1)).wire) ≤ _
      rw [h.step]
      rcases wire_step (s n) (acts n) (h.isOpen n) with ⟨_, h2 | ⟨es, h2, h3⟩⟩ | ⟨k, _, h2 | ⟨es, more, h2⟩⟩ | ⟨_, h2⟩ |
        ⟨_, h2⟩
      · rw [h2]
      · rw [h3, wireLists, List.map_append]
        refine Nat.le_of_eq (upto_append ?_)
        simpa using hun n hn es h2
      · rw [h2]
      · rw [h2, wireLists, List.map_append]
        exact Nat.le_of_eq (upto_append (by simp))
      · rw [h2]
        cases (s n).wire with
        | nil => exact Nat.le_refl _
        | cons m w => exact (upto_tail e _ _).1
      · rw [h2])
    (by
      intro n _ ht hne
      show upto e (wireLists (s (n + 1)).wire) < upto e (wireLists (s n).wire)
      rw [h.step]
      rcases wire_step (s n) (acts n) (h.isOpen n) with ⟨h1, _⟩ | ⟨k, h1, _⟩ | ⟨_, h2⟩ | ⟨h1, _⟩
      · rw [ht] at h1; cases h1
      · rw [ht] at h1; cases h1
      · rw [h2]
        cases hw : (s n).wire with
        | nil => rw [hw] at hne; exact absurd rfl hne
        | cons m w => rw [hw] at hne; exact (upto_tail e _ _).2 hne
      · exact absurd ht h1) h.deliver
  have hwi : ∀ n, n2 ≤ n → ∀ es ∈ wireLists (s n).wire, e ∉ es := by
    intro n hn es hes he
    exact upto_zero.1 (hz2 n hn) (List.mem_flatten.2 ⟨es, hes, he⟩)
  obtain ⟨n3, h3, hz3⟩ := descend (f := fun n => upto e ((s n).queue.getD [])) (N := n2)
    (trig := fun n => acts n = .advance)
    (by
      intro n hn
      show upto e ((s (n + 1)).queue.getD []) ≤ _
      rw [h.step]
      rcases queue_step (s n) (acts n) with ⟨_, h2 | ⟨es, q, h2, h3, h4⟩⟩ | ⟨_, h2 | ⟨h2, h3⟩ | ⟨es, q, h2, h3⟩⟩ | ⟨_, h2⟩
      · rw [h2]
      · rw [h3, h4]
        refine Nat.le_of_eq (upto_append ?_)
        simpa using hwi n hn es h2
      · rw [h2]
      · rw [h2, h3]; exact Nat.le_refl _
      · rw [h2, h3]; exact (upto_tail e _ _).1
      · rw [h2])
    (by
      intro n hn ht hne
      show upto e ((s (n + 1)).queue.getD []) < upto e ((s n).queue.getD [])
      obtain ⟨pre, hp⟩ := h.ok n
      have hl := hlate n (by omega)
      rw [h.step, ht]
      change upto e ((s n).queue.getD []) ≠ 0 at hne
      cases hq : (s n).queue with
      | none => rw [hq] at hne; exact absurd rfl hne
      | some q =>
        cases q with
        | nil => rw [hq] at hne; exact absurd rfl hne
        | cons es q =>
          rw [hq] at hne
          cases hk : (s n).task with
          | starting => rw [hk] at hl; cases hl
          | asking a b => rw [hk] at hl; cases hl
          | answered a b c d => rw [hk] at hl; cases hl
          | storing a b c => rw [hk] at hl; cases hl
          | synced => rw [hp.queue.1 hk] at hq; cases hq
          | draining l =>
            rw [drain_queue (h.isOpen n) (h.connected n) hk hq]
            exact (upto_tail e _ _).2 hne) h.advance
  refine ⟨n3, ?_⟩
  obtain ⟨pre, hp⟩ := h.ok n3
  have hf := hp.final (hlate n3 (by omega)) e (h.stays n3) (by rw [(h.same n3).2]; exact h.last)
  rw [accept_append, (h.same n3).2] at hf
  rcases List.mem_append.1 hf with hf | hf
  · exact hf
  · exfalso
    have hn := (accept_sub _ _ e hf).1
    unfold Sync.notes at hn
    rcases List.mem_append.1 hn with hn | hn
    · rcases List.mem_append.1 hn with hn | hn
      · exact upto_zero.1 (hz3 n3 (Nat.le_refl _)) hn
      · rw [← wireLists_flatten] at hn
        exact upto_zero.1 (hz2 n3 (by omega)) hn
    · have := upto_zero.1 (hz1 n3 (by omega))
      rw [relevant_flatten, mem_relevant] at this
      rw [mem_relevant, (h.same n3).1] at hn
      exact this hn

/-! ### The questions -/

/-- All events are of one session. -/
def OneSession (l : List Event) : Prop := ∀ x ∈ l, ∀ y ∈ l, x.id.session = y.id.session

/-- A question is to be answered; `g` are the events received so far.  If `one` is set, those that are not registered are
of one session. -/
def Asks₀ (s : Sync) (g : List Event) (one : Bool) : Prop :=
  ∃ last ev, s.task = .asking last ev ∧ s.request = some last ∧ responses s.wire = [] ∧ s.calls.flatten ++ ev = g ∧
    (one = true → OneSession ev)

/-- An answer is on its way. -/
def Asks₁ (s : Sync) (g es : List Event) (more : Bool) : Prop :=
  ∃ last ev, s.task = .asking last ev ∧ s.request = none ∧ responses s.wire = [(es, more)] ∧
    s.calls.flatten ++ ev = g

/-- The answer is received. -/
def Asks₂ (s : Sync) (g es : List Event) (more : Bool) : Prop :=
  ∃ last ev, s.task = .answered last ev es more ∧ s.request = none ∧ responses s.wire = [] ∧
    s.calls.flatten ++ ev = g

/-- The events received are registered. -/
def Asks₃ (s : Sync) (g : List Event) (more : Bool) : Prop :=
  ∃ last ev, s.task = .storing last ev more ∧ s.request = none ∧ responses s.wire = [] ∧ s.calls.flatten ++ ev = g

/-- Everything that concerns the questions is unchanged. -/
structure SameTask (s s' : Sync) : Prop where
  task : s'.task = s.task
  request : s'.request = s.request
  calls : s'.calls = s.calls
  wire : responses s'.wire = responses s.wire
  ahead : ahead s'.wire = HatEvent.ahead s.wire ∨ responses s.wire = []

/-- Actions that do not concern the questions. -/
theorem sameTask_step (s : Sync) (a : SyncAct) (h1 : a ≠ .advance) (h2 : a ≠ .deliver)
    (h3 : s.request = none ∨ ∀ k, a ≠ .serve k) : SameTask s (s.step a) := by
  cases a with
  | flush r => exact ⟨rfl, rfl, rfl, rfl, .inl rfl⟩
  | remove g => exact ⟨rfl, rfl, rfl, rfl, .inl rfl⟩
  | connect => exact ⟨rfl, rfl, rfl, rfl, .inl rfl⟩
  | close => exact ⟨rfl, rfl, rfl, rfl, .inl rfl⟩
  | advance => exact absurd rfl h1
  | deliver => exact absurd rfl h2
  | serve n =>
    have h4 : s.request = none := h3.resolve_right fun h => h n rfl
    have : s.step (.serve n) = s := by
      simp only [Sync.step, Sync.serve, h4]; split <;> rfl
    rw [this]
    exact ⟨rfl, rfl, rfl, rfl, .inl rfl⟩
  | notify =>
    obtain ⟨_, _, _, e4, e5, e6, _⟩ := sendNotify_same s
    have hw : s.sendNotify.wire = s.wire ∨ ∃ es, s.sendNotify.wire = s.wire ++ [.notify es] := by
      unfold Sync.sendNotify
      cases hu : s.unnotified with
      | nil => exact .inl rfl
      | cons m l => simp only; split <;> [exact .inr ⟨_, rfl⟩; exact .inl rfl]
    refine ⟨e6, e5, e4, ?_, ?_⟩
    · show responses s.sendNotify.wire = _
      rcases hw with h | ⟨es, h⟩
      · rw [h]
      · rw [h, responses_append]; simp [responses]
    · show HatEvent.ahead s.sendNotify.wire = _ ∨ _
      rcases hw with h | ⟨es, h⟩
      · exact .inl (by rw [h])
      · by_cases hr : responses s.wire = []
        · exact .inr hr
        · exact .inl (by rw [h, ahead_append hr])

/-- A message is received while questions are asked. -/
theorem deliver_step {s : Sync} (hc : s.closed = false) (hq : s.queue ≠ none) :
    (s.wire = [] ∧ s.step .deliver = s) ∨
      (∃ es w, s.wire = .notify es :: w ∧ (s.step .deliver).task = s.task ∧ (s.step .deliver).request = s.request ∧
        (s.step .deliver).calls = s.calls ∧ (s.step .deliver).wire = w) ∨
      (∃ es more w, s.wire = .response es more :: w ∧ (s.step .deliver).request = s.request ∧
        (s.step .deliver).calls = s.calls ∧ (s.step .deliver).wire = w ∧
        ∀ last ev, s.task = .asking last ev → (s.step .deliver).task = .answered last ev es more) := by
  simp only [Sync.step, hc, Bool.false_eq_true, if_false]
  cases hw : s.wire with
  | nil => exact .inl ⟨rfl, rfl⟩
  | cons m w =>
    cases m with
    | notify es =>
      refine .inr (.inl ⟨es, w, rfl, ?_⟩)
      simp only [Sync.receive]
      split
      · exact ⟨rfl, rfl, rfl, rfl⟩
      · next h => exact absurd h hq
    | response es more =>
      refine .inr (.inr ⟨es, more, w, rfl, ?_⟩)
      simp only [Sync.receive]
      refine ⟨?_, ?_, ?_, fun last ev ht => ?_⟩
      · split <;> rfl
      · split <;> rfl
      · split <;> rfl
      · rw [ht]

theorem GoesOn.queue (h : GoesOn s all acts) {n : Nat} (ht : (s n).task ≠ .synced) : (s n).queue ≠ none := by
  obtain ⟨pre, hp⟩ := h.ok n
  exact fun hq => ht (hp.queue.2 hq)

/-- An action that does not concern questions without an answer on the way, except progress and answers. -/
theorem GoesOn.still (h : GoesOn s all acts) {n : Nat} (ht : (s n).task.late = false) (hr : responses (s n).wire = [])
    (ha : acts n ≠ .advance) (hs : (s n).request = none ∨ ∀ k, acts n ≠ .serve k) : (s (n + 1)).task = (s n).task ∧
      (s (n + 1)).request = (s n).request ∧ (s (n + 1)).calls = (s n).calls ∧ responses (s (n + 1)).wire = [] := by
  rw [h.step]
  by_cases hd : acts n = .deliver
  · rw [hd]
    have hq := h.queue (n := n) (by intro hk; rw [hk] at ht; cases ht)
    rcases deliver_step (h.isOpen n) hq with ⟨_, h2⟩ | ⟨es, w, h1, h2, h3, h4, h5⟩ | ⟨es, more, w, h1, _⟩
    · rw [h2]; exact ⟨rfl, rfl, rfl, hr⟩
    · refine ⟨h2, h3, h4, ?_⟩
      rw [h5]
      rw [h1] at hr
      exact hr
    · rw [h1] at hr; simp [responses] at hr
  · have := sameTask_step (s n) (acts n) ha hd hs
    exact ⟨this.task, this.request, this.calls, this.wire.trans hr⟩

/-- A question is answered. -/
theorem GoesOn.answers (h : GoesOn s all acts) {n : Nat} {g : List Event} {one : Bool} (hp : Asks₀ (s n) g one) :
    ∃ m, n < m ∧ ∃ es more, Asks₁ (s m) g es more ∧ (more = true → es ≠ []) := by
  refine leads_measure (P := fun n => Asks₀ (s n) g one) (f := fun _ => 0) (trig := fun n => ∃ k, acts n = .serve k) ?_ ?_
    h.serve hp
  · rintro n ⟨last, ev, h1, h2, h3, h4, h5⟩
    by_cases hs : ∃ k, acts n = .serve k
    swap
    · refine .inr ⟨?_, Nat.le_refl _⟩
      have h1' : (s n).task.late = false := by rw [h1]; rfl
      by_cases ha : acts n = .advance
      · have : s (n + 1) = s n := by
          rw [h.step, ha]
          simp only [Sync.step, Sync.advance, h1]; split <;> rfl
        rw [this]; exact ⟨last, ev, h1, h2, h3, h4, h5⟩
      · obtain ⟨e1, e2, e3, e4⟩ := h.still h1' h3 ha (.inr fun k hk => hs ⟨k, hk⟩)
        exact ⟨last, ev, e1.trans h1, e2.trans h2, e4, by rw [e3]; exact h4, h5⟩
    · obtain ⟨k, hk⟩ := hs
      left
      refine ⟨((s n).disk.filter fun x => last.lt x.id).take k,
        decide (k < ((s n).disk.filter fun x => last.lt x.id).length), ?_, ?_⟩
      · rw [h.step, hk]
        simp only [Sync.step, h.isOpen n, Bool.false_eq_true, if_false, Sync.serve, h2]
        refine ⟨last, ev, h1, rfl, ?_, h4⟩
        simp only
        rw [responses_append, h3]
        rfl
      · intro hm hnil
        have hpos := h.size n k hk
        have hlen := congrArg List.length hnil
        rw [List.length_take] at hlen
        have := of_decide_eq_true hm
        simp only [List.length_nil] at hlen
        omega
  · rintro n ⟨last, ev, h1, h2, h3, h4, h5⟩ ⟨k, hk⟩
    left
    refine ⟨((s n).disk.filter fun x => last.lt x.id).take k,
      decide (k < ((s n).disk.filter fun x => last.lt x.id).length), ?_, ?_⟩
    · rw [h.step, hk]
      simp only [Sync.step, h.isOpen n, Bool.false_eq_true, if_false, Sync.serve, h2]
      refine ⟨last, ev, h1, rfl, ?_, h4⟩
      simp only
      rw [responses_append, h3]
      rfl
    · intro hm hnil
      have hpos := h.size n k hk
      have hlen := congrArg List.length hnil
      rw [List.length_take] at hlen
      have := of_decide_eq_true hm
      simp only [List.length_nil] at hlen
      omega

/-- An answer is received. -/
theorem GoesOn.receives (h : GoesOn s all acts) {n : Nat} {g es : List Event} {more : Bool}
    (hp : Asks₁ (s n) g es more) : ∃ m, n < m ∧ Asks₂ (s m) g es more := by
  have key : ∀ n, Asks₁ (s n) g es more → Asks₂ (s (n + 1)) g es more ∨
      (Asks₁ (s (n + 1)) g es more ∧ ahead (s (n + 1)).wire ≤ ahead (s n).wire ∧
        (acts n = .deliver → ahead (s (n + 1)).wire < ahead (s n).wire)) := by
    rintro n ⟨last, ev, h1, h2, h3, h4⟩
    rw [h.step]
    by_cases hd : acts n = .deliver
    · rw [hd]
      have hq := h.queue (n := n) (by rw [h1]; simp)
      rcases deliver_step (h.isOpen n) hq with ⟨h5, _⟩ | ⟨es', w, h5, h6, h7, h8, h9⟩ | ⟨es', more', w, h5, h6, h7, h8, h9⟩
      · rw [h5] at h3; simp [responses] at h3
      · right
        refine ⟨⟨last, ev, h6.trans h1, h7.trans h2, ?_, by rw [h8]; exact h4⟩, ?_, fun _ => ?_⟩
        · rw [h9]; rw [h5] at h3; exact h3
        · rw [h9, h5]; simp [HatEvent.ahead]
        · rw [h9, h5]; simp [HatEvent.ahead]
      · left
        rw [h5] at h3
        simp only [responses, List.cons.injEq, Prod.mk.injEq] at h3
        obtain ⟨⟨rfl, rfl⟩, h3⟩ := h3
        exact ⟨last, ev, h9 last ev h1, h6.trans h2, by rw [h8]; exact h3, by rw [h7]; exact h4⟩
    · right
      by_cases ha : acts n = .advance
      · have : (s n).step (acts n) = s n := by
          rw [ha]
          simp only [Sync.step, Sync.advance, h1]; split <;> rfl
        rw [this]
        exact ⟨⟨last, ev, h1, h2, h3, h4⟩, Nat.le_refl _, fun hh => absurd hh hd⟩
      · have st := sameTask_step (s n) (acts n) ha hd (.inl h2)
        refine ⟨⟨last, ev, st.task.trans h1, st.request.trans h2, st.wire.trans h3, by rw [st.calls]; exact h4⟩, ?_,
          fun hh => absurd hh hd⟩
        rcases st.ahead with h5 | h5
        · rw [h5]
        · rw [h5] at h3; cases h3
  refine leads_measure (P := fun n => Asks₁ (s n) g es more) (f := fun n => ahead (s n).wire)
    (trig := fun n => acts n = .deliver) ?_ ?_ h.deliver hp
  · intro n hn
    rcases key n hn with h1 | ⟨h1, h2, _⟩
    · exact .inl h1
    · exact .inr ⟨h1, h2⟩
  · intro n hn ht
    rcases key n hn with h1 | ⟨h1, _, h3⟩
    · exact .inl h1
    · exact .inr ⟨h1, h3 ht⟩

/-- The events of an answer are looked at. -/
theorem GoesOn.looks (h : GoesOn s all acts) {n : Nat} {g es : List Event} {more : Bool}
    (hp : Asks₂ (s n) g es more) : ∃ m, n < m ∧ Asks₃ (s m) (g ++ es) more := by
  have key : ∀ n, Asks₂ (s n) g es more → acts n = .advance → Asks₃ (s (n + 1)) (g ++ es) more := by
    rintro n ⟨last, ev, h1, h2, h3, h4⟩ ha
    rw [h.step, ha]
    simp only [Sync.step, h.isOpen n, h.connected n, Bool.not_true, Bool.or_self, Bool.false_eq_true, if_false,
      Sync.advance, h1]
    exact ⟨_, ev ++ es, rfl, h2, h3, by rw [← List.append_assoc, h4]⟩
  refine leads_measure (P := fun n => Asks₂ (s n) g es more) (f := fun _ => 0)
    (trig := fun n => acts n = .advance) ?_ ?_ h.advance hp
  · intro n hn
    by_cases ha : acts n = .advance
    · exact .inl (key n hn ha)
    · obtain ⟨last, ev, h1, h2, h3, h4⟩ := hn
      obtain ⟨e1, e2, e3, e4⟩ := h.still (by rw [h1]; rfl) h3 ha (.inl h2)
      exact .inr ⟨⟨last, ev, e1.trans h1, e2.trans h2, e4, by rw [e3]; exact h4⟩, Nat.le_refl _⟩
  · intro n hn ha
    exact .inl (key n hn ha)

/-- Sessions do not decrease. -/
theorem sessions_le {server : Int} {l : List Event} (hs : Increasing l) (ho : ∀ x ∈ l, x.id.server = server)
    {x : Event} {l' : List Event} (h : l = x :: l') (hl : l.getLast?.map (fun y => y.id.session) = some x.id.session) :
    OneSession l := by
  have hone : ∀ y ∈ l, y.id.session = x.id.session := by
    intro y hy
    obtain ⟨z, hz, hzs⟩ := Option.map_eq_some_iff.1 hl
    have hzm := List.mem_of_getLast? hz
    have h1 : IdLe x.id y.id := by
      subst h
      rcases List.mem_cons.1 hy with rfl | hy
      · exact .inr rfl
      · exact .inl ((List.pairwise_cons.1 hs).1 y hy)
    have h2 : IdLe y.id z.id := by
      obtain ⟨i, hi⟩ := List.getLast?_eq_some_iff.1 hz
      subst hi
      rcases List.mem_append.1 hy with hy | hy
      · exact .inl ((List.pairwise_append.1 hs).2.2 y hy z (by simp))
      · rw [List.mem_singleton.1 hy]; exact .inr rfl
    have o1 := ho x (by rw [h]; simp)
    have o2 := ho y hy
    have o3 := ho z hzm
    have k1 : x.id.session ≤ y.id.session := by
      rcases h1 with h1 | h1
      · unfold IdLt at h1; omega
      · rw [h1]
    have k2 : y.id.session ≤ z.id.session := by
      rcases h2 with h2 | h2
      · unfold IdLt at h2; omega
      · rw [h2]
    omega
  intro a ha b hb
  rw [hone a ha, hone b hb]

theorem takeWhile_ne_nil {x : Event} {l : List Event} :
    (x :: l).dropWhile (fun y => y.id.session = x.id.session) = l.dropWhile (fun y => y.id.session = x.id.session) := by
  simp

/-- The events received are registered, but for those of the last session if there are more. -/
theorem GoesOn.stores (h : GoesOn s all acts) {n : Nat} {g : List Event} {more : Bool} (hp : Asks₃ (s n) g more) :
    ∃ m, n < m ∧ ((s m).task.late = true ∨ (more = true ∧ Asks₀ (s m) g true)) := by
  have key : ∀ n, (∃ last ev, (s n).task = .storing last ev more ∧ (s n).request = none ∧ responses (s n).wire = [] ∧
        (s n).calls.flatten ++ ev = g) → acts n = .advance →
      ((s (n + 1)).task.late = true ∨ (more = true ∧ Asks₀ (s (n + 1)) g true)) ∨
      (Asks₃ (s (n + 1)) g more ∧ g.length - (s (n + 1)).calls.flatten.length < g.length - (s n).calls.flatten.length) := by
    rintro n ⟨last, ev, h1, h2, h3, h4⟩ ha
    obtain ⟨pre, hok⟩ := h.ok n
    have htask := hok.task
    rw [h1] at htask
    have hpart : Part (s n) (all n) ((s n).calls.flatten ++ ev) := htask.1
    rw [h.step, ha]
    simp only [Sync.step, h.isOpen n, h.connected n, Bool.not_true, Bool.or_self, Bool.false_eq_true, if_false,
      Sync.advance, h1]
    unfold Sync.store
    cases hev : ev with
    | nil =>
      left
      simp only
      cases more with
      | true => exact .inr ⟨rfl, last, [], rfl, rfl, h3, by rw [hev] at h4; exact h4, by intro _ x hx; simp at hx⟩
      | false => exact .inl rfl
    | cons x l =>
      simp only
      by_cases hl : ((x :: l).getLast?.map fun y => y.id.session) ≠ some x.id.session
      · right
        rw [if_pos hl]
        have hsplit : (x :: l).takeWhile (fun y => y.id.session = x.id.session) ++
            (x :: l).dropWhile (fun y => y.id.session = x.id.session) = x :: l := List.takeWhile_append_dropWhile
        refine ⟨⟨last, _, rfl, h2, h3, ?_⟩, ?_⟩
        · simp only [List.flatten_append, List.flatten_cons, List.flatten_nil, List.append_nil, List.append_assoc]
          rw [hsplit, ← hev]; exact h4
        · simp only [List.flatten_append, List.flatten_cons, List.flatten_nil, List.append_nil, List.length_append]
          have h5 : 0 < ((x :: l).takeWhile fun y => y.id.session = x.id.session).length := by
            simp
          have h6 : g.length = (s n).calls.flatten.length + (x :: l).length := by
            rw [← h4, hev, List.length_append]
          have h7 : ((x :: l).takeWhile fun y => y.id.session = x.id.session).length ≤ (x :: l).length :=
            (List.takeWhile_sublist _).length_le
          omega
      · left
        rw [if_neg hl]
        cases more with
        | true =>
          rw [if_pos rfl]
          refine .inr ⟨rfl, last, x :: l, rfl, rfl, h3, by rw [← hev]; exact h4, ?_⟩
          rw [hev] at hpart
          exact fun _ => sessions_le (server := (s 0).remoteId) (List.pairwise_append.1 hpart.sorted).2.1
            (fun y hy => h.owner n y (hpart.known y (List.mem_append_right _ hy)).1) rfl (not_not.1 hl)
        | false => rw [if_neg (by simp)]; exact .inl rfl
  refine leads_measure (P := fun n => Asks₃ (s n) g more) (f := fun n => g.length - (s n).calls.flatten.length)
    (trig := fun n => acts n = .advance) ?_ ?_ h.advance hp
  · intro n hn
    by_cases ha : acts n = .advance
    · rcases key n hn ha with h1 | ⟨h1, h2⟩
      · exact .inl h1
      · exact .inr ⟨h1, Nat.le_of_lt h2⟩
    · obtain ⟨last, ev, h1, h2, h3, h4⟩ := hn
      obtain ⟨e1, e2, e3, e4⟩ := h.still (by rw [h1]; rfl) h3 ha (.inl h2)
      refine .inr ⟨⟨last, ev, e1.trans h1, e2.trans h2, e4, by rw [e3]; exact h4⟩, ?_⟩
      rw [e3]
  · intro n hn ha
    exact key n hn ha

/-- A question leads to the next one, or it is the last one. -/
theorem GoesOn.round (h : GoesOn s all acts) {n : Nat} {g : List Event} {one : Bool} (hp : Asks₀ (s n) g one) :
    ∃ m, n < m ∧ ((s m).task.late = true ∨ ∃ es, es ≠ [] ∧ Asks₀ (s m) (g ++ es) true) := by
  obtain ⟨m1, h1, es, more, h2, h3⟩ := h.answers hp
  obtain ⟨m2, h4, h5⟩ := h.receives h2
  obtain ⟨m3, h6, h7⟩ := h.looks h5
  obtain ⟨m4, h8, h9⟩ := h.stores h7
  refine ⟨m4, by omega, ?_⟩
  rcases h9 with h9 | ⟨h9, h10⟩
  · exact .inl h9
  · exact .inr ⟨es, h3 h9, h10⟩

/-- Each synchronisation is asking its first questions or is done with them. -/
theorem GoesOn.begins (h : GoesOn s all acts) : ∃ m, (s m).task.late = true ∨ ∃ g, Asks₀ (s m) g false := by
  obtain ⟨pre, hok⟩ := h.ok 0
  have ht := hok.task
  have fin : ∀ {n g more}, Asks₃ (s n) g more → ∃ m, (s m).task.late = true ∨ ∃ g, Asks₀ (s m) g false := by
    intro n g more hp
    obtain ⟨m, _, h1⟩ := h.stores hp
    rcases h1 with h1 | ⟨_, h1⟩
    · exact ⟨m, .inl h1⟩
    · obtain ⟨l, ev, k1, k2, k3, k4, _⟩ := h1
      exact ⟨m, .inr ⟨g, l, ev, k1, k2, k3, k4, by simp⟩⟩
  have fin2 : ∀ {n g es more}, Asks₂ (s n) g es more → ∃ m, (s m).task.late = true ∨ ∃ g, Asks₀ (s m) g false := by
    intro n g es more hp
    obtain ⟨m, _, h1⟩ := h.looks hp
    exact fin h1
  cases hk : (s 0).task with
  | draining l => exact ⟨0, .inl (by rw [hk]; rfl)⟩
  | synced => exact ⟨0, .inl (by rw [hk]; rfl)⟩
  | storing l ev more =>
    rw [hk] at ht
    exact fin (n := 0) ⟨l, ev, hk, ht.2.2.1, ht.2.2.2.1, rfl⟩
  | answered l ev es more =>
    rw [hk] at ht
    exact fin2 (n := 0) ⟨l, ev, hk, ht.2.2.1, ht.2.2.2.1, rfl⟩
  | asking l ev =>
    rw [hk] at ht
    rcases ht.2.2 with ⟨h1, h2⟩ | ⟨es, more, h1, h2, _⟩
    · exact ⟨0, .inr ⟨_, l, ev, hk, h1, h2, rfl, by simp⟩⟩
    · obtain ⟨m, _, h3⟩ := h.receives (n := 0) ⟨l, ev, hk, h1, h2, rfl⟩
      exact fin2 h3
  | starting =>
    rw [hk] at ht
    obtain ⟨m, _, h1⟩ := leads_measure (P := fun n => (s n).task = .starting ∧ (s n).request = none ∧
        responses (s n).wire = [] ∧ (s n).calls = []) (Q := fun n => Asks₀ (s n) [] false) (f := fun _ => 0)
      (trig := fun n => acts n = .advance) (n := 0)
      (by
        rintro n ⟨h1, h2, h3, h4⟩
        by_cases ha : acts n = .advance
        · left
          rw [h.step, ha]
          simp only [Sync.step, h.isOpen n, h.connected n, Bool.not_true, Bool.or_self, Bool.false_eq_true, if_false,
            Sync.advance, h1]
          exact ⟨_, [], rfl, rfl, h3, by rw [h4]; rfl, by intro _ x hx; simp at hx⟩
        · obtain ⟨e1, e2, e3, e4⟩ := h.still (by rw [h1]; rfl) h3 ha (.inl h2)
          exact .inr ⟨⟨e1.trans h1, e2.trans h2, e4, e3.trans h4⟩, Nat.le_refl _⟩)
      (by
        rintro n ⟨h1, h2, h3, h4⟩ ha
        left
        rw [h.step, ha]
        simp only [Sync.step, h.isOpen n, h.connected n, Bool.not_true, Bool.or_self, Bool.false_eq_true, if_false,
          Sync.advance, h1]
        exact ⟨_, [], rfl, rfl, h3, by rw [h4]; rfl, by intro _ x hx; simp at hx⟩)
      h.advance ⟨hk, ht.2.1, ht.2.2, ht.1⟩
    exact ⟨m, .inr ⟨[], h1⟩⟩

open Classical in
/-- Number of the first events after what has been received. -/
noncomputable def toCome (first : List Event) (last : EventId) (g : List Event) : Nat :=
  (first.filter fun x => decide (IdLt (lastAfter last g) x.id)).length

theorem toCome_lt {first : List Event} {last : EventId} {g es : List Event} {y : Event} (hy : y ∈ first)
    (h1 : IdLt (lastAfter last g) y.id) (h2 : IdLe y.id (lastAfter last (g ++ es))) :
    toCome first last (g ++ es) < toCome first last g := by
  classical
  unfold toCome
  have hle : ∀ x : Event, IdLt (lastAfter last (g ++ es)) x.id → IdLt (lastAfter last g) x.id := fun x hx =>
    h1.trans (h2.trans_lt hx)
  have key : ∀ l : List Event, (l.filter fun x => decide (IdLt (lastAfter last (g ++ es)) x.id)).length ≤
      (l.filter fun x => decide (IdLt (lastAfter last g) x.id)).length ∧
      (y ∈ l → (l.filter fun x => decide (IdLt (lastAfter last (g ++ es)) x.id)).length <
        (l.filter fun x => decide (IdLt (lastAfter last g) x.id)).length) := by
    intro l
    induction l with
    | nil => simp
    | cons x l ih =>
      by_cases c1 : IdLt (lastAfter last (g ++ es)) x.id
      · have c2 := hle x c1
        simp only [List.filter_cons, c1, c2, decide_true, if_true, List.length_cons]
        refine ⟨by omega, fun hm => ?_⟩
        rcases List.mem_cons.1 hm with rfl | hm
        · exact absurd c1 (not_idLt.2 h2)
        · have := ih.2 hm; omega
      · by_cases c2 : IdLt (lastAfter last g) x.id
        · simp only [List.filter_cons, c1, c2, decide_true, decide_false, if_true, Bool.false_eq_true, if_false,
            List.length_cons]
          exact ⟨by omega, fun _ => by omega⟩
        · simp only [List.filter_cons, c1, c2, decide_false, Bool.false_eq_true, if_false]
          refine ⟨ih.1, fun hm => ?_⟩
          rcases List.mem_cons.1 hm with rfl | hm
          · exact absurd h1 c2
          · exact ih.2 hm
  exact (key first).2 hy

/-- Questions end, or the event is registered. -/
theorem Awaits.asked (h : Awaits s all acts e) (k : Nat) : ∀ {n : Nat} {g : List Event} {one : Bool},
    toCome (all 0) (s 0).last g ≤ k → Asks₀ (s n) g one →
    ∃ m, (s m).task.late = true ∨ e ∈ accept (s 0).last (s m).calls.flatten := by
  induction k using Nat.strong_induction_on with
  | _ k ih =>
    intro n g one hk hp
    obtain ⟨m, _, h1⟩ := h.round hp
    rcases h1 with h1 | ⟨es, h1, h2⟩
    · exact ⟨m, .inl h1⟩
    have hask := h2
    obtain ⟨last, ev, t1, t2, t3, t4, t5⟩ := h2
    obtain ⟨pre, hok⟩ := h.ok m
    have htask := hok.task
    rw [t1] at htask
    have hpart : Part (s m) (all m) ((s m).calls.flatten ++ ev) := htask.1
    rw [t4] at hpart
    have hlast := (h.same m).2
    obtain ⟨es', y, rfl⟩ : ∃ es' y, es = es' ++ [y] := ⟨_, _, (List.dropLast_concat_getLast h1).symm⟩
    have hyk := hpart.known y (by simp)
    have hafter : ∀ x ∈ g ++ (es' ++ [y]), IdLt (s 0).last x.id := by
      intro x hx
      rw [← hlast]
      exact (hpart.known x hx).2.2
    have hey : lastAfter (s 0).last (g ++ (es' ++ [y])) = y.id := by
      have := lastAfter_getLast hpart.sorted hafter
      rw [this, ← List.append_assoc, List.getLast?_append]
      simp
    rcases h.later m y hyk.1 with hy | hy
    · have hlt : IdLt (lastAfter (s 0).last g) y.id := by
        rcases lastAfter_cases (s 0).last g with h3 | ⟨x, h3, h4⟩
        · rw [h3]; exact hafter y (by simp)
        · rw [h4]
          exact (List.pairwise_append.1 hpart.sorted).2.2 x h3 y (by simp)
      have := toCome_lt (es := es' ++ [y]) hy hlt (by rw [hey]; exact .refl)
      exact ih _ (by omega) (Nat.le_refl _) hask
    · refine ⟨m, .inr ?_⟩
      have heo := h.owner m e (h.known m)
      have hyo := h.owner m y hyk.1
      have hle : IdLt e.id y.id := by unfold IdLt; omega
      have hg : e ∈ g ++ (es' ++ [y]) := hpart.gapless e (h.stays m) (by rw [hlast]; exact h.last)
        (by rw [hlast, hey]; exact .inl hle)
      have hsorted := hpart.sorted
      rw [← t4] at hg hsorted
      rw [accept_increasing (List.pairwise_append.1 hsorted).1, mem_after]
      refine ⟨?_, h.last⟩
      rcases List.mem_append.1 hg with hg | hg
      · exact hg
      · exfalso
        by_cases hev : ev = []
        · rw [hev] at hg; simp at hg
        · obtain ⟨ev', z, rfl⟩ : ∃ ev' z, ev = ev' ++ [z] := ⟨_, _, (List.dropLast_concat_getLast hev).symm⟩
          have hzy : z = y := by
            have := congrArg List.getLast? t4
            rw [← List.append_assoc, ← List.append_assoc] at this
            simpa using this
          subst hzy
          have := t5 rfl e hg z (by simp)
          omega

/-- **The event is accepted.** -/
theorem Awaits.got (h : Awaits s all acts e) : ∃ m, e ∈ accept (s 0).last (s m).calls.flatten := by
  obtain ⟨m, h1⟩ := h.begins
  rcases h1 with h1 | ⟨g, h1⟩
  · exact h.late_got h1
  · obtain ⟨m', h2⟩ := h.asked _ (Nat.le_refl _) h1
    rcases h2 with h2 | h2
    · exact h.late_got h2
    · exact ⟨m', h2⟩

/-! ### Nothing more is flushed -/

/-- If nothing more is flushed, the questions end. -/
theorem GoesOn.asked_all (h : GoesOn s all acts) (hall : ∀ n, all n = all 0) (k : Nat) :
    ∀ {n : Nat} {g : List Event} {one : Bool}, toCome (all 0) (s 0).last g ≤ k → Asks₀ (s n) g one →
    ∃ m, (s m).task.late = true := by
  induction k using Nat.strong_induction_on with
  | _ k ih =>
    intro n g one hk hp
    obtain ⟨m, _, h1⟩ := h.round hp
    rcases h1 with h1 | ⟨es, h1, h2⟩
    · exact ⟨m, h1⟩
    have hask := h2
    obtain ⟨last, ev, t1, t2, t3, t4, t5⟩ := h2
    obtain ⟨pre, hok⟩ := h.ok m
    have htask := hok.task
    rw [t1] at htask
    have hpart : Part (s m) (all m) ((s m).calls.flatten ++ ev) := htask.1
    rw [t4] at hpart
    have hlast := (h.same m).2
    obtain ⟨es', y, rfl⟩ : ∃ es' y, es = es' ++ [y] := ⟨_, _, (List.dropLast_concat_getLast h1).symm⟩
    have hyk := hpart.known y (by simp)
    have hafter : ∀ x ∈ g ++ (es' ++ [y]), IdLt (s 0).last x.id := by
      intro x hx
      rw [← hlast]
      exact (hpart.known x hx).2.2
    have hey : lastAfter (s 0).last (g ++ (es' ++ [y])) = y.id := by
      have := lastAfter_getLast hpart.sorted hafter
      rw [this, ← List.append_assoc, List.getLast?_append]
      simp
    have hlt : IdLt (lastAfter (s 0).last g) y.id := by
      rcases lastAfter_cases (s 0).last g with h3 | ⟨x, h3, h4⟩
      · rw [h3]; exact hafter y (by simp)
      · rw [h4]
        exact (List.pairwise_append.1 hpart.sorted).2.2 x h3 y (by simp)
    have := toCome_lt (first := all 0) (es := es' ++ [y]) (hall m ▸ hyk.1) hlt (by rw [hey]; exact .refl)
    exact ih _ (by omega) (Nat.le_refl _) hask

theorem synced_step (s : Sync) (a : SyncAct) (h : s.task = .synced) : (s.step a).task = .synced := by
  cases a with
  | flush r => exact h
  | remove g => exact h
  | connect => exact h
  | notify =>
    simp only [Sync.step, Sync.sendNotify]
    split
    · exact h
    · split <;> exact h
  | serve k =>
    simp only [Sync.step, Sync.serve]
    split
    · exact h
    · split <;> exact h
  | deliver =>
    simp only [Sync.step]
    split
    · exact h
    · split
      · exact h
      · next m w _ =>
        cases m with
        | notify es => simp only [Sync.receive]; split <;> exact h
        | response es more => simp only [Sync.receive, h]
  | advance =>
    simp only [Sync.step, Sync.advance, h]
    split <;> exact h
  | close => exact h

/-- **If no more events of the server are flushed, everything is received.** -/
theorem GoesOn.idle (h : GoesOn s all acts) (hall : ∀ n, all n = all 0) :
    ∃ m, ∀ k, m ≤ k → (s k).task = .synced ∧ (s k).wire = [] := by
  obtain ⟨N, hl⟩ : ∃ m, (s m).task.late = true := by
    obtain ⟨m, h1⟩ := h.begins
    rcases h1 with h1 | ⟨g, h1⟩
    · exact ⟨m, h1⟩
    · exact h.asked_all hall _ (Nat.le_refl _) h1
  have hlate := h.late hl
  have hnone : ∀ n r, acts n = .flush r → ∀ es ∈ r, (s 0).relevant es = [] := by
    intro n r hr es hes
    have h1 := h.more n
    rw [hall (n + 1), hall n, hr] at h1
    have h2 : flushed (s 0).remoteId [.flush r] = [] := List.self_eq_append_right.1 h1
    rw [List.eq_nil_iff_forall_not_mem]
    intro x hx
    rw [mem_relevant] at hx
    have : x ∈ flushed (s 0).remoteId [.flush r] := by
      simp only [flushed, List.flatMap_cons, List.flatMap_nil, List.append_nil, List.mem_filter, List.mem_flatten,
        decide_eq_true_eq]
      exact ⟨⟨es, hes, hx.1⟩, hx.2⟩
    rw [h2] at this
    simp at this
  obtain ⟨n1, h1, hz1⟩ := descend (f := fun n => uptoLast (fun es => (s 0).relevant es ≠ []) (s n).unnotified) (N := N)
    (trig := fun n => acts n = .notify)
    (by
      intro n _
      show uptoLast _ (s (n + 1)).unnotified ≤ _
      rw [h.step]
      rcases unnotified_step (s n) (acts n) with ⟨r, h1, h2⟩ | ⟨h1, h2⟩ | ⟨h1, h2⟩
      · rw [h2, uptoLast_append]
        exact fun m hm hne => hne (hnone n r h1 m hm)
      · rw [h2]
        cases (s n).unnotified with
        | nil => exact Nat.le_refl _
        | cons m l => exact (uptoLast_tail _ _).1
      · rw [h2])
    (by
      intro n _ ht hne
      show uptoLast _ (s (n + 1)).unnotified < uptoLast _ (s n).unnotified
      rw [h.step]
      rcases unnotified_step (s n) (acts n) with ⟨r, h1, h2⟩ | ⟨h1, h2⟩ | ⟨h1, h2⟩
      · rw [ht] at h1; cases h1
      · rw [h2]
        cases hu : (s n).unnotified with
        | nil => rw [hu] at hne; exact absurd rfl hne
        | cons m l => rw [hu] at hne; exact (uptoLast_tail _ _).2 hne
      · exact absurd ht h1) h.notify
  have hun : ∀ n, n1 ≤ n → ∀ es ∈ (s n).unnotified, (s n).relevant es = [] := by
    intro n hn es hes
    have h1 := uptoLast_zero.1 (hz1 n hn) es hes
    have h2 : (s n).relevant es = (s 0).relevant es := by unfold Sync.relevant; rw [(h.same n).1]
    rw [h2]
    exact not_not.1 h1
  obtain ⟨n2, h2, hz2⟩ := descend (f := fun n => (s n).wire.length) (N := n1)
    (trig := fun n => acts n = .deliver)
    (by
      intro n hn
      show (s (n + 1)).wire.length ≤ _
      obtain ⟨pre, hp⟩ := h.ok n
      have hreq : (s n).request = none := by
        have ht := hp.task
        have hl := hlate n (by omega)
        cases hk : (s n).task with
        | starting => rw [hk] at hl; cases hl
        | asking a b => rw [hk] at hl; cases hl
        | answered a b c d => rw [hk] at hl; cases hl
        | storing a b c => rw [hk] at hl; cases hl
        | synced => rw [hk] at ht; exact ht.1
        | draining l => rw [hk] at ht; exact ht.2.1
      rw [h.step]
      rcases wire_step (s n) (acts n) (h.isOpen n) with ⟨_, h2 | ⟨es, h2, h3⟩⟩ | ⟨k, hk, _⟩ | ⟨_, h2⟩ |
        ⟨_, h2⟩
      · rw [h2]
      · exfalso
        have hw : (s n).sendNotify.wire = (s n).wire := by
          unfold Sync.sendNotify
          cases hu : (s n).unnotified with
          | nil => rfl
          | cons m l =>
            have := hun n hn m (by rw [hu]; simp)
            unfold Sync.relevant at this ⊢
            simp [this]
        rw [‹acts n = .notify›] at h3
        have h4 : (s n).sendNotify.wire = _ := h3
        rw [hw] at h4
        have := congrArg List.length h4
        simp at this
      · rw [hk]
        simp [Sync.step, Sync.serve, hreq]
      · rw [h2]; simp
      · rw [h2])
    (by
      intro n _ ht hne
      show (s (n + 1)).wire.length < (s n).wire.length
      rw [h.step]
      rcases wire_step (s n) (acts n) (h.isOpen n) with ⟨h1, _⟩ | ⟨k, h1, _⟩ | ⟨_, h2⟩ | ⟨h1, _⟩
      · rw [ht] at h1; cases h1
      · rw [ht] at h1; cases h1
      · rw [h2]
        change (s n).wire.length ≠ 0 at hne
        simp only [List.length_tail]
        omega
      · exact absurd ht h1) h.deliver
  have hwi : ∀ n, n2 ≤ n → (s n).wire = [] := fun n hn => List.length_eq_zero_iff.1 (hz2 n hn)
  obtain ⟨n3, h3, hz3⟩ := descend (f := fun n => ((s n).queue.getD []).length) (N := n2)
    (trig := fun n => acts n = .advance)
    (by
      intro n hn
      show ((s (n + 1)).queue.getD []).length ≤ _
      rw [h.step]
      rcases queue_step (s n) (acts n) with ⟨_, h2 | ⟨es, q, h2, h3, h4⟩⟩ | ⟨_, h2 | ⟨h2, h3⟩ | ⟨es, q, h2, h3⟩⟩ | ⟨_, h2⟩
      · rw [h2]
      · rw [hwi n hn] at h2; simp [wireLists] at h2
      · rw [h2]
      · rw [h2, h3]; exact Nat.le_refl _
      · rw [h2, h3]; simp
      · rw [h2])
    (by
      intro n hn ht hne
      show ((s (n + 1)).queue.getD []).length < ((s n).queue.getD []).length
      obtain ⟨pre, hp⟩ := h.ok n
      have hl := hlate n (by omega)
      rw [h.step, ht]
      change ((s n).queue.getD []).length ≠ 0 at hne
      cases hq : (s n).queue with
      | none => rw [hq] at hne; exact absurd rfl hne
      | some q =>
        cases q with
        | nil => rw [hq] at hne; exact absurd rfl hne
        | cons es q =>
          rw [hq] at hne
          cases hk : (s n).task with
          | starting => rw [hk] at hl; cases hl
          | asking a b => rw [hk] at hl; cases hl
          | answered a b c d => rw [hk] at hl; cases hl
          | storing a b c => rw [hk] at hl; cases hl
          | synced => rw [hp.queue.1 hk] at hq; cases hq
          | draining l =>
            rw [drain_queue (h.isOpen n) (h.connected n) hk hq]
            simp) h.advance
  obtain ⟨n4, h4, ht4⟩ := h.advance n3
  have hs : (s (n4 + 1)).task = .synced := by
    have hl := hlate n4 (by omega)
    obtain ⟨pre, hp⟩ := h.ok n4
    rw [h.step]
    cases hk : (s n4).task with
    | starting => rw [hk] at hl; cases hl
    | asking a b => rw [hk] at hl; cases hl
    | answered a b c d => rw [hk] at hl; cases hl
    | storing a b c => rw [hk] at hl; cases hl
    | synced => exact synced_step _ _ hk
    | draining l =>
      have hq := hz3 n4 h4
      rw [ht4]
      cases hq' : (s n4).queue with
      | none => exact absurd hq' (h.queue (by rw [hk]; simp))
      | some q =>
        simp only [hq', Option.getD_some, List.length_eq_zero_iff] at hq
        subst hq
        simp [Sync.step, h.isOpen n4, h.connected n4, Sync.advance, hk, Sync.drain, hq']
  refine ⟨n4 + 1, fun k hk => ⟨?_, hwi k (by omega)⟩⟩
  induction k, hk using Nat.le_induction with
  | base => exact hs
  | succ k hk ih => rw [h.step]; exact synced_step _ _ ih

/-- If nothing at all is flushed, everything is notified. -/
theorem GoesOn.notifies (h : GoesOn s all acts) {N : Nat} (hnone : ∀ n, N ≤ n → ∀ r, acts n = .flush r → r = []) :
    ∃ m, ∀ k, m ≤ k → (s k).unnotified = [] := by
  obtain ⟨n1, h1, hz1⟩ := descend (f := fun n => (s n).unnotified.length) (N := N)
    (trig := fun n => acts n = .notify)
    (by
      intro n hn
      show (s (n + 1)).unnotified.length ≤ _
      rw [h.step]
      rcases unnotified_step (s n) (acts n) with ⟨r, h1, h2⟩ | ⟨h1, h2⟩ | ⟨h1, h2⟩
      · rw [h2, hnone n hn r h1]; simp
      · rw [h2]; simp
      · rw [h2])
    (by
      intro n _ ht hne
      show (s (n + 1)).unnotified.length < (s n).unnotified.length
      rw [h.step]
      rcases unnotified_step (s n) (acts n) with ⟨r, h1, h2⟩ | ⟨h1, h2⟩ | ⟨h1, h2⟩
      · rw [ht] at h1; cases h1
      · rw [h2]
        change (s n).unnotified.length ≠ 0 at hne
        simp only [List.length_tail]
        omega
      · exact absurd ht h1) h.notify
  exact ⟨n1, fun n hn => List.length_eq_zero_iff.1 (hz1 n hn)⟩

end

end HatEvent
