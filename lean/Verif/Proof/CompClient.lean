import Verif.Spec.CompClient
import Verif.Proof.Tactics
import Mathlib.Data.List.Induction

/-! # Facts about the client loops of a component -/

namespace HatEvent
namespace CompClient

theorem run_snoc (s : CompClient) (acts : List CompClientAct) (a : CompClientAct) : s.run (acts ++ [a]) = (s.run acts).step a := by
  simp [run]

theorem run_append (s : CompClient) (a b : List CompClientAct) : s.run (a ++ b) = (s.run a).run b := by simp [run]

/-- Every entry of a log fits what is before it. -/
def Each (P : List CompEntry → CompEntry → Prop) (log : List CompEntry) : Prop :=
  ∀ pre e post, log = pre ++ e :: post → P pre e

theorem each_nil (P : List CompEntry → CompEntry → Prop) : Each P [] := by intro pre e post h; simp at h

theorem each_snoc {P : List CompEntry → CompEntry → Prop} {log : List CompEntry} {e : CompEntry} (h : Each P log) (he : P log e) :
    Each P (log ++ [e]) := by
  intro pre x post hx
  rcases List.eq_nil_or_concat post with rfl | ⟨post', y, rfl⟩
  · have h' := List.append_inj' hx rfl
    obtain ⟨h1, h2⟩ := h'
    cases h2
    rw [← h1]; exact he
  · rw [List.concat_eq_append, ← List.cons_append, ← List.append_assoc] at hx
    exact h pre x post' (List.append_inj' hx rfl).1

/-- What is known at a place. -/
def PlaceOk (s : CompClient) : Prop :=
  match s.place with
  | .ended | .connecting | .sleeping => ∀ k, k < s.next → .clientClosed k ∈ s.log
  | .creating => 0 < s.next ∧ .clientClosed s.cur ∉ s.log ∧ .runnerMade s.cur ∉ s.log
  | .created | .running | .closingRunner _ =>
    0 < s.next ∧ .clientClosed s.cur ∉ s.log ∧ .runnerMade s.cur ∈ s.log ∧ .runnerClosed s.cur ∉ s.log
  | .closingClient _ => 0 < s.next ∧ .clientClosed s.cur ∉ s.log

structure Inv (s : CompClient) : Prop where
  fits : Each CompEntry.Fits s.log
  conn : ∀ k, .connected k ∈ s.log ↔ k < s.next
  made : ∀ k, .runnerMade k ∈ s.log → k < s.next
  rclosed : ∀ k, .runnerClosed k ∈ s.log → .runnerMade k ∈ s.log
  old : ∀ k, k + 1 < s.next → .clientClosed k ∈ s.log
  place : PlaceOk s

theorem inv_init : Inv {} :=
  ⟨each_nil _, by simp, by simp, by simp, by simp, by simp [PlaceOk]⟩

/-- Steps that change neither log nor number of connections. -/
theorem Inv.same {s t : CompClient} (h : Inv s) (hlog : t.log = s.log) (hnext : t.next = s.next) (hp : PlaceOk t) : Inv t := by
  obtain ⟨h1, h2, h3, h4, h5, _⟩ := h
  exact ⟨by rw [hlog]; exact h1, by rw [hlog, hnext]; exact h2, by rw [hlog, hnext]; exact h3, by rw [hlog]; exact h4,
    by rw [hlog, hnext]; exact h5, hp⟩

theorem Inv.start {s : CompClient} (h : Inv s) : Inv s.start := by
  have hp := h.place
  unfold CompClient.start
  split
  · next e =>
    split
    · refine h.same rfl rfl ?_
      simp only [PlaceOk, e] at hp ⊢
      exact hp
    · exact h
  · exact h

theorem Inv.connect {s : CompClient} (h : Inv s) : Inv s.connect := by
  have hp := h.place
  unfold CompClient.connect
  split
  · next e =>
    simp only [PlaceOk, e] at hp
    have hn : CompEntry.connected s.next ∉ s.log := fun hc => absurd ((h.conn _).1 hc) (Nat.lt_irrefl _)
    have hcl : CompEntry.clientClosed s.next ∉ s.log := by
      intro hc
      obtain ⟨pre, post, e'⟩ := List.append_of_mem hc
      have := (h.fits _ _ _ e').1
      exact hn (by rw [e']; simp [this])
    refine ⟨each_snoc h.fits ⟨hn, fun j hj => hp j ((h.conn j).1 hj)⟩, ?_, ?_, ?_, ?_, ?_⟩
    · intro k
      simp only [List.mem_append, List.mem_singleton, h.conn k, CompEntry.connected.injEq]
      omega
    · intro k hk
      have := h.made k (by simpa using hk)
      show k < s.next + 1
      omega
    · intro k hk
      have := h.rclosed k (by simpa using hk)
      simp [this]
    · intro k hk
      have := hp k (by simpa using hk)
      simp [this]
    · refine ⟨Nat.succ_pos _, ?_, ?_⟩
      · simpa [cur] using hcl
      · have : CompEntry.runnerMade s.next ∉ s.log := fun hc => absurd (h.made _ hc) (Nat.lt_irrefl _)
        simpa [cur] using this
  · exact h

theorem Inv.refuse {s : CompClient} (h : Inv s) : Inv s.refuse := by
  have hp := h.place
  unfold CompClient.refuse
  split
  · next e => exact h.same rfl rfl (by simp only [PlaceOk, e] at hp ⊢; exact hp)
  · exact h

theorem Inv.wake {s : CompClient} (h : Inv s) : Inv s.wake := by
  have hp := h.place
  unfold CompClient.wake
  split
  · next e => exact h.same rfl rfl (by simp only [PlaceOk, e] at hp ⊢; exact hp)
  · exact h

theorem Inv.make {s : CompClient} (h : Inv s) : Inv s.make := by
  have hp := h.place
  unfold CompClient.make
  split
  · next e =>
    split
    · simp only [PlaceOk, e] at hp
      obtain ⟨h0, h1, h2⟩ := hp
      have hcur : s.cur < s.next := by unfold cur; omega
      refine ⟨each_snoc h.fits ⟨(h.conn _).2 hcur, h1, h2⟩, ?_, ?_, ?_, ?_, ?_⟩
      · intro k; simp [h.conn k]
      · intro k hk
        simp only [List.mem_append, List.mem_singleton, CompEntry.runnerMade.injEq] at hk
        rcases hk with hk | rfl
        · exact h.made k hk
        · exact hcur
      · intro k hk
        have := h.rclosed k (by simpa using hk)
        simp [this]
      · intro k hk
        have := h.old k hk
        simp [this]
      · have : CompEntry.runnerClosed s.cur ∉ s.log := fun hc => h2 (h.rclosed _ hc)
        refine ⟨h0, ?_, ?_, ?_⟩
        · simpa [cur] using h1
        · simp [cur]
        · simpa [cur] using this
    · exact h
  · exact h

theorem Inv.raise {s : CompClient} (h : Inv s) : Inv s.raise := by
  have hp := h.place
  unfold CompClient.raise
  split
  · next e =>
    split
    · exact h.same rfl rfl (by simp only [PlaceOk, e] at hp ⊢; exact ⟨hp.1, hp.2.1⟩)
    · exact h
  · exact h

theorem Inv.interrupt {s : CompClient} (h : Inv s) : Inv s.interrupt := by
  have hp := h.place
  unfold CompClient.interrupt
  split
  · next e =>
    split
    · exact h
    · exact h.same rfl rfl (by simp only [PlaceOk, e] at hp ⊢; exact ⟨hp.1, hp.2.1⟩)
  · exact h

theorem Inv.receive {s : CompClient} (h : Inv s) : Inv s.receive := by
  have hp := h.place
  unfold CompClient.receive
  split
  · next e => exact h.same rfl rfl (by simp only [PlaceOk, e] at hp ⊢; exact hp)
  · exact h

theorem Inv.notice {s : CompClient} (h : Inv s) : Inv s.notice := by
  have hp := h.place
  unfold CompClient.notice
  split
  · next e =>
    split
    · split
      · exact h
      · exact h.same rfl rfl (by simp only [PlaceOk, e] at hp ⊢; exact hp)
    · exact h.same rfl rfl (by simp only [PlaceOk, e] at hp ⊢; exact hp)
  · exact h

theorem Inv.runnerClosed {s : CompClient} (h : Inv s) : Inv s.runnerClosed := by
  have hp := h.place
  unfold CompClient.runnerClosed
  split
  · next e =>
    simp only [PlaceOk, e] at hp
    obtain ⟨h0, h1, h2, h3⟩ := hp
    refine ⟨each_snoc h.fits ⟨h2, h1, h3⟩, ?_, ?_, ?_, ?_, ?_⟩
    · intro k; simp [h.conn k]
    · intro k hk; exact h.made k (by simpa using hk)
    · intro k hk
      simp only [List.mem_append, List.mem_singleton, CompEntry.runnerClosed.injEq] at hk
      rcases hk with hk | rfl
      · simp [h.rclosed k hk]
      · simp [h2]
    · intro k hk
      have := h.old k hk
      simp [this]
    · exact ⟨h0, by simpa [cur] using h1⟩
  · exact h

theorem Inv.clientClosed {s : CompClient} (h : Inv s) : Inv s.clientClosed := by
  have hp := h.place
  unfold CompClient.clientClosed
  split
  · next nx e =>
    simp only [PlaceOk, e] at hp
    obtain ⟨h0, h1⟩ := hp
    have hcur : s.cur < s.next := by unfold cur; omega
    refine ⟨each_snoc h.fits ⟨(h.conn _).2 hcur, h1⟩, ?_, ?_, ?_, ?_, ?_⟩
    · intro k; simp [h.conn k]
    · intro k hk; exact h.made k (by simpa using hk)
    · intro k hk
      have := h.rclosed k (by simpa using hk)
      simp [this]
    · intro k hk
      have := h.old k hk
      simp [this]
    · have key : ∀ k, k < s.next → CompEntry.clientClosed k ∈ s.log ++ [CompEntry.clientClosed s.cur] := by
        intro k hk
        by_cases hk' : k + 1 < s.next
        · simp [h.old k hk']
        · have : k = s.cur := by unfold cur; omega
          simp [this]
      cases nx <;> exact key
  · exact h

theorem Inv.cancel {s : CompClient} (h : Inv s) : Inv { s with place := cancelPlace s.place, cancelled := true } := by
  have hp := h.place
  refine h.same rfl rfl ?_
  unfold PlaceOk at hp ⊢
  cases e : s.place <;> simp only [e, cancelPlace] at hp ⊢
  · exact hp
  · exact hp
  · exact hp
  · exact ⟨hp.1, hp.2.1⟩
  · exact ⟨hp.1, hp.2.1⟩
  · exact hp
  · exact hp
  · exact hp

theorem Inv.step {s : CompClient} (h : Inv s) (a : CompClientAct) : Inv (s.step a) := by
  cases a with
  | start => exact h.start
  | connect => exact h.connect
  | refuse => exact h.refuse
  | wake => exact h.wake
  | lose => exact h.same rfl rfl h.place
  | make => exact h.make
  | raise => exact h.raise
  | interrupt => exact h.interrupt
  | receive => exact h.receive
  | runnerCloses => exact h.same rfl rfl h.place
  | notice => exact h.notice
  | runnerClosed => exact h.runnerClosed
  | clientClosed => exact h.clientClosed
  | cancel => exact h.cancel

theorem inv_run (acts : List CompClientAct) : Inv (run {} acts) := by
  induction acts using List.reverseRecOn with
  | nil => exact inv_init
  | append_singleton acts a ih => rw [run_snoc]; exact ih.step a

/-! ### Runners -/

/-- No runner is lost. -/
structure Kept (s : CompClient) : Prop where
  closed : Each (fun pre e => ∀ k, e = .clientClosed k → .runnerMade k ∈ pre → .runnerClosed k ∈ pre) s.log
  here : ∀ nx, s.place = .closingClient nx → .runnerMade s.cur ∈ s.log → .runnerClosed s.cur ∈ s.log

theorem kept_step {s : CompClient} (hi : Inv s) (h : Kept s) (a : CompClientAct) (hc : a = .cancel → s.place ≠ .created) :
    Kept (s.step a) := by
  have hp := hi.place
  cases a with
  | start =>
    show Kept s.start
    unfold CompClient.start
    split
    · split
      · exact ⟨h.closed, by simp⟩
      · exact h
    · exact h
  | connect =>
    show Kept s.connect
    unfold CompClient.connect
    split
    · exact ⟨each_snoc h.closed (by intro k e; cases e), by simp⟩
    · exact h
  | refuse =>
    show Kept s.refuse
    unfold CompClient.refuse
    split
    · exact ⟨h.closed, by simp⟩
    · exact h
  | wake =>
    show Kept s.wake
    unfold CompClient.wake
    split
    · exact ⟨h.closed, by simp⟩
    · exact h
  | lose => exact ⟨h.closed, h.here⟩
  | make =>
    show Kept s.make
    unfold CompClient.make
    split
    · split
      · exact ⟨each_snoc h.closed (by intro k e; cases e), by simp⟩
      · exact h
    · exact h
  | raise =>
    show Kept s.raise
    unfold CompClient.raise
    split
    · next e =>
      simp only [PlaceOk, e] at hp
      split
      · exact ⟨h.closed, fun _ _ hm => absurd hm hp.2.2⟩
      · exact h
    · exact h
  | interrupt =>
    show Kept s.interrupt
    unfold CompClient.interrupt
    split
    · next e =>
      simp only [PlaceOk, e] at hp
      split
      · exact h
      · exact ⟨h.closed, fun _ _ hm => absurd hm hp.2.2⟩
    · exact h
  | receive =>
    show Kept s.receive
    unfold CompClient.receive
    split
    · exact ⟨h.closed, by simp⟩
    · exact h
  | runnerCloses => exact ⟨h.closed, h.here⟩
  | notice =>
    show Kept s.notice
    unfold CompClient.notice
    split
    · split
      · split
        · exact h
        · exact ⟨h.closed, by simp⟩
      · exact ⟨h.closed, by simp⟩
    · exact h
  | runnerClosed =>
    show Kept s.runnerClosed
    unfold CompClient.runnerClosed
    split
    · exact ⟨each_snoc h.closed (by intro k e; cases e), fun _ _ _ => by simp [cur]⟩
    · exact h
  | clientClosed =>
    show Kept s.clientClosed
    unfold CompClient.clientClosed
    split
    · next nx e =>
      refine ⟨each_snoc h.closed (by intro k e'; cases e'; exact h.here nx e), ?_⟩
      intro nx' e'
      cases nx <;> simp [afterClient] at e'
    · exact h
  | cancel =>
    refine ⟨h.closed, ?_⟩
    intro nx e hm
    have e' : cancelPlace s.place = .closingClient nx := e
    have hm' : CompEntry.runnerMade s.cur ∈ s.log := hm
    show CompEntry.runnerClosed s.cur ∈ s.log
    cases he : s.place with
    | creating => simp only [PlaceOk, he] at hp; exact absurd hm' hp.2.2
    | created => exact absurd he (hc rfl)
    | closingClient nx' => exact h.here nx' he hm'
    | _ => rw [he] at e'; simp [cancelPlace] at e'

theorem kept_run (acts : List CompClientAct)
    (hc : ∀ a b, acts = a ++ .cancel :: b → (run {} a).place ≠ .created) : Kept (run {} acts) := by
  induction acts using List.reverseRecOn with
  | nil => exact ⟨each_nil _, by simp [run]⟩
  | append_singleton acts a ih =>
    rw [run_snoc]
    refine kept_step (inv_run acts) (ih fun a' b e => hc a' (b ++ [a]) (by rw [e]; simp)) a ?_
    rintro rfl
    exact hc acts [] rfl

/-! ### End of a loop -/

/-- A loop without interruption ends only if it was cancelled or the component is closed. -/
def Going (s : CompClient) : Prop :=
  s.cancelled = true ∨ s.compOpen = false ∨
    (s.place ≠ .ended ∧ s.place ≠ .closingRunner .stop ∧ s.place ≠ .closingClient .stop)

theorem going_step {s : CompClient} (h : Going s) (a : CompClientAct) (hc : a ≠ .interrupt) : Going (s.step a) := by
  obtain ⟨place, cancelled, compOpen, next, clientOpen, runnerOpen, log⟩ := s
  unfold Going at *
  cases a <;> cases place <;> cases compOpen <;> cases clientOpen <;> cases runnerOpen <;>
    simp_all [step, start, connect, refuse, wake, make, raise, receive, notice, runnerClosed, clientClosed, cancelPlace] <;>
    (rename_i nx; cases nx <;> simp_all [afterClient])

theorem going_run {s : CompClient} (h : Going s) (acts : List CompClientAct) (hc : .interrupt ∉ acts) : Going (s.run acts) := by
  induction acts using List.reverseRecOn with
  | nil => exact h
  | append_singleton acts a ih =>
    rw [run_snoc]
    simp only [List.mem_append, List.mem_singleton, not_or] at hc
    exact going_step (ih hc.1) a (Ne.symm hc.2)

/-- Without a loop nothing is made until one is spawned. -/
theorem ended_run {s : CompClient} (h : s.place = .ended) (acts : List CompClientAct) (hc : .start ∉ acts) :
    (s.run acts).place = .ended ∧ (s.run acts).log = s.log ∧ (s.run acts).compOpen = s.compOpen := by
  induction acts using List.reverseRecOn with
  | nil => exact ⟨h, rfl, rfl⟩
  | append_singleton acts a ih =>
    rw [run_snoc]
    simp only [List.mem_append, List.mem_singleton, not_or] at hc
    obtain ⟨i1, i2, i3⟩ := ih hc.1
    have hn : a ≠ .start := Ne.symm hc.2
    cases a <;>
      simp_all [step, connect, refuse, wake, make, raise, interrupt, receive, notice, runnerClosed, clientClosed, cancelPlace]

/-- The runner is open as long as its client. -/
def Loyal (s : CompClient) : Prop :=
  s.compOpen = true ∧ s.place ≠ .closingRunner .fail ∧ s.place ≠ .closingClient .fail ∧
    (s.place = .created ∨ s.place = .running → s.clientOpen = true → s.runnerOpen = true)

theorem loyal_step {s : CompClient} (h : Loyal s) (a : CompClientAct) (h1 : a ≠ .raise)
    (h2 : a = .runnerCloses → s.clientOpen = false) : Loyal (s.step a) := by
  obtain ⟨place, cancelled, compOpen, next, clientOpen, runnerOpen, log⟩ := s
  unfold Loyal at *
  cases a <;> cases place <;> cases compOpen <;> cases clientOpen <;> cases runnerOpen <;>
    simp_all [step, start, connect, refuse, wake, make, interrupt, receive, notice, runnerClosed, clientClosed, cancelPlace] <;>
    (rename_i nx; cases nx <;> simp_all [afterClient])

theorem loyal_run (acts : List CompClientAct) (h1 : .raise ∉ acts)
    (h2 : ∀ a b, acts = a ++ .runnerCloses :: b → (run {} a).clientOpen = false) : Loyal (run {} acts) := by
  induction acts using List.reverseRecOn with
  | nil => simp [Loyal, run]
  | append_singleton acts a ih =>
    rw [run_snoc]
    simp only [List.mem_append, List.mem_singleton, not_or] at h1
    refine loyal_step (ih h1.1 fun a' b e => h2 a' (b ++ [a]) (by rw [e]; simp)) a (Ne.symm h1.2) ?_
    rintro rfl
    exact h2 acts [] rfl

end CompClient
end HatEvent
