import Verif.Props.Component
import Verif.Proof.Schedule
import Verif.Proof.Forever

/-!
# The component gets to the active server (C92)

The schedules of these theorems do not end.  From some time on there is no new monitor state and the runner is not closed.
-/

namespace HatEvent
open Spec

namespace Comp

/-- What is left to do with the queue. -/
def left (s : Comp) : Nat :=
  match s.queue, s.loop with
  | some (_ :: _), .idle => 1
  | some (_ :: _), .ended => 0
  | some (_ :: _), _ => 2
  | _, .switching _ _ => 1
  | _, _ => 0

/-- What is left to do. -/
def toDo (s : Comp) : Nat := 4 * s.pending.length + (if s.putting.isSome then 3 else 0) + s.left

/-- Nothing but connection attempts. -/
structure Same (s s' : Comp) : Prop where
  pending : s'.pending = s.pending
  putting : s'.putting = s.putting
  queue : s'.queue = s.queue
  loop : s'.loop = s.loop
  current : s'.current = s.current
  capacity : s'.capacity = s.capacity
  serverGroup : s'.serverGroup = s.serverGroup
  clientToken : s'.clientToken = s.clientToken

theorem Same.refl (s : Comp) : Same s s := ⟨rfl, rfl, rfl, rfl, rfl, rfl, rfl, rfl⟩

theorem Same.trans {a b c : Comp} (h : Same a b) (h' : Same b c) : Same a c :=
  ⟨h'.1.trans h.1, h'.2.trans h.2, h'.3.trans h.3, h'.4.trans h.4, h'.5.trans h.5, h'.6.trans h.6, h'.7.trans h.7,
    h'.8.trans h.8⟩

theorem Same.toDo {a b : Comp} (h : Same a b) : b.toDo = a.toDo := by
  unfold Comp.toDo left
  rw [h.pending, h.putting, h.queue, h.loop]

/-- The next thing to do. -/
def next (s : Comp) : CompAct :=
  match s.queue, s.loop with
  | _, .switching _ _ => .closed
  | some (_ :: _), _ => .get
  | _, _ => if s.putting.isSome then .put else .onState

theorem Same.next {a b : Comp} (h : Same a b) : b.next = a.next := by
  unfold Comp.next
  rw [h.putting, h.queue, h.loop]

/-- The loop runs. -/
structure Runs (s : Comp) : Prop where
  loop : s.loop ≠ .ended
  queue : s.queue ≠ none

theorem left_le (s : Comp) : s.left ≤ 2 := by
  unfold left
  split <;> omega

theorem left_enter (s : Comp) (d : Option ServerData) (h : s.queue ≠ none) :
    (s.enter d).left = (match s.queue with | some (_ :: _) => 1 | _ => 0) := by
  unfold enter
  split
  · unfold left
    simp only
    split <;> simp_all
  · split
    · next hq => unfold left; rw [hq]
    · unfold left
      simp only
      split <;> simp_all

theorem enter_keeps (s : Comp) (d : Option ServerData) : (s.enter d).pending = s.pending ∧ (s.enter d).putting = s.putting ∧
    (s.enter d).queue = s.queue ∧ (s.enter d).loop ≠ .ended ∧ (s.enter d).state = s.state ∧ (s.enter d).connects = s.connects := by
  unfold enter
  split
  · exact ⟨rfl, rfl, rfl, nofun, rfl, rfl⟩
  · split <;> exact ⟨rfl, rfl, rfl, nofun, rfl, rfl⟩

/-- Other actions do not connect. -/
theorem connects_step (s : Comp) (a : CompAct) (ha : a ≠ .connect) : (s.step a).connects = s.connects := by
  cases a with
  | state st => rfl
  | connect => exact absurd rfl ha
  | closeRunner => rfl
  | onState =>
    simp only [Comp.step, Comp.onState]
    split
    · rfl
    · split
      · rfl
      · split
        · rfl
        · unfold Comp.follow
          split
          · unfold Comp.offer
            split
            · rfl
            · split <;> rfl
          · rfl
  | put =>
    simp only [Comp.step, Comp.put]
    split
    · split <;> rfl
    · rfl
  | createRunner => simp only [Comp.step, Comp.createRunner]; split <;> rfl
  | get =>
    simp only [Comp.step, Comp.get]
    split
    · rfl
    · rfl
    · split
      · exact (Comp.enter_keeps _ _).2.2.2.2.2
      · rfl
      · rfl
  | closed =>
    simp only [Comp.step, Comp.closed]
    split
    · exact (Comp.enter_keeps _ _).2.2.2.2.2
    · rfl

/-- The other actions. -/
theorem runs_step {s : Comp} (a : CompAct) (h : Runs s) (h1 : ∀ st, a ≠ .state st) (h2 : a ≠ .closeRunner) :
    Runs (s.step a) ∧ (s.step a).state = s.state ∧ (Same s (s.step a) ∨ (s.step a).toDo < s.toDo) := by
  cases a with
  | state st => exact absurd rfl (h1 st)
  | closeRunner => exact absurd rfl h2
  | onState =>
    simp only [step, onState]
    split
    · exact ⟨h, rfl, .inl (.refl s)⟩
    · next hput =>
    split
    · exact ⟨h, rfl, .inl (.refl s)⟩
    · next state rest hp =>
      have hput : s.putting = none := by simpa using hput
      split
      · next hq => exact absurd hq h.queue
      · next items hq =>
        have hq : s.queue = some items := hq
        have hlen : s.pending.length = rest.length + 1 := by rw [hp]; rfl
        unfold follow
        split
        · unfold offer
          split
          · next he => exact absurd he h.loop
          · split
            · refine ⟨⟨h.loop, h.queue⟩, rfl, .inr ?_⟩
              show 4 * rest.length + 3 + s.left < s.toDo
              unfold toDo
              rw [hput, hlen]
              simp
              omega
            · refine ⟨⟨h.loop, by simp⟩, rfl, .inr ?_⟩
              unfold toDo
              show 4 * rest.length + (if s.putting.isSome then 3 else 0) + left _ < _
              rw [hput, hlen]
              have h' : ∀ x : Nat, x ≤ 2 → 4 * rest.length + (if (none : Option (Option ServerData)).isSome then 3 else 0) + x <
                  4 * (rest.length + 1) + (if (none : Option (Option ServerData)).isSome then 3 else 0) + s.left := by
                intro x hx; simp; omega
              exact h' _ (left_le _)
        · refine ⟨⟨h.loop, h.queue⟩, rfl, .inr ?_⟩
          show 4 * rest.length + (if s.putting.isSome then 3 else 0) + s.left < s.toDo
          unfold toDo
          rw [hlen]
          omega
  | put =>
    simp only [step, put]
    split
    · next d items hp hq =>
      split
      · exact ⟨h, rfl, .inl (.refl s)⟩
      · refine ⟨⟨h.loop, by simp⟩, rfl, .inr ?_⟩
        have := left_le { s with queue := some (items ++ [d]), putting := none }
        unfold toDo
        rw [hp]
        show 4 * s.pending.length + 0 + left _ < 4 * s.pending.length + 3 + s.left
        omega
    · exact ⟨h, rfl, .inl (.refl s)⟩
  | createRunner =>
    simp only [step, createRunner]
    split
    · next he => exact absurd he h.loop
    · exact ⟨h, rfl, .inl (.refl s)⟩
  | get =>
    simp only [step, get]
    split
    · exact ⟨h, rfl, .inl (.refl s)⟩
    · exact ⟨h, rfl, .inl (.refl s)⟩
    · next x items hq =>
      split
      · next hl =>
        obtain ⟨a1, a2, a3, a4, a5, a6⟩ := enter_keeps { s with queue := some [] } ((x :: items).getLast (by simp))
        refine ⟨⟨a4, by rw [a3]; simp⟩, a5, .inr ?_⟩
        have e := left_enter { s with queue := some [] } ((x :: items).getLast (by simp)) (by simp)
        unfold toDo
        rw [a1, a2, e]
        show _ + 0 < _ + s.left
        have : s.left = 1 := by unfold left; rw [hq, hl]
        rw [this]
        exact Nat.lt_succ_self _
      · next hl =>
        refine ⟨⟨nofun, by simp⟩, rfl, .inr ?_⟩
        unfold toDo
        show _ + 1 < _ + s.left
        have : s.left = 2 := by unfold left; rw [hq, hl]
        rw [this]
        exact Nat.lt_succ_self _
      · exact ⟨h, rfl, .inl (.refl s)⟩
  | closed =>
    simp only [step, closed]
    split
    · next old n hl =>
      obtain ⟨a1, a2, a3, a4, a5, a6⟩ := enter_keeps s n
      refine ⟨⟨a4, by rw [a3]; exact h.queue⟩, a5, .inr ?_⟩
      have e := left_enter s n h.queue
      unfold toDo
      rw [a1, a2, e]
      have : (match s.queue with | some (_ :: _) => 1 | _ => 0) < s.left := by
        unfold left
        rw [hl]
        cases s.queue with
        | none => exact Nat.one_pos
        | some q => cases q <;> simp
      omega
    · exact ⟨h, rfl, .inl (.refl s)⟩
  | connect =>
    simp only [step, connect]
    split
    · exact ⟨⟨h.loop, h.queue⟩, rfl, .inl ⟨rfl, rfl, rfl, rfl, rfl, rfl, rfl, rfl⟩⟩
    · exact ⟨h, rfl, .inl (.refl s)⟩

/-- The next thing to do brings the end nearer. -/
theorem next_step {s : Comp} (h : Runs s) (h0 : s.toDo ≠ 0) : (s.step s.next).toDo < s.toDo := by
  have key : ∀ a, a = s.next → (∀ st, a ≠ .state st) → a ≠ .closeRunner → ¬ Same s (s.step a) → (s.step a).toDo < s.toDo :=
    fun a _ h1 h2 h3 => ((runs_step a h h1 h2).2.2.resolve_left h3)
  obtain ⟨q, hq⟩ := Option.ne_none_iff_exists'.1 h.queue
  by_cases hsw : ∃ o n, s.loop = .switching o n
  · obtain ⟨o, n, hl⟩ := hsw
    have hn : s.next = .closed := by unfold next; rw [hl]
    rw [hn]
    refine key _ hn.symm nofun nofun fun hs => ?_
    have := hs.loop
    rw [hl] at this
    simp only [step, closed, hl] at this
    unfold enter at this
    split at this
    · cases this
    · split at this <;> cases this
  · have hl : s.loop = .idle ∨ ∃ d, s.loop = .serving d := by
      cases hx : s.loop with
      | idle => exact .inl rfl
      | serving d => exact .inr ⟨d, rfl⟩
      | switching o n => exact absurd ⟨o, n, hx⟩ hsw
      | ended => exact absurd hx h.loop
    cases q with
    | cons x q =>
      have hn : s.next = .get := by
        unfold next; rw [hq]
        rcases hl with hl | ⟨d, hl⟩ <;> rw [hl]
      rw [hn]
      refine key _ hn.symm nofun nofun fun hs => ?_
      have := hs.queue
      rw [hq] at this
      rcases hl with hl | ⟨d, hl⟩
      · simp only [step, get, hq, hl] at this
        rw [(enter_keeps _ _).2.2.1] at this
        cases this
      · simp only [step, get, hq, hl] at this
        cases this
    | nil =>
      have hz : s.left = 0 := by
        unfold left; rw [hq]
        rcases hl with hl | ⟨d, hl⟩ <;> rw [hl]
      cases hp : s.putting with
      | some d =>
        have hn : s.next = .put := by
          unfold next; rw [hq, hp]
          rcases hl with hl | ⟨d, hl⟩ <;> rw [hl] <;> rfl
        rw [hn]
        refine key _ hn.symm nofun nofun fun hs => ?_
        have := hs.putting
        have hf : ¬ s.full [] := by
          rintro ⟨x, y⟩
          simp at y
          omega
        simp only [step, put, hp, hq, if_neg hf] at this
        cases this
      | none =>
        have hn : s.next = .onState := by
          unfold next; rw [hq, hp]
          rcases hl with hl | ⟨d, hl⟩ <;> rw [hl] <;> rfl
        cases hpen : s.pending with
        | nil => simp [toDo, hpen, hp, hz] at h0
        | cons st rest =>
          rw [hn]
          refine key _ hn.symm nofun nofun fun hs => ?_
          have := hs.pending
          have e : (s.step .onState).pending = rest := by
            simp only [step, onState, hp, hpen, hq]
            unfold follow
            simp only [Option.isSome_none, Bool.false_eq_true, if_false]
            split
            · unfold offer
              split
              · rfl
              · split <;> rfl
            · rfl
          rw [e, hpen] at this
          exact absurd (congrArg List.length this) (by simp)

theorem toDo_zero {s : Comp} (h : Runs s) (h0 : s.toDo = 0) : CompSettled s := by
  unfold toDo at h0
  have h1 : s.pending = [] := List.length_eq_zero_iff.1 (by omega)
  have h2 : s.putting = none := by
    cases hp : s.putting with
    | none => rfl
    | some d => rw [hp] at h0; simp at h0
  have h3 : s.left = 0 := by omega
  obtain ⟨q, hq⟩ := Option.ne_none_iff_exists'.1 h.queue
  have hloop := h.loop
  unfold left at h3
  rw [hq] at h3
  refine ⟨h1, h2, ?_, ?_⟩
  · cases q with
    | nil => exact hq
    | cons x q => cases hl : s.loop <;> simp [hl] at h3 hloop
  · cases hl : s.loop with
    | idle => exact .inl rfl
    | serving d => exact .inr ⟨d, rfl⟩
    | ended => exact absurd hl hloop
    | switching o n => cases q <;> simp [hl] at h3

end Comp

/-- A schedule that goes on: from some time on there is no new monitor state and the runner, which exists, is not closed;
all waiting ends again and again. -/
structure CompGoesOn (serverGroup : String) (clientToken : Option String) (capacity : Nat) (acts : Nat → CompAct) (start : Nat) :
    Prop where
  noState : ∀ n, start ≤ n → ∀ state, acts n ≠ .state state
  noClose : ∀ n, start ≤ n → acts n ≠ .closeRunner
  runner : ((Comp.init serverGroup clientToken capacity).run (upTo acts start)).loop ≠ .ended
  onState : Often acts .onState
  put : Often acts .put
  get : Often acts .get
  closed : Often acts .closed
  connect : Often acts .connect

section
variable {serverGroup : String} {clientToken : Option String} {capacity : Nat} {acts : Nat → CompAct} {start : Nat}

theorem CompGoesOn.runs (h : CompGoesOn serverGroup clientToken capacity acts start) {n : Nat} (hn : start ≤ n) :
    Comp.Runs ((Comp.init serverGroup clientToken capacity).run (upTo acts n)) ∧
      ((Comp.init serverGroup clientToken capacity).run (upTo acts n)).state =
        ((Comp.init serverGroup clientToken capacity).run (upTo acts start)).state := by
  induction n, hn using Nat.le_induction with
  | base => exact ⟨⟨h.runner, fun hq => h.runner ((Comp.ok_run _ _ _ _).none hq)⟩, rfl⟩
  | succ n hn ih =>
    rw [upTo_succ, Comp.run_snoc]
    have := Comp.runs_step (acts n) ih.1 (h.noState n hn) (h.noClose n hn)
    exact ⟨this.1, this.2.1.trans ih.2⟩

theorem CompGoesOn.settles (h : CompGoesOn serverGroup clientToken capacity acts start) :
    ∃ m, start ≤ m ∧ ((Comp.init serverGroup clientToken capacity).run (upTo acts m)).toDo = 0 := by
  refine settle_measure (acts := acts) (s := fun n => (Comp.init serverGroup clientToken capacity).run (upTo acts n))
    (f := Comp.toDo) (same := Comp.Same) (helps := fun a s => a = s.next ∧ s.toDo ≠ 0) Comp.Same.refl
    (fun _ _ _ => Comp.Same.trans) (fun _ _ h => h.toDo) ?_ ?_ ?_ ?_
  · intro n hn
    show Comp.Same _ ((Comp.init _ _ _).run (upTo acts (n + 1))) ∨ ((Comp.init _ _ _).run (upTo acts (n + 1))).toDo < _
    rw [upTo_succ, Comp.run_snoc]
    exact (Comp.runs_step (acts n) (h.runs hn).1 (h.noState n hn) (h.noClose n hn)).2.2
  · rintro a x y hs ⟨rfl, h0⟩
    exact ⟨hs.next.symm, by rw [hs.toDo]; exact h0⟩
  · rintro n hn ⟨ha, h0⟩
    show ((Comp.init _ _ _).run (upTo acts (n + 1))).toDo < _
    rw [upTo_succ, Comp.run_snoc, ha]
    exact Comp.next_step (h.runs hn).1 h0
  · intro n hn h0
    refine ⟨_, ⟨rfl, h0⟩, ?_⟩
    unfold Comp.next
    split
    · exact h.closed
    · exact h.get
    · split
      · exact h.put
      · exact h.onState

theorem CompGoesOn.stays (h : CompGoesOn serverGroup clientToken capacity acts start) {m : Nat} (hm : start ≤ m)
    (h0 : ((Comp.init serverGroup clientToken capacity).run (upTo acts m)).toDo = 0) {n : Nat} (hn : m ≤ n) :
    Comp.Same ((Comp.init serverGroup clientToken capacity).run (upTo acts m))
      ((Comp.init serverGroup clientToken capacity).run (upTo acts n)) := by
  induction n, hn using Nat.le_induction with
  | base => exact .refl _
  | succ n hn ih =>
    rw [upTo_succ, Comp.run_snoc]
    have := (Comp.runs_step (acts n) (h.runs (hm.trans hn)).1 (h.noState n (hm.trans hn)) (h.noClose n (hm.trans hn))).2.2
    rcases this with h' | h'
    · exact ih.trans h'
    · rw [ih.toDo, h0] at h'
      exact absurd h' (Nat.not_lt_zero _)

end

/-- **C92** If the monitor state does not change any more and it has an active server, the component gets to this server: from some time on it
connects to it only, and again and again. -/
theorem C92_connects (serverGroup : String) (clientToken : Option String) (capacity : Nat) (acts : Nat → CompAct) (start : Nat)
    (h : CompGoesOn serverGroup clientToken capacity acts start) (d : ServerData)
    (hd : ActiveIn serverGroup clientToken ((Comp.init serverGroup clientToken capacity).run (upTo acts start)).state d) :
    ∃ m, start ≤ m ∧
      (∀ n, m ≤ n → ((Comp.init serverGroup clientToken capacity).run (upTo acts n)).loop = .serving d ∧
        ∃ k, ((Comp.init serverGroup clientToken capacity).run (upTo acts n)).connects =
          ((Comp.init serverGroup clientToken capacity).run (upTo acts m)).connects ++ List.replicate k d) ∧
      ∀ k, ∃ n, m ≤ n ∧ ((Comp.init serverGroup clientToken capacity).run (upTo acts n)).connects =
          ((Comp.init serverGroup clientToken capacity).run (upTo acts m)).connects ++ List.replicate k d := by
  obtain ⟨m, hm, h0⟩ := h.settles
  have hset := Comp.toDo_zero (h.runs hm).1 h0
  have hserve : ((Comp.init serverGroup clientToken capacity).run (upTo acts m)).loop = .serving d := by
    rw [C52_follows _ _ _ _ hset, (h.runs hm).2]
    exact hd
  have hs : ∀ n, m ≤ n → ((Comp.init serverGroup clientToken capacity).run (upTo acts n)).loop = .serving d :=
    fun n hn => (h.stays hm h0 hn).loop.trans hserve
  have hstep : ∀ n, m ≤ n → ((Comp.init serverGroup clientToken capacity).run (upTo acts (n + 1))).connects =
      ((Comp.init serverGroup clientToken capacity).run (upTo acts n)).connects ++
        List.replicate (match acts n with | .connect => 1 | _ => 0) d := by
    intro n hn
    have hl := hs n hn
    have hl' := (h.stays hm h0 (Nat.le_succ_of_le hn))
    rw [upTo_succ, Comp.run_snoc]
    generalize (Comp.init serverGroup clientToken capacity).run (upTo acts n) = s at hl
    have hc := Comp.connects_step s
    by_cases ha : acts n = .connect
    · rw [ha]
      simp [Comp.step, Comp.connect, hl]
    · rw [hc _ ha]
      cases hx : acts n <;> simp [hx] at ha ⊢
  have hall : ∀ n, m ≤ n → ∃ k, ((Comp.init serverGroup clientToken capacity).run (upTo acts n)).connects =
      ((Comp.init serverGroup clientToken capacity).run (upTo acts m)).connects ++ List.replicate k d := by
    intro n hn
    induction n, hn using Nat.le_induction with
    | base => exact ⟨0, by simp⟩
    | succ n hn ih =>
      obtain ⟨k, ih⟩ := ih
      exact ⟨_, by rw [hstep n hn, ih, List.append_assoc, List.replicate_append_replicate]⟩
  refine ⟨m, hm, fun n hn => ⟨hs n hn, hall n hn⟩, ?_⟩
  intro k
  induction k with
  | zero => exact ⟨m, Nat.le_refl _, by simp⟩
  | succ k ih =>
    obtain ⟨n, hn, e⟩ := ih
    have more : ∀ j, n ≤ j → ((Comp.init serverGroup clientToken capacity).run (upTo acts j)).connects =
        ((Comp.init serverGroup clientToken capacity).run (upTo acts m)).connects ++ List.replicate k d ∨
        ∃ i, m ≤ i ∧ ((Comp.init serverGroup clientToken capacity).run (upTo acts i)).connects =
          ((Comp.init serverGroup clientToken capacity).run (upTo acts m)).connects ++ List.replicate (k + 1) d := by
      intro j hj
      induction j, hj using Nat.le_induction with
      | base => exact .inl e
      | succ j hj ih =>
        rcases ih with ih | ih
        · have := hstep j (hn.trans hj)
          rw [ih, List.append_assoc, List.replicate_append_replicate] at this
          split at this
          · exact .inr ⟨j + 1, by omega, this⟩
          · exact .inl this
        · exact .inr ih
    obtain ⟨j, hj, ha⟩ := h.connect n
    rcases more j hj with e' | e'
    · refine ⟨j + 1, by omega, ?_⟩
      rw [hstep j (by omega), e', ha, List.append_assoc, List.replicate_append_replicate]
    · exact e'

/-- **C92** If there is no active server, the component stops connecting. -/
theorem C92_stops (serverGroup : String) (clientToken : Option String) (capacity : Nat) (acts : Nat → CompAct) (start : Nat)
    (h : CompGoesOn serverGroup clientToken capacity acts start)
    (hd : ∀ d, ¬ ActiveIn serverGroup clientToken ((Comp.init serverGroup clientToken capacity).run (upTo acts start)).state d) :
    ∃ m, start ≤ m ∧ ∀ n, m ≤ n → ((Comp.init serverGroup clientToken capacity).run (upTo acts n)).loop = .idle ∧
      ((Comp.init serverGroup clientToken capacity).run (upTo acts n)).connects =
        ((Comp.init serverGroup clientToken capacity).run (upTo acts m)).connects := by
  obtain ⟨m, hm, h0⟩ := h.settles
  have hset := Comp.toDo_zero (h.runs hm).1 h0
  have hidle : ((Comp.init serverGroup clientToken capacity).run (upTo acts m)).loop = .idle := by
    rcases hset.2.2.2 with hl | ⟨d, hl⟩
    · exact hl
    · have := (C52_follows _ _ _ _ hset d).1 hl
      rw [(h.runs hm).2] at this
      exact absurd this (hd d)
  refine ⟨m, hm, fun n hn => ?_⟩
  induction n, hn using Nat.le_induction with
  | base => exact ⟨hidle, rfl⟩
  | succ n hn ih =>
    have hsame := h.stays hm h0 (Nat.le_succ_of_le hn)
    refine ⟨hsame.loop.trans hidle, ?_⟩
    rw [← ih.2]
    rw [upTo_succ, Comp.run_snoc]
    by_cases ha : acts n = .connect
    · rw [ha]
      simp [Comp.step, Comp.connect, ih.1]
    · exact Comp.connects_step _ _ ha

/-- The active server changes from 1 to 2 and is lost while the queue, which has one place, is full; then the monitor state stays. -/
def exCompLive (active : Bool) : List CompAct :=
  exCompFull ++ [.state ⟨none, [exInfo 1 false, exInfo 2 active]⟩]

/-- Everything that waits goes on. -/
def exCompCycle : List CompAct := [.connect, .onState, .closed, .put, .get]

theorem exCompCycle_ne : exCompCycle ≠ [] := List.cons_ne_nil _ _

theorem exCompGoesOn (active : Bool) :
    CompGoesOn "group" none 1 (exForever (exCompLive active) exCompCycle exCompCycle_ne) 10 := by
  have hlen : (exCompLive active).length = 10 := rfl
  have hafter : ∀ n, 10 ≤ n → exForever (exCompLive active) exCompCycle exCompCycle_ne n ∈ exCompCycle := by
    intro n hn
    obtain ⟨k, rfl⟩ := Nat.exists_eq_add_of_le hn
    exact exForever_after (pre := exCompLive active) k
  refine ⟨?_, ?_, ?_, exForever_often ?_, exForever_often ?_, exForever_often ?_, exForever_often ?_, exForever_often ?_⟩
  · intro n hn st e
    have := hafter n hn
    rw [e] at this
    simp [exCompCycle] at this
  · intro n hn e
    have := hafter n hn
    rw [e] at this
    simp [exCompCycle] at this
  · rw [← hlen, exForever_upTo (Nat.le_refl _), List.take_length]
    cases active <;> exact nofun
  all_goals simp [exCompCycle]

example : ActiveIn "group" none ((Comp.init "group" none 1).run (exCompLive true)).state (exServerData 2) ∧
    ((Comp.init "group" none 1).run (exCompLive true)).putting = some none :=
  ⟨activeServerData_iff.1 rfl, rfl⟩

example : ∀ d, ¬ ActiveIn "group" none ((Comp.init "group" none 1).run (exCompLive false)).state d := by
  intro d hd
  have h := activeServerData_iff.2 hd
  have h' : activeServerData "group" none ((Comp.init "group" none 1).run (exCompLive false)).state = none := rfl
  rw [h'] at h
  cases h

end HatEvent
