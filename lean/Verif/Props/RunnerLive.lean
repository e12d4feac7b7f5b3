import Verif.Props.Runner
import Verif.Proof.Schedule
import Verif.Proof.Forever

/-!
# The server becomes operational (C93)

The schedules of these theorems do not end.
-/

namespace HatEvent
open Spec

namespace Runners

/-- What is left to do until the engine runs. -/
def left (restart : Bool) : EngineAt → Nat
  | .running => if restart then 8 else 0
  | .operational => if restart then 9 else 1
  | .creating => if restart then 10 else 2
  | .starting => if restart then 11 else 3
  | .spawned => 4
  | .waiting => 4
  | .closing .standby _ => 4
  | .closing .flush _ => 5
  | .closing .engine _ => 6
  | .closing .stopping _ => 7
  | .ended => 0

/-- The next action. -/
def next : EngineAt → RunnerAct
  | .spawned => .start
  | .waiting => .wake
  | _ => .done

/-- The engine runner was not stopped. -/
structure Alive (s : Runners) : Prop where
  notEnded : s.at_ ≠ .ended
  notLast : ∀ stage, s.at_ ≠ .closing stage true
  engine : s.at_ = .operational ∨ s.at_ = .running → s.engine = some true

/-- Nothing stops the engine runner. -/
def Harmless (a : RunnerAct) : Prop := a ≠ .raise_ ∧ a ≠ .cancel ∧ a ≠ .engineCloses

theorem alive_check {s : Runners} : Alive s.check := by
  unfold check
  split
  · exact ⟨nofun, nofun, by rintro (h | h) <;> cases h⟩
  · exact ⟨nofun, nofun, by rintro (h | h) <;> cases h⟩

theorem alive_step {s : Runners} (h : Alive s) (a : RunnerAct) (ha : Harmless a) : Alive (s.step a) := by
  cases a with
  | raise_ => exact absurd rfl ha.1
  | cancel => exact absurd rfl ha.2.1
  | engineCloses => exact absurd rfl ha.2.2
  | client a => exact ⟨h.notEnded, h.notLast, h.engine⟩
  | restart => exact ⟨h.notEnded, h.notLast, h.engine⟩
  | start => simp only [step]; split; exacts [alive_check, h]
  | wake => simp only [step]; split; exacts [alive_check, h]
  | done =>
    simp only [step, done]
    split
    · exact ⟨nofun, nofun, by rintro (h | h) <;> cases h⟩
    · exact ⟨nofun, nofun, fun _ => rfl⟩
    · next e => exact ⟨nofun, nofun, fun _ => h.engine (.inl e)⟩
    · next e =>
      unfold notice
      rw [if_pos (h.engine (.inr e))]
      split
      · exact ⟨nofun, nofun, by rintro (h | h) <;> cases h⟩
      · exact h
    · next last e =>
      cases last
      · exact ⟨nofun, (fun stage hs => by injection hs with _ h2; cases h2), by rintro (h | h) <;> cases h⟩
      · exact absurd e (h.notLast _)
    · next last e =>
      cases last
      · exact ⟨nofun, nofun, by rintro (h | h) <;> cases h⟩
      · exact absurd e (h.notLast _)
    · next last e =>
      cases last
      · exact ⟨nofun, nofun, by rintro (h | h) <;> cases h⟩
      · exact absurd e (h.notLast _)
    · next e => exact absurd e (h.notLast _)
    · exact alive_check
    · exact h

theorem check_free {s : Runners} (h : s.clients.remoteActive = false) : s.check.at_ = .starting ∧ s.check.restart = false := by
  unfold check
  rw [h]
  exact ⟨rfl, rfl⟩

/-- How the engine runner goes on when no other server is active. -/
theorem goes_step {s : Runners} (h : Alive s) (hr : s.clients.remoteActive = false) (a : RunnerAct) (ha : Harmless a) :
    ((s.step a).at_ = s.at_ ∧ ((s.step a).restart = s.restart ∨ a = .restart)) ∨
      (s.at_ ≠ .running ∧ left false (s.step a).at_ < left false s.at_ ∧ left (s.step a).restart (s.step a).at_ < left s.restart s.at_) ∨
      (s.at_ = .running ∧ s.restart = true ∧ left (s.step a).restart (s.step a).at_ < left s.restart s.at_) := by
  obtain ⟨c1, c2⟩ := check_free hr
  cases a with
  | raise_ => exact absurd rfl ha.1
  | cancel => exact absurd rfl ha.2.1
  | engineCloses => exact absurd rfl ha.2.2
  | client a => exact .inl ⟨rfl, .inl rfl⟩
  | restart => exact .inl ⟨rfl, .inr rfl⟩
  | start =>
    simp only [step]
    split
    · next e => exact .inr (.inl ⟨by rw [e]; nofun, by rw [c1, e]; decide, by rw [c1, c2, e]; cases s.restart <;> decide⟩)
    · exact .inl ⟨rfl, .inl rfl⟩
  | wake =>
    simp only [step]
    split
    · next e => exact .inr (.inl ⟨by rw [e.1]; nofun, by rw [c1, e.1]; decide, by rw [c1, c2, e.1]; cases s.restart <;> decide⟩)
    · exact .inl ⟨rfl, .inl rfl⟩
  | done =>
    simp only [step, done]
    split
    · next e =>
      refine .inr (.inl ⟨by rw [e]; nofun, ?_, ?_⟩)
      · rw [e]; show left false .creating < _; decide
      · rw [e]; show left s.restart .creating < _; cases s.restart <;> decide
    · next e =>
      refine .inr (.inl ⟨by rw [e]; nofun, ?_, ?_⟩)
      · rw [e]; show left false .operational < _; decide
      · rw [e]; show left s.restart .operational < _; cases s.restart <;> decide
    · next e =>
      refine .inr (.inl ⟨by rw [e]; nofun, ?_, ?_⟩)
      · rw [e]; show left false .running < _; decide
      · rw [e]; show left s.restart .running < _; cases s.restart <;> decide
    · next e =>
      unfold notice
      rw [if_pos (h.engine (.inr e))]
      split
      · next hx =>
        refine .inr (.inr ⟨e, hx, ?_⟩)
        rw [e, hx]
        show 7 < 8
        decide
      · exact .inl ⟨rfl, .inl rfl⟩
    · next last e =>
      refine .inr (.inl ⟨by rw [e]; nofun, ?_, ?_⟩)
      · rw [e]; show left false (.closing _ _) < 7; split; exacts [(by decide : 6 < 7), (by decide : 5 < 7)]
      · rw [e]; show left _ (.closing _ _) < 7; split; exacts [(by decide : 6 < 7), (by decide : 5 < 7)]
    · next last e =>
      refine .inr (.inl ⟨by rw [e]; nofun, ?_, ?_⟩)
      · rw [e]; exact (by decide : 5 < 6)
      · rw [e]; exact (by decide : 5 < 6)
    · next last e =>
      refine .inr (.inl ⟨by rw [e]; nofun, ?_, ?_⟩)
      · rw [e]; exact (by decide : 4 < 5)
      · rw [e]; exact (by decide : 4 < 5)
    · next e => exact absurd e (h.notLast _)
    · next e => exact .inr (.inl ⟨by rw [e]; nofun, by rw [c1, e]; decide, by rw [c1, c2, e]; exact (by decide : 3 < 4)⟩)
    · exact .inl ⟨rfl, .inl rfl⟩

/-- The next action has an effect. -/
theorem next_step {s : Runners} (hg : Good s) (h : Alive s) (hr : s.clients.remoteActive = false)
    (hn : s.at_ = .running → s.restart = true) : (s.step (next s.at_)).at_ ≠ s.at_ := by
  obtain ⟨c1, c2⟩ := check_free hr
  cases e : s.at_ with
  | spawned =>
    show (s.step .start).at_ ≠ _
    simp only [step, if_pos e]
    rw [c1]; nofun
  | waiting =>
    have hw : s.clients.waiter = some true := by
      obtain ⟨w1, w2⟩ := hg.wait e
      cases hw : s.clients.waiter with
      | none => exact absurd hw w1
      | some b =>
        cases b
        · rw [w2 hw] at hr; cases hr
        · rfl
    show (s.step .wake).at_ ≠ _
    simp only [step]
    rw [if_pos ⟨e, hw⟩, c1]; nofun
  | starting => show (s.done).at_ ≠ _; unfold done; rw [e]; nofun
  | creating => show (s.done).at_ ≠ _; unfold done; rw [e]; nofun
  | operational => show (s.done).at_ ≠ _; unfold done; rw [e]; nofun
  | running =>
    show (s.done).at_ ≠ _
    unfold done
    rw [e]
    show s.notice.at_ ≠ _
    unfold notice
    rw [if_pos (h.engine (.inr e)), if_pos (hn e)]
    nofun
  | ended => exact absurd e h.notEnded
  | closing stage last =>
    show (s.done).at_ ≠ _
    unfold done
    rw [e]
    cases last with
    | true => exact absurd e (h.notLast _)
    | false =>
      cases stage with
      | stopping => simp only; split <;> simp
      | engine => simp
      | flush => simp [announce]
      | standby => show s.check.at_ ≠ _; rw [c1]; nofun

/-- What is left to do until the engine runner ends. -/
def leftLast : EngineAt → Nat
  | .closing .stopping _ => 4
  | .closing .engine _ => 3
  | .closing .flush _ => 2
  | .closing .standby _ => 1
  | .running => 5
  | .operational => 6
  | _ => 0

/-- The engine runner is in the last `_close` or has ended, or its engine is closed. -/
structure Stops (s : Runners) : Prop where
  at_ : s.at_ = .ended ∨ (∃ stage, s.at_ = .closing stage true) ∨
    s.engine = some false ∧ (s.at_ = .operational ∨ s.at_ = .running)
  said : s.at_ = .ended → s.lastStatus = .standby

theorem stops_cancel {s : Runners} (hg : Good s) (h : s.at_ ≠ .ended) : Stops (s.step .cancel) := by
  have hsaid := hg.said
  have hclose : Stops (s.close true) := ⟨.inr (.inl ⟨_, rfl⟩), nofun⟩
  simp only [step, abort]
  split
  · next e =>
    rw [e] at hsaid
    exact ⟨.inl rfl, fun _ => hsaid⟩
  · next e => exact absurd e h
  · next stage e => exact ⟨.inr (.inl ⟨stage, e⟩), fun h' => absurd h' h⟩
  · exact hclose

theorem stops_step {s : Runners} (hg : Good s) (h : Stops s) (a : RunnerAct) (ha : a ≠ .raise_) :
    Stops (s.step a) ∧ (s.at_ = .ended → (s.step a).at_ = .ended ∧ (s.step a).statuses = s.statuses) ∧
      ((s.step a).at_ = s.at_ ∨ leftLast (s.step a).at_ < leftLast s.at_) ∧
      (a = .done → s.at_ ≠ .ended → leftLast (s.step a).at_ < leftLast s.at_) := by
  have hsaid := hg.said
  rcases h.at_ with e | ⟨stage, e⟩ | ⟨he, e⟩
  · have hend : ∀ s' : Runners, s'.at_ = .ended → s'.statuses = s.statuses → Stops s' ∧
        (s.at_ = .ended → s'.at_ = .ended ∧ s'.statuses = s.statuses) ∧ (s'.at_ = s.at_ ∨ leftLast s'.at_ < leftLast s.at_) ∧
        (a = .done → s.at_ ≠ .ended → leftLast s'.at_ < leftLast s.at_) := by
      intro s' h1 h2
      refine ⟨⟨.inl h1, fun _ => ?_⟩, fun _ => ⟨h1, h2⟩, .inl (h1.trans e.symm), fun _ h => absurd e h⟩
      unfold lastStatus
      rw [h2]
      exact h.said e
    cases a with
    | raise_ => exact absurd rfl ha
    | client a => exact hend _ e rfl
    | start =>
      have : s.step .start = s := by simp [step, e]
      rw [this]; exact hend _ e rfl
    | wake =>
      have : s.step .wake = s := by simp [step, e]
      rw [this]; exact hend _ e rfl
    | done =>
      have : s.step .done = s := by simp only [step, done, e]
      rw [this]; exact hend _ e rfl
    | engineCloses => exact hend _ e rfl
    | restart => exact hend _ e rfl
    | cancel =>
      have : s.step .cancel = s := by simp only [step, abort, e]
      rw [this]; exact hend _ e rfl
  · have hne : s.at_ ≠ .ended := by rw [e]; nofun
    have hstay : ∀ s' : Runners, s'.at_ = s.at_ → a ≠ .done → Stops s' ∧
        (s.at_ = .ended → s'.at_ = .ended ∧ s'.statuses = s.statuses) ∧ (s'.at_ = s.at_ ∨ leftLast s'.at_ < leftLast s.at_) ∧
        (a = .done → s.at_ ≠ .ended → leftLast s'.at_ < leftLast s.at_) :=
      fun s' h1 h2 => ⟨⟨.inr (.inl ⟨stage, h1.trans e⟩), fun h => absurd (h1.symm.trans h) hne⟩, fun h => absurd h hne, .inl h1,
        fun h => absurd h h2⟩
    cases a with
    | raise_ => exact absurd rfl ha
    | client a => exact hstay _ rfl nofun
    | start =>
      have : s.step .start = s := by simp [step, e]
      rw [this]; exact hstay _ rfl nofun
    | wake =>
      have : s.step .wake = s := by simp [step, e]
      rw [this]; exact hstay _ rfl nofun
    | engineCloses => exact hstay _ rfl nofun
    | restart => exact hstay _ rfl nofun
    | cancel =>
      have : s.step .cancel = s := by simp [step, abort, e]
      rw [this]; exact hstay _ rfl nofun
    | done =>
      have hgo : ∀ s' : Runners, Stops s' → leftLast s'.at_ < leftLast s.at_ → Stops s' ∧
        (s.at_ = .ended → s'.at_ = .ended ∧ s'.statuses = s.statuses) ∧ (s'.at_ = s.at_ ∨ leftLast s'.at_ < leftLast s.at_) ∧
        (RunnerAct.done = .done → s.at_ ≠ .ended → leftLast s'.at_ < leftLast s.at_) :=
        fun s' h1 h2 => ⟨h1, fun h => absurd h hne, .inr h2, fun _ _ => h2⟩
      rw [e] at hsaid
      cases stage with
      | stopping =>
        have : s.step .done = { s with at_ := .closing (if s.engine.isSome then .engine else .flush) true } := by
          simp only [step, done, e]
        rw [this]
        refine hgo _ ⟨.inr (.inl ⟨_, rfl⟩), fun h => by cases h⟩ ?_
        rw [e]
        show leftLast (.closing _ _) < 4
        split
        exacts [(by decide : 3 < 4), (by decide : 2 < 4)]
      | engine =>
        have : s.step .done = { s with at_ := .closing .flush true } := by simp only [step, done, e]
        rw [this]
        refine hgo _ ⟨.inr (.inl ⟨_, rfl⟩), fun h => by cases h⟩ ?_
        rw [e]; exact (by decide : 2 < 3)
      | flush =>
        have : s.step .done = s.announce .standby false (.closing .standby true) := by simp only [step, done, e]
        rw [this]
        refine hgo _ ⟨.inr (.inl ⟨_, rfl⟩), fun h => by cases h⟩ ?_
        rw [e]; exact (by decide : 1 < 2)
      | standby =>
        have : s.step .done = { s with at_ := .ended } := by simp only [step, done, e]
        rw [this]
        refine hgo _ ⟨.inl rfl, fun _ => hsaid⟩ ?_
        rw [e]; exact (by decide : 0 < 1)
  · have hne : s.at_ ≠ .ended := by rcases e with e | e <;> rw [e] <;> nofun
    have hstay : ∀ s' : Runners, s'.at_ = s.at_ → s'.engine = some false → a ≠ .done → Stops s' ∧
        (s.at_ = .ended → s'.at_ = .ended ∧ s'.statuses = s.statuses) ∧ (s'.at_ = s.at_ ∨ leftLast s'.at_ < leftLast s.at_) ∧
        (a = .done → s.at_ ≠ .ended → leftLast s'.at_ < leftLast s.at_) :=
      fun s' h1 h0 h2 => ⟨⟨.inr (.inr ⟨h0, by rw [h1]; exact e⟩), fun h => absurd (h1.symm.trans h) hne⟩, fun h => absurd h hne,
        .inl h1, fun h => absurd h h2⟩
    have hgo : ∀ s' : Runners, Stops s' → leftLast s'.at_ < leftLast s.at_ → Stops s' ∧
        (s.at_ = .ended → s'.at_ = .ended ∧ s'.statuses = s.statuses) ∧ (s'.at_ = s.at_ ∨ leftLast s'.at_ < leftLast s.at_) ∧
        (a = .done → s.at_ ≠ .ended → leftLast s'.at_ < leftLast s.at_) :=
      fun s' h1 h2 => ⟨h1, fun h => absurd h hne, .inr h2, fun _ _ => h2⟩
    cases a with
    | raise_ => exact absurd rfl ha
    | client a => exact hstay _ rfl he nofun
    | start =>
      have : s.step .start = s := by rcases e with e | e <;> simp [step, e]
      rw [this]; exact hstay _ rfl he nofun
    | wake =>
      have : s.step .wake = s := by rcases e with e | e <;> simp [step, e]
      rw [this]; exact hstay _ rfl he nofun
    | engineCloses => exact hstay _ rfl (by simp [step, he]) nofun
    | restart => exact hstay _ rfl he nofun
    | cancel =>
      have : s.step .cancel = s.close true := by rcases e with e | e <;> simp [step, abort, e]
      rw [this]
      refine hgo _ ⟨.inr (.inl ⟨_, rfl⟩), fun h => by cases h⟩ ?_
      rcases e with e | e <;> rw [e]
      exacts [(by decide : 4 < 6), (by decide : 4 < 5)]
    | done =>
      rcases e with e | e
      · have : s.step .done = { s with at_ := .running } := by simp only [step, done, e]
        rw [this]
        refine hgo _ ⟨.inr (.inr ⟨he, .inr rfl⟩), fun h => by cases h⟩ ?_
        rw [e]; exact (by decide : 5 < 6)
      · have : s.step .done = s.close true := by simp [step, done, e, notice, he]
        rw [this]
        refine hgo _ ⟨.inr (.inl ⟨_, rfl⟩), fun h => by cases h⟩ ?_
        rw [e]; exact (by decide : 4 < 5)

end Runners

/-- A schedule that goes on: the engine runner is not cancelled, there are no exceptions and the engine does not close itself; from some
time on no other server is active; all waiting ends again and again. -/
structure RunnerGoesOn (group : String) (token : Option String) (acts : Nat → RunnerAct) (start : Nat) : Prop where
  noRaise : ∀ n, acts n ≠ .raise_
  noCancel : ∀ n, acts n ≠ .cancel
  noEngineCloses : ∀ n, acts n ≠ .engineCloses
  free : ∀ n, start ≤ n → ((Runners.init group token).run (upTo acts n)).clients.remoteActive = false
  first : Often acts .start
  wake : Often acts .wake
  done : Often acts .done

section
variable {group : String} {token : Option String} {acts : Nat → RunnerAct} {start : Nat}

theorem RunnerGoesOn.alive (h : RunnerGoesOn group token acts start) (n : Nat) :
    Runners.Alive ((Runners.init group token).run (upTo acts n)) := by
  induction n with
  | zero => exact ⟨nofun, nofun, by rintro (h | h) <;> cases h⟩
  | succ n ih =>
    rw [upTo_succ, Runners.run_snoc]
    exact Runners.alive_step ih _ ⟨h.noRaise n, h.noCancel n, h.noEngineCloses n⟩

theorem RunnerGoesOn.often (h : RunnerGoesOn group token acts start) (a : EngineAt) : Often acts (Runners.next a) := by
  unfold Runners.next
  split
  exacts [h.first, h.wake, h.done]

end

/-- **C93** If no other server is active from some time on, the server is operational again and again, whatever restarts are requested. -/
theorem C93_again (group : String) (token : Option String) (acts : Nat → RunnerAct) (start : Nat)
    (h : RunnerGoesOn group token acts start) (n : Nat) :
    ∃ m, n ≤ m ∧ ((Runners.init group token).run (upTo acts m)).engine = some true ∧
      ((Runners.init group token).run (upTo acts m)).statuses.getLast? = some (.operational, true) := by
  have key : ∃ m, max n start ≤ m ∧ ((Runners.init group token).run (upTo acts m)).at_ = .running := by
    by_contra hno
    have hno : ∀ m, max n start ≤ m → ((Runners.init group token).run (upTo acts m)).at_ ≠ .running :=
      fun m hm e => hno ⟨m, hm, e⟩
    have hz : ∀ m, Runners.left false ((Runners.init group token).run (upTo acts m)).at_ = 0 →
        ((Runners.init group token).run (upTo acts m)).at_ = .running := by
      intro m hm
      have := (h.alive m).notEnded
      generalize ((Runners.init group token).run (upTo acts m)).at_ = x at *
      cases x with
      | running => rfl
      | ended => exact absurd rfl this
      | closing st l => cases st <;> cases hm
      | _ => cases hm
    have hgo : ∀ m, max n start ≤ m → _ := fun m hm => Runners.goes_step (h.alive m) (h.free m (by omega)) (acts m)
      ⟨h.noRaise m, h.noCancel m, h.noEngineCloses m⟩
    obtain ⟨m, hm, h0⟩ := settle_measure (acts := acts) (s := fun n => (Runners.init group token).run (upTo acts n))
      (f := fun s => Runners.left false s.at_) (same := fun s s' => s'.at_ = s.at_)
      (helps := fun a s => a = Runners.next s.at_) (N := max n start) (fun _ => rfl) (fun _ _ _ h h' => h'.trans h)
      (fun _ _ h => by simp only [h])
      (by
        intro m hm
        show ((Runners.init group token).run (upTo acts (m + 1))).at_ = _ ∨
          Runners.left false ((Runners.init group token).run (upTo acts (m + 1))).at_ < _
        rw [upTo_succ, Runners.run_snoc]
        rcases hgo m hm with h1 | h1 | h1
        · exact .inl h1.1
        · exact .inr h1.2.1
        · exact absurd h1.1 (hno m hm))
      (fun a x y hs ha => by show a = Runners.next y.at_; rw [hs]; exact ha)
      (by
        intro m hm ha
        show Runners.left false ((Runners.init group token).run (upTo acts (m + 1))).at_ < _
        rw [upTo_succ, Runners.run_snoc]
        rcases hgo m hm with h1 | h1 | h1
        · have := Runners.next_step (Runners.good_run group token _) (h.alive m) (h.free m (by omega))
            (fun e => absurd e (hno m hm))
          rw [← ha] at this
          exact absurd h1.1 this
        · exact h1.2.1
        · exact absurd h1.1 (hno m hm))
      (fun m _ _ => ⟨_, rfl, h.often _⟩)
    exact hno m hm (hz m h0)
  obtain ⟨m, hm, e⟩ := key
  have he := (h.alive m).engine (.inr e)
  exact ⟨m, by omega, he, C62_open group token _ he⟩

/-- **C93** If also no restart is requested from that time on, the server stays operational from some time on. -/
theorem C93_stays (group : String) (token : Option String) (acts : Nat → RunnerAct) (start : Nat)
    (h : RunnerGoesOn group token acts start) (hn : ∀ n, start ≤ n → acts n ≠ .restart) :
    ∃ m, start ≤ m ∧ ∀ n, m ≤ n → ((Runners.init group token).run (upTo acts n)).engine = some true ∧
      ((Runners.init group token).run (upTo acts n)).statuses =
        ((Runners.init group token).run (upTo acts m)).statuses ∧
      ((Runners.init group token).run (upTo acts n)).statuses.getLast? = some (.operational, true) := by
  have hz : ∀ m, Runners.left ((Runners.init group token).run (upTo acts m)).restart
        ((Runners.init group token).run (upTo acts m)).at_ = 0 →
      ((Runners.init group token).run (upTo acts m)).at_ = .running ∧
        ((Runners.init group token).run (upTo acts m)).restart = false := by
    intro m hm
    have := (h.alive m).notEnded
    generalize ((Runners.init group token).run (upTo acts m)).at_ = x at *
    generalize ((Runners.init group token).run (upTo acts m)).restart = r at *
    cases r <;> cases x with
    | running => first | exact ⟨rfl, rfl⟩ | cases hm
    | ended => exact absurd rfl this
    | closing st l => cases st <;> cases hm
    | _ => cases hm
  have hgo : ∀ m, start ≤ m → _ := fun m hm => Runners.goes_step (h.alive m) (h.free m hm) (acts m)
    ⟨h.noRaise m, h.noCancel m, h.noEngineCloses m⟩
  obtain ⟨m, hm, h0⟩ := settle_measure (acts := acts) (s := fun n => (Runners.init group token).run (upTo acts n))
    (f := fun s => Runners.left s.restart s.at_) (same := fun s s' => s'.at_ = s.at_ ∧ s'.restart = s.restart)
    (helps := fun a s => a = Runners.next s.at_ ∧ Runners.left s.restart s.at_ ≠ 0) (N := start) (fun _ => ⟨rfl, rfl⟩)
    (fun _ _ _ h h' => ⟨h'.1.trans h.1, h'.2.trans h.2⟩) (fun _ _ h => by simp only [h.1, h.2])
    (by
      intro m hm
      show (((Runners.init group token).run (upTo acts (m + 1))).at_ = _ ∧ ((Runners.init group token).run (upTo acts (m + 1))).restart = _) ∨
        Runners.left ((Runners.init group token).run (upTo acts (m + 1))).restart
          ((Runners.init group token).run (upTo acts (m + 1))).at_ < _
      rw [upTo_succ, Runners.run_snoc]
      rcases hgo m hm with h1 | h1 | h1
      · exact .inl ⟨h1.1, h1.2.resolve_right (hn m hm)⟩
      · exact .inr h1.2.2
      · exact .inr h1.2.2)
    (fun a x y hs ha => by
      show a = Runners.next y.at_ ∧ Runners.left y.restart y.at_ ≠ 0
      rw [hs.1, hs.2]; exact ha)
    (by
      rintro m hm ⟨ha, h0⟩
      show Runners.left ((Runners.init group token).run (upTo acts (m + 1))).restart
          ((Runners.init group token).run (upTo acts (m + 1))).at_ < _
      rw [upTo_succ, Runners.run_snoc]
      rcases hgo m hm with h1 | h1 | h1
      · have := Runners.next_step (Runners.good_run group token _) (h.alive m) (h.free m hm)
          (fun e => by
            cases hr : ((Runners.init group token).run (upTo acts m)).restart with
            | true => rfl
            | false =>
              have h0 : Runners.left _ _ ≠ 0 := h0
              rw [e, hr] at h0; exact absurd rfl h0)
        rw [← ha] at this
        exact absurd h1.1 this
      · exact h1.2.2
      · exact h1.2.2)
    (fun m _ h0 => ⟨_, ⟨rfl, h0⟩, h.often _⟩)
  obtain ⟨e1, e2⟩ := hz m h0
  have key : ∀ n, m ≤ n → ((Runners.init group token).run (upTo acts n)).at_ = .running ∧
      ((Runners.init group token).run (upTo acts n)).restart = false ∧
      ((Runners.init group token).run (upTo acts n)).statuses = ((Runners.init group token).run (upTo acts m)).statuses := by
    intro n hmn
    induction n, hmn using Nat.le_induction with
    | base => exact ⟨e1, e2, rfl⟩
    | succ n hmn ih =>
      obtain ⟨i1, i2, i3⟩ := ih
      have halive := h.alive n
      rw [upTo_succ, Runners.run_snoc, ← i3]
      have hx := hn n (hm.trans hmn)
      have hb : Runners.Harmless (acts n) := ⟨h.noRaise n, h.noCancel n, h.noEngineCloses n⟩
      generalize acts n = a at hx hb
      generalize (Runners.init group token).run (upTo acts n) = s at i1 i2 halive
      cases a with
      | raise_ => exact absurd rfl hb.1
      | cancel => exact absurd rfl hb.2.1
      | engineCloses => exact absurd rfl hb.2.2
      | restart => exact absurd rfl hx
      | client a => exact ⟨i1, i2, rfl⟩
      | start => simp only [Runners.step, i1]; exact ⟨i1, i2, rfl⟩
      | wake => simp only [Runners.step, i1]; exact ⟨i1, i2, rfl⟩
      | done =>
        have : s.step .done = s := by
          simp only [Runners.step, Runners.done, i1, Runners.notice]
          rw [if_pos (halive.engine (.inr i1)), i2]
          rfl
        rw [this]
        exact ⟨i1, i2, rfl⟩
  refine ⟨m, hm, fun n hmn => ?_⟩
  obtain ⟨k1, k2, k3⟩ := key n hmn
  have he := (h.alive n).engine (.inr k1)
  exact ⟨he, k3, C62_open group token _ he⟩

/-- It is enough that from some time on there is no client of another server. -/
theorem C93_alone (group : String) (token : Option String) (acts : List RunnerAct)
    (h : ∀ i, (((Runners.init group token).run acts).clients.loops i).at_ ≠ .connected ∧
      (((Runners.init group token).run acts).clients.loops i).at_ ≠ .closing) :
    ((Runners.init group token).run acts).clients.remoteActive = false := by
  cases hr : ((Runners.init group token).run acts).clients.remoteActive with
  | false => rfl
  | true =>
    obtain ⟨i, hi | hi⟩ := C44_client group token acts hr
    exacts [absurd hi (h i).1, absurd hi (h i).2]

/-- **C93** Stopping ends: an engine runner that is cancelled or whose engine closes ends if its waiting ends and there are no exceptions, and
the last announced status is STANDBY; if it was cancelled before it began, none was announced. -/
theorem C93_ends (group : String) (token : Option String) (acts : Nat → RunnerAct) (n : Nat)
    (hc : acts n = .cancel ∨ acts n = .engineCloses ∧ ((Runners.init group token).run (upTo acts n)).engine = some true)
    (hr : ∀ m, n ≤ m → acts m ≠ .raise_) (hd : Often acts .done)
    (hl : ((Runners.init group token).run (upTo acts n)).at_ ≠ .ended) :
    ∃ m, n < m ∧ ∀ k, m ≤ k → ((Runners.init group token).run (upTo acts k)).at_ = .ended ∧
      ((Runners.init group token).run (upTo acts k)).statuses = ((Runners.init group token).run (upTo acts m)).statuses ∧
      (((Runners.init group token).run (upTo acts m)).statuses.getLast? = some (.standby, false) ∨
        ((Runners.init group token).run (upTo acts m)).statuses = []) := by
  have hstops : ∀ m, n + 1 ≤ m → Runners.Stops ((Runners.init group token).run (upTo acts m)) := by
    intro m hm
    induction m, hm using Nat.le_induction with
    | base =>
      rw [upTo_succ, Runners.run_snoc]
      rcases hc with hc | ⟨hc, he⟩
      · rw [hc]; exact Runners.stops_cancel (Runners.good_run group token _) hl
      · have hg := (Runners.good_run group token (upTo acts n)).eng he
        rw [hc]
        refine ⟨.inr (.inr ⟨by simp [Runners.step, he], hg⟩), ?_⟩
        intro e
        exact absurd e hl
    | succ m hm ih =>
      rw [upTo_succ, Runners.run_snoc]
      exact (Runners.stops_step (Runners.good_run group token _) ih _ (hr m (by omega))).1
  have hstep : ∀ m, n + 1 ≤ m → _ := fun m hm =>
    (Runners.stops_step (Runners.good_run group token _) (hstops m hm) _ (hr m (by omega))).2
  have hz : ∀ m, n + 1 ≤ m → (Runners.leftLast ((Runners.init group token).run (upTo acts m)).at_ = 0 ↔
      ((Runners.init group token).run (upTo acts m)).at_ = .ended) := by
    intro m hm
    constructor
    · intro h0
      rcases (hstops m hm).at_ with e | ⟨stage, e⟩ | ⟨_, e | e⟩
      · exact e
      · rw [e] at h0; cases stage <;> cases h0
      · rw [e] at h0; cases h0
      · rw [e] at h0; cases h0
    · intro e; rw [e]; rfl
  obtain ⟨m, hm, h0⟩ := settle_measure (acts := acts) (s := fun n => (Runners.init group token).run (upTo acts n))
    (f := fun s => Runners.leftLast s.at_) (same := fun s s' => s'.at_ = s.at_)
    (helps := fun a s => a = .done ∧ s.at_ ≠ .ended) (N := n + 1) (fun _ => rfl) (fun _ _ _ h h' => h'.trans h)
    (fun _ _ h => by simp only [h])
    (by
      intro m hm
      show ((Runners.init group token).run (upTo acts (m + 1))).at_ = _ ∨
        Runners.leftLast ((Runners.init group token).run (upTo acts (m + 1))).at_ < _
      rw [upTo_succ, Runners.run_snoc]
      exact (hstep m hm).2.1)
    (fun a x y hs ha => ⟨ha.1, by rw [hs]; exact ha.2⟩)
    (by
      rintro m hm ⟨ha, hne⟩
      show Runners.leftLast ((Runners.init group token).run (upTo acts (m + 1))).at_ < _
      rw [upTo_succ, Runners.run_snoc]
      exact (hstep m hm).2.2 ha hne)
    (fun m hm h0 => ⟨.done, ⟨rfl, fun e => h0 ((hz m hm).2 e)⟩, hd⟩)
  have hend : ((Runners.init group token).run (upTo acts m)).at_ = .ended := (hz m hm).1 h0
  have hlast := (hstops m hm).said hend
  have hflag := (Runners.good_run group token (upTo acts m)).flag
  refine ⟨m, hm, fun k hk => ?_⟩
  have key : ((Runners.init group token).run (upTo acts k)).at_ = .ended ∧
      ((Runners.init group token).run (upTo acts k)).statuses = ((Runners.init group token).run (upTo acts m)).statuses := by
    induction k, hk using Nat.le_induction with
    | base => exact ⟨hend, rfl⟩
    | succ k hk ih =>
      rw [upTo_succ, Runners.run_snoc]
      have := (hstep k (hm.trans hk)).1 ih.1
      exact ⟨this.1, this.2.trans ih.2⟩
  refine ⟨key.1, key.2, ?_⟩
  generalize ((Runners.init group token).run (upTo acts m)) = s at hlast hflag
  unfold Runners.lastStatus at hlast
  rcases List.eq_nil_or_concat s.statuses with e | ⟨l, x, e⟩
  · exact .inr e
  · rw [List.concat_eq_append] at e
    rw [e] at hlast hflag ⊢
    simp at hlast
    have := hflag x (by simp)
    left
    obtain ⟨x1, x2⟩ := x
    simp at hlast this ⊢
    subst hlast
    simpa using this

/-- Server 2 is active, then it goes to STANDBY and its connection is lost. -/
def exRunnerLive : List RunnerAct := exWaiting ++ [.client (.lose 0), .client (.clientClosed 0), .restart]

/-- Everything that waits goes on; connecting to server 2 fails. -/
def exRunnerCycle : List RunnerAct := [.start, .wake, .done, .client (.failed 0), .client (.slept 0)]

theorem exRunnerCycle_ne : exRunnerCycle ≠ [] := List.cons_ne_nil _ _

/-- No step of the engine runner or failure to connect makes a client. -/
theorem exRunner_step (s : Runners) (h : ∀ i, (s.clients.loops i).at_ ≠ .connected ∧ (s.clients.loops i).at_ ≠ .closing)
    (a : RunnerAct) (ha : a ∈ exRunnerCycle) (i : Nat) :
    ((s.step a).clients.loops i).at_ ≠ .connected ∧ ((s.step a).clients.loops i).at_ ≠ .closing := by
  have hcheck : s.check.clients.loops = s.clients.loops := by unfold Runners.check; split <;> rfl
  simp only [exRunnerCycle, List.mem_cons, List.not_mem_nil, or_false] at ha
  rcases ha with rfl | rfl | rfl | rfl | rfl
  · simp only [Runners.step]
    split
    · rw [hcheck]; exact h i
    · exact h i
  · simp only [Runners.step]
    split
    · rw [hcheck]; exact h i
    · exact h i
  · have : s.done.clients.loops = s.clients.loops := by
      unfold Runners.done
      split <;> try rfl
      · unfold Runners.notice
        split
        · split <;> rfl
        · rfl
      · exact hcheck
    show (s.done.clients.loops i).at_ ≠ _ ∧ (s.done.clients.loops i).at_ ≠ _
    rw [this]
    exact h i
  · simp only [Runners.step, ClientRunner.step]
    split
    · simp only [ClientRunner.setLoop]
      split
      · exact ⟨nofun, nofun⟩
      · exact h i
    · exact h i
  · simp only [Runners.step, ClientRunner.step]
    split
    · unfold ClientRunner.iterate
      split
      · simp only [ClientRunner.scs_loops, ClientRunner.setLoop]
        split
        · exact ⟨nofun, nofun⟩
        · exact h i
      · simp only [ClientRunner.endLoop, ClientRunner.scs_loops, ClientRunner.setLoop]
        split
        · exact ⟨nofun, nofun⟩
        · exact h i
    · exact h i

theorem exRunnerGoesOn :
    RunnerGoesOn "group" none (exForever exRunnerLive exRunnerCycle exRunnerCycle_ne) exRunnerLive.length := by
  have hmem : ∀ n, exForever exRunnerLive exRunnerCycle exRunnerCycle_ne n ∈ exRunnerLive ++ exRunnerCycle :=
    fun n => List.mem_append.2 (exForever_mem (mem_upTo _ n))
  refine ⟨?_, ?_, ?_, ?_, exForever_often ?_, exForever_often ?_, exForever_often ?_⟩
  · intro n e
    have := hmem n
    rw [e] at this
    simp [exRunnerLive, exRunnerCycle, exWaiting, exConnected] at this
  · intro n e
    have := hmem n
    rw [e] at this
    simp [exRunnerLive, exRunnerCycle, exWaiting, exConnected] at this
  · intro n e
    have := hmem n
    rw [e] at this
    simp [exRunnerLive, exRunnerCycle, exWaiting, exConnected] at this
  · intro n hn
    obtain ⟨k, rfl⟩ := Nat.exists_eq_add_of_le hn
    obtain ⟨more, h1, h2⟩ := exForever_more (pre := exRunnerLive) (cycle := exRunnerCycle) (hc := exRunnerCycle_ne) k
    rw [h1]
    apply C93_alone
    clear h1 hn
    induction more using List.reverseRecOn with
    | nil =>
      rw [List.append_nil]
      intro i
      rcases i with _ | i
      · exact ⟨by decide, by decide⟩
      · have : (((Runners.init "group" none).run exRunnerLive).clients.loops (i + 1)).at_ = .absent :=
          (Runners.ok_run "group" none exRunnerLive).str.fresh (i + 1) (Nat.le_add_left 1 i)
        rw [this]
        exact ⟨nofun, nofun⟩
    | append_singleton more a ih =>
      rw [← List.append_assoc, Runners.run_snoc]
      exact exRunner_step _ (ih fun x hx => h2 x (List.mem_append_left _ hx)) a (h2 a (by simp))
  all_goals simp [exRunnerCycle]

example : ∀ n, exRunnerLive.length ≤ n → exForever exRunnerLive exRunnerCycle exRunnerCycle_ne n ≠ .restart := by
  intro n hn e
  obtain ⟨k, rfl⟩ := Nat.exists_eq_add_of_le hn
  have := exForever_after (pre := exRunnerLive) (cycle := exRunnerCycle) (hc := exRunnerCycle_ne) k
  rw [e] at this
  simp [exRunnerCycle] at this

/-- An engine runner is cancelled while its engine runs. -/
example : (exForever ([.start, .done, .done, .done, .cancel] : List RunnerAct) [.done] (by decide)) 4 = .cancel ∧
    (∀ m, (exForever ([.start, .done, .done, .done, .cancel] : List RunnerAct) [.done] (List.cons_ne_nil _ _)) m ≠ .raise_) ∧
    Often (exForever ([.start, .done, .done, .done, .cancel] : List RunnerAct) [.done] (List.cons_ne_nil _ _)) .done ∧
    ((Runners.init "group" none).run [.start, .done, .done, .done]).at_ = .running ∧
    ((Runners.init "group" none).run [.start, .done, .done, .done]).engine = some true := by
  refine ⟨rfl, ?_, exForever_often (by simp), by decide, by decide⟩
  intro m e
  have := exForever_mem (mem_upTo (exForever ([.start, .done, .done, .done, .cancel] : List RunnerAct) [.done] (List.cons_ne_nil _ _)) m)
  rw [e] at this
  simp at this

end HatEvent
