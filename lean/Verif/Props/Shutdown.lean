import Verif.Props.Runner
import Verif.Props.MainRunner

/-! # C74: the end of a server that waits for another one -/

namespace HatEvent

/-- The engine runner is in its last `_close` or ended. -/
def Runners.Down (s : Runners) : Prop := (s.at_ = .ended ∨ ∃ stage, s.at_ = .closing stage true) ∧ s.engine ≠ some true

theorem Runners.down_cancel (s : Runners) (h : s.at_ = .spawned ∨ s.at_ = .ended ∨ (∃ stage, s.at_ = .closing stage true) → s.engine ≠ some true) :
    Runners.Down (s.step .cancel) ∧ ∃ l, (s.step .cancel).statuses = s.statuses ++ l ∧ ∀ x ∈ l, x.1 ≠ .starting ∧ x.1 ≠ .operational := by
  have hclose : Runners.Down (s.close true) ∧
      ∃ l, (s.close true).statuses = s.statuses ++ l ∧ ∀ x ∈ l, x.1 ≠ .starting ∧ x.1 ≠ .operational := by
    refine ⟨⟨.inr ⟨.stopping, rfl⟩, ?_⟩, [(.stopping, false)], rfl, by simp⟩
    show s.engine.map (fun _ => false) ≠ some true
    cases s.engine <;> simp
  show Runners.Down (s.abort false) ∧ ∃ l, (s.abort false).statuses = _ ∧ _
  unfold Runners.abort
  split
  · next hp => exact ⟨⟨.inl rfl, h (.inl hp)⟩, [], by simp, by simp⟩
  · next hp => exact ⟨⟨.inl hp, h (.inr (.inl hp))⟩, [], by simp, by simp⟩
  · next st hp => exact ⟨⟨.inr ⟨st, hp⟩, h (.inr (.inr ⟨st, hp⟩))⟩, [], by simp, by simp⟩
  · exact hclose

theorem Runners.down_step {s : Runners} (h : Runners.Down s) (a : RunnerAct) :
    Runners.Down (s.step a) ∧ ∃ l, (s.step a).statuses = s.statuses ++ l ∧ ∀ x ∈ l, x.1 ≠ .starting ∧ x.1 ≠ .operational := by
  obtain ⟨hat, he⟩ := h
  have hne : s.at_ ≠ .spawned ∧ s.at_ ≠ .waiting := by
    rcases hat with hp | ⟨st, hp⟩ <;> simp [hp]
  have stay : Runners.Down s ∧ ∃ l, s.statuses = s.statuses ++ l ∧ ∀ x ∈ l, x.1 ≠ .starting ∧ x.1 ≠ .operational :=
    ⟨⟨hat, he⟩, [], by simp, by simp⟩
  cases a with
  | client c => exact ⟨⟨hat, he⟩, [], by simp [Runners.step], by simp⟩
  | start =>
    have : s.step .start = s := by simp [Runners.step, hne.1]
    rw [this]; exact stay
  | wake =>
    have : s.step .wake = s := by simp [Runners.step, hne.2]
    rw [this]; exact stay
  | done =>
    rcases hat with hp | ⟨st, hp⟩
    · have : s.step .done = s := by simp [Runners.step, Runners.done, hp]
      rw [this]; exact stay
    · cases st with
      | stopping => exact ⟨⟨.inr ⟨if s.engine.isSome then .engine else .flush, by simp [Runners.step, Runners.done, hp]⟩, by simpa [Runners.step, Runners.done, hp] using he⟩, [],
          by simp [Runners.step, Runners.done, hp], by simp⟩
      | engine => exact ⟨⟨.inr ⟨.flush, by simp [Runners.step, Runners.done, hp]⟩, by simpa [Runners.step, Runners.done, hp] using he⟩, [],
          by simp [Runners.step, Runners.done, hp], by simp⟩
      | flush => exact ⟨⟨.inr ⟨.standby, by simp [Runners.step, Runners.done, hp, Runners.announce]⟩,
          by simpa [Runners.step, Runners.done, hp, Runners.announce] using he⟩, [(.standby, false)],
          by simp [Runners.step, Runners.done, hp, Runners.announce], by simp⟩
      | standby => exact ⟨⟨.inl (by simp [Runners.step, Runners.done, hp]), by simpa [Runners.step, Runners.done, hp] using he⟩, [],
          by simp [Runners.step, Runners.done, hp], by simp⟩
  | engineCloses =>
    refine ⟨⟨hat, ?_⟩, [], by simp [Runners.step], by simp⟩
    show s.engine.map (fun _ => false) ≠ some true
    cases s.engine <;> simp
  | restart => exact ⟨⟨hat, he⟩, [], by simp [Runners.step], by simp⟩
  | raise_ =>
    rcases hat with hp | ⟨st, hp⟩
    · have : s.step .raise_ = s := by simp [Runners.step, Runners.abort, hp]
      rw [this]; exact stay
    · exact ⟨⟨.inl (by simp [Runners.step, Runners.abort, hp]), by simpa [Runners.step, Runners.abort, hp] using he⟩, [],
        by simp [Runners.step, Runners.abort, hp], by simp⟩
  | cancel => exact Runners.down_cancel s (fun _ => he)

/-- C74, what is missing: `_stop` closes the client runner before the engine runner is cancelled (`C74_refuted`).
From the moment the engine runner is cancelled it announces neither STARTING nor OPERATIONAL and has no open engine, whatever happens to the
clients. -/
theorem C74_cancelled_partial (group : String) (token : Option String) (acts more : List RunnerAct) :
    ((Runners.init group token).run (acts ++ .cancel :: more)).engine ≠ some true ∧
      ∃ l, ((Runners.init group token).run (acts ++ .cancel :: more)).statuses = ((Runners.init group token).run acts).statuses ++ l ∧
        ∀ x ∈ l, x.1 ≠ .starting ∧ x.1 ≠ .operational := by
  suffices h : Runners.Down ((Runners.init group token).run (acts ++ .cancel :: more)) ∧
      ∃ l, ((Runners.init group token).run (acts ++ .cancel :: more)).statuses = ((Runners.init group token).run acts).statuses ++ l ∧
        ∀ x ∈ l, x.1 ≠ .starting ∧ x.1 ≠ .operational from ⟨h.1.2, h.2⟩
  induction more using List.reverseRecOn with
  | nil =>
    rw [Runners.run_snoc]
    refine Runners.down_cancel _ ?_
    intro hp he
    have := (Runners.good_run group token acts).eng he
    rcases hp with hp | hp | ⟨st, hp⟩ <;> rcases this with e | e <;> rw [hp] at e <;> cases e
  | append_singleton more a ih =>
    obtain ⟨h1, l, h2, h3⟩ := ih
    rw [show acts ++ .cancel :: (more ++ [a]) = (acts ++ .cancel :: more) ++ [a] by simp, Runners.run_snoc]
    obtain ⟨h4, l', h5, h6⟩ := Runners.down_step h1 a
    refine ⟨h4, l ++ l', by rw [h5, h2, List.append_assoc], ?_⟩
    intro x hx
    rcases List.mem_append.1 hx with hx | hx
    exacts [h3 x hx, h6 x hx]

/-- The engine runner waits for server 2, it is cancelled and then the clients are closed. -/
example : ((Runners.init "group" none).run (exConnected .operational ++ [.start])).at_ = .waiting ∧
    ((Runners.init "group" none).run (exConnected .operational ++ [.start] ++ .cancel ::
      [.client .close, .client (.cancel 0), .client (.clientClosed 0), .wake, .done, .done, .done])).statuses.map Prod.fst =
        [.stopping, .standby] := by decide

/-- C74 is false: server 2 is OPERATIONAL and this server waits for it.  When this server is told to stop, its client runner is closed first; closing of the
connection looks like the end of the activity of server 2, so this server announces STARTING and OPERATIONAL and creates an engine. -/
theorem C74_refuted : ∃ acts closing : List RunnerAct,
    (∀ a ∈ closing, a = .client .close ∨ a = .client (.cancel 0) ∨ a = .client (.clientClosed 0) ∨ a = .wake ∨ a = .done) ∧
    ((Runners.init "group" none).run acts).at_ = .waiting ∧
    (((Runners.init "group" none).run acts).clients.loops 0).status = .operational ∧
    (((Runners.init "group" none).run (acts ++ closing)).clients.loops 0).status = .operational ∧
    ((Runners.init "group" none).run (acts ++ closing)).engine = some true ∧
    ((Runners.init "group" none).run (acts ++ closing)).statuses = [(.starting, false), (.operational, true)] :=
  ⟨exConnected .operational ++ [.start],
    [.client .close, .client (.cancel 0), .client (.clientClosed 0), .wake, .done, .done], by simp, by decide, by decide, by decide,
    by decide, by decide⟩

/-- The order of closing is not the one that C74 needs: the client runner is closed while there is an engine runner. -/
theorem C74_order_refuted : ∃ acts pre post k, ((Main.init false true).run acts).log = pre ++ .closed .clientRunner :: post ∧
    .created (.engineRunner k) ∈ pre ∧ .closed (.engineRunner k) ∉ pre :=
  ⟨exMainLife, [.created .backend, .created .eventerServer, .created .clientRunner, .created .monitor, .created (.engineRunner 0)],
    [.closed (.engineRunner 0), .closed .monitor, .flushed, .closed .eventerServer, .closed .backend], 0, by decide, by decide, by decide⟩

end HatEvent
