import Verif.Model.Component
import Verif.Proof.Tactics
import Mathlib.Data.List.Induction

/-!
# The component follows the active server
-/

namespace HatEvent
namespace Comp

theorem run_snoc (s : Comp) (acts : List CompAct) (a : CompAct) : s.run (acts ++ [a]) = (s.run acts).step a := by
  simp [run]

theorem run_append (s : Comp) (a b : List CompAct) : s.run (a ++ b) = (s.run a).run b := by
  simp [run]

/-- What the loop has with an empty queue. -/
def LoopHas : DataLoop → Option ServerData → Prop
  | .idle, d => d = none
  | .serving x, d => d = some x
  | .switching _ n, d => d = n
  | .ended, _ => True

/-- The active server data of a state. -/
def active (s : Comp) (state : MonitorState) : Option ServerData := activeServerData s.serverGroup s.clientToken state

structure Ok (s : Comp) : Prop where
  last : s.pending ≠ [] → s.pending.getLast? = some s.state
  fresh : s.pending = [] → s.queue ≠ none → s.current = s.active s.state
  queued : s.loop ≠ .ended → s.putting = none → ∀ q x, s.queue = some (q ++ [x]) → x = s.current
  empty : s.putting = none → s.queue = some [] → LoopHas s.loop s.current
  none : s.queue = none → s.loop = .ended
  putting : ∀ d, s.putting = some d → d = s.current ∧ s.loop ≠ .ended

theorem ok_enter {s : Comp} {d : Option ServerData} (h1 : s.pending ≠ [] → s.pending.getLast? = some s.state)
    (h2 : s.pending = [] → s.queue ≠ Option.none → s.current = s.active s.state)
    (h3 : s.putting = Option.none → ∀ q x, s.queue = some (q ++ [x]) → x = s.current)
    (h4 : s.putting = Option.none → s.queue = some [] → d = s.current)
    (h5 : s.queue ≠ Option.none) (h6 : ∀ d, s.putting = some d → d = s.current) : Ok (s.enter d) := by
  unfold enter
  split
  · exact ⟨h1, h2, fun _ => h3, fun hp h => (h4 hp h).symm, fun h => absurd h h5, fun d hd => ⟨h6 d hd, nofun⟩⟩
  · next d =>
    split
    · next x q hq =>
      exact ⟨h1, h2, fun _ => h3, (fun _ h => by rw [show s.queue = some (x :: q) from hq] at h; cases h),
        fun h => absurd h h5, fun d hd => ⟨h6 d hd, nofun⟩⟩
    · exact ⟨h1, h2, fun _ => h3, fun hp h => (h4 hp h).symm, fun h => absurd h h5, fun d hd => ⟨h6 d hd, nofun⟩⟩

theorem ok_step {s : Comp} (a : CompAct) (h : Ok s) : Ok (s.step a) := by
  cases a with
  | state state =>
    refine ⟨fun _ => by simp [step], fun hp => ?_, h.queued, h.empty, h.none, h.putting⟩
    simp [step] at hp
  | onState =>
    simp only [step, onState]
    split
    · exact h
    · next hput =>
    have hput : s.putting = Option.none := by simpa using hput
    split
    · exact h
    · next state rest hp =>
      have hl := h.last (by rw [hp]; simp)
      have hl1 : rest ≠ [] → rest.getLast? = some s.state := by
        intro hr
        rw [hp] at hl
        obtain ⟨y, ys, rfl⟩ := List.exists_cons_of_ne_nil hr
        rw [List.getLast?_cons_cons] at hl
        exact hl
      have hl2 : rest = [] → state = s.state := by
        rintro rfl
        rw [hp] at hl
        simpa using hl
      split
      · next hq =>
        have hq : s.queue = Option.none := hq
        exact ⟨hl1, fun _ h => absurd hq h, h.queued, h.empty, h.none, h.putting⟩
      · next items hq =>
        have hq : s.queue = some items := hq
        have hfresh : rest = [] → activeServerData s.serverGroup s.clientToken state = s.active s.state := by
          intro hr
          rw [hl2 hr]
          rfl
        unfold follow
        split
        · next hd =>
          unfold offer
          split
          · next he =>
            have he : s.loop = .ended := he
            exact ⟨hl1, fun hr _ => hfresh hr, fun hn => absurd he hn, (fun _ _ => by rw [show _ = DataLoop.ended from he]; trivial),
              fun _ => he, (fun d hd => by rw [show s.putting = _ from hd] at hput; cases hput)⟩
          · next he =>
            have he : s.loop ≠ .ended := he
            split
            · refine ⟨hl1, fun hr _ => hfresh hr, (fun _ hn => by cases hn), (fun hn => by cases hn), h.none, ?_⟩
              intro d hd
              exact ⟨(Option.some.inj hd).symm, he⟩
            · refine ⟨hl1, fun hr _ => hfresh hr, ?_, ?_, (fun hx => by cases hx), ?_⟩
              · intro _ _ q x hx
                have hx : some (items ++ [activeServerData s.serverGroup s.clientToken state]) = some (q ++ [x]) := hx
                have := List.append_inj' (Option.some.inj hx) rfl
                exact (List.singleton_inj.1 this.2).symm
              · intro _ hx
                have hx : some (items ++ [_]) = some [] := hx
                simp at hx
              · intro d hd
                rw [show s.putting = _ from hd] at hput
                cases hput
        · next hd =>
          have hd : activeServerData s.serverGroup s.clientToken state = s.current := not_not.1 hd
          refine ⟨hl1, ?_, h.queued, h.empty, h.none, h.putting⟩
          intro hr _
          show s.current = s.active s.state
          rw [← hd, hfresh hr]
  | put =>
    simp only [step, put]
    split
    · next d items hp hq =>
      split
      · exact h
      · obtain ⟨h1, h2⟩ := h.putting d hp
        refine ⟨h.last, fun hx _ => h.fresh hx (by rw [hq]; simp), ?_, ?_, (fun hx => by cases hx), (fun d hd => by cases hd)⟩
        · intro _ _ q x hx
          have hx : some (items ++ [d]) = some (q ++ [x]) := hx
          have := List.append_inj' (Option.some.inj hx) rfl
          rw [← List.singleton_inj.1 this.2]
          exact h1
        · intro _ hx
          have hx : some (items ++ [d]) = some [] := hx
          simp at hx
    · exact h
  | createRunner =>
    simp only [step, createRunner]
    split
    · next he =>
      have hput : s.putting = Option.none := by
        cases hp : s.putting with
        | none => rfl
        | some d => exact absurd he (h.putting d hp).2
      refine ⟨h.last, fun _ _ => rfl, ?_, ?_, by simp, (fun d hd => by rw [show s.putting = _ from hd] at hput; cases hput)⟩
      · intro _ _ q x hx
        simp only [Option.some.injEq] at hx
        unfold firstItems at hx
        split at hx
        · have := List.append_inj' (s₁ := []) hx rfl
          exact (List.singleton_inj.1 this.2).symm
        · simp at hx
      · intro _ hx
        simp only [Option.some.injEq] at hx
        unfold firstItems at hx
        split at hx
        · simp at hx
        · next hn =>
          show activeServerData s.serverGroup s.clientToken s.state = Option.none
          simpa using hn
    · exact h
  | closeRunner =>
    exact ⟨h.last, h.fresh, fun hn => absurd rfl hn, fun _ _ => trivial, fun _ => rfl, (fun d hd => by cases hd)⟩
  | get =>
    simp only [step, get]
    split
    · exact h
    · exact h
    · next x items hq =>
      have hcur : s.loop ≠ .ended → s.putting = Option.none → (x :: items).getLast (by simp) = s.current := by
        intro hl hp
        apply h.queued hl hp (x :: items).dropLast
        rw [hq, List.dropLast_concat_getLast]
      have hf : s.pending = [] → s.current = s.active s.state := fun hp => h.fresh hp (by rw [hq]; simp)
      split
      · next hl =>
        refine ok_enter (s := { s with queue := some [] }) h.last (fun hp _ => hf hp) ?_
          (fun hp _ => hcur (by rw [hl]; nofun) hp) (by simp) fun d hd => (h.putting d hd).1
        intro _ q y hy
        simp at hy
      · next hl =>
        refine ⟨h.last, fun hp _ => hf hp, ?_, fun hp _ => (hcur (by rw [hl]; nofun) hp).symm, by simp,
          fun d hd => ⟨(h.putting d hd).1, nofun⟩⟩
        intro _ _ q y hy
        simp at hy
      · exact h
  | closed =>
    simp only [step, closed]
    split
    · next old n hl =>
      refine ok_enter h.last h.fresh (h.queued (by rw [hl]; nofun)) ?_ ?_ fun d hd => (h.putting d hd).1
      · intro hp hq
        have := h.empty hp hq
        rw [hl] at this
        exact this.symm
      · intro hq
        have := h.none hq
        rw [hl] at this
        cases this
    · exact h
  | connect =>
    simp only [step, connect]
    split
    · exact ⟨h.last, h.fresh, h.queued, h.empty, h.none, h.putting⟩
    · exact h

theorem ok_run (g : String) (t : Option String) (c : Nat) (acts : List CompAct) : Ok ((init g t c).run acts) := by
  induction acts using List.reverseRecOn with
  | nil =>
    exact ⟨by simp [run, init], by simp [run, init], by simp [run, init], by simp [run, init], fun _ => rfl, by simp [run, init]⟩
  | append_singleton acts a ih => rw [run_snoc]; exact ok_step a ih

/-! ### Connections -/

/-- The configuration is kept. -/
theorem conf_step (s : Comp) (a : CompAct) : (s.step a).serverGroup = s.serverGroup ∧ (s.step a).clientToken = s.clientToken ∧
    (s.step a).capacity = s.capacity := by
  have hen : ∀ (s : Comp) d, (s.enter d).serverGroup = s.serverGroup ∧ (s.enter d).clientToken = s.clientToken ∧
      (s.enter d).capacity = s.capacity := by
    intro s d
    unfold enter
    split
    · exact ⟨rfl, rfl, rfl⟩
    · split <;> exact ⟨rfl, rfl, rfl⟩
  cases a with
  | state state => exact ⟨rfl, rfl, rfl⟩
  | onState =>
    simp only [step, onState]
    split
    · exact ⟨rfl, rfl, rfl⟩
    · split
      · exact ⟨rfl, rfl, rfl⟩
      · split
        · exact ⟨rfl, rfl, rfl⟩
        · unfold follow
          split
          · unfold offer
            split
            · exact ⟨rfl, rfl, rfl⟩
            · split <;> exact ⟨rfl, rfl, rfl⟩
          · exact ⟨rfl, rfl, rfl⟩
  | put =>
    simp only [step, put]
    split
    · split <;> exact ⟨rfl, rfl, rfl⟩
    · exact ⟨rfl, rfl, rfl⟩
  | createRunner => simp only [step, createRunner]; split <;> exact ⟨rfl, rfl, rfl⟩
  | closeRunner => exact ⟨rfl, rfl, rfl⟩
  | get =>
    simp only [step, get]
    split
    · exact ⟨rfl, rfl, rfl⟩
    · exact ⟨rfl, rfl, rfl⟩
    · split
      · exact hen _ _
      · exact ⟨rfl, rfl, rfl⟩
      · exact ⟨rfl, rfl, rfl⟩
  | closed =>
    simp only [step, closed]
    split
    · exact hen _ _
    · exact ⟨rfl, rfl, rfl⟩
  | connect => simp only [step, connect]; split <;> exact ⟨rfl, rfl, rfl⟩

theorem conf_run (g : String) (t : Option String) (c : Nat) (acts : List CompAct) :
    ((init g t c).run acts).serverGroup = g ∧ ((init g t c).run acts).clientToken = t ∧ ((init g t c).run acts).capacity = c := by
  induction acts using List.reverseRecOn with
  | nil => exact ⟨rfl, rfl, rfl⟩
  | append_singleton acts a ih =>
    rw [run_snoc, (conf_step _ a).1, (conf_step _ a).2.1, (conf_step _ a).2.2]
    exact ih

/-- Some states satisfy a predicate on active server data. -/
def LoopOf (P : ServerData → Prop) : DataLoop → Prop
  | .serving d => P d
  | .switching _ (some d) => P d
  | _ => True

structure From (P : ServerData → Prop) (s : Comp) : Prop where
  state : ∀ d, s.active s.state = some d → P d
  pending : ∀ st ∈ s.pending, ∀ d, s.active st = some d → P d
  queue : ∀ q, s.queue = some q → ∀ d, some d ∈ q → P d
  putting : ∀ d, s.putting = some (some d) → P d
  loop : LoopOf P s.loop
  connects : ∀ d ∈ s.connects, P d

theorem from_enter {P : ServerData → Prop} {s : Comp} {d : Option ServerData} (h : From P s) (hd : ∀ x, d = some x → P x) :
    From P (s.enter d) := by
  unfold enter
  split
  · exact ⟨h.state, h.pending, h.queue, h.putting, trivial, h.connects⟩
  · next d =>
    split
    · exact ⟨h.state, h.pending, h.queue, h.putting, trivial, h.connects⟩
    · exact ⟨h.state, h.pending, h.queue, h.putting, hd d rfl, h.connects⟩

theorem from_step {P : ServerData → Prop} {s : Comp} (a : CompAct) (h : From P s)
    (hs : ∀ st, a = .state st → ∀ d, s.active st = some d → P d) : From P (s.step a) := by
  cases a with
  | state state =>
    refine ⟨hs state rfl, ?_, h.queue, h.putting, h.loop, h.connects⟩
    intro st hst
    rcases List.mem_append.1 hst with hst | hst
    · exact h.pending st hst
    · rw [List.mem_singleton.1 hst]; exact hs state rfl
  | onState =>
    simp only [step, onState]
    split
    · exact h
    · split
      · exact h
      · next state rest hp =>
        have hr : ∀ st ∈ rest, ∀ d, s.active st = some d → P d :=
          fun st hst => h.pending st (by rw [hp]; exact List.mem_cons_of_mem _ hst)
        have hst : ∀ d, activeServerData s.serverGroup s.clientToken state = some d → P d :=
          h.pending state (by rw [hp]; exact List.mem_cons_self)
        split
        · exact ⟨h.state, hr, h.queue, h.putting, h.loop, h.connects⟩
        · next items hq =>
          have hq : s.queue = some items := hq
          unfold follow
          split
          · unfold offer
            split
            · exact ⟨h.state, hr, h.queue, h.putting, h.loop, h.connects⟩
            · split
              · exact ⟨h.state, hr, h.queue, fun d hd => hst d (Option.some.inj hd), h.loop, h.connects⟩
              · refine ⟨h.state, hr, ?_, h.putting, h.loop, h.connects⟩
                intro q hq' d hd
                have hq' : some (items ++ [activeServerData s.serverGroup s.clientToken state]) = some q := hq'
                cases hq'
                rcases List.mem_append.1 hd with hd | hd
                · exact h.queue items hq d hd
                · exact hst d (List.mem_singleton.1 hd).symm
          · exact ⟨h.state, hr, h.queue, h.putting, h.loop, h.connects⟩
  | put =>
    simp only [step, put]
    split
    · next d items hp hq =>
      split
      · exact h
      · refine ⟨h.state, h.pending, ?_, (fun d hd => by cases hd), h.loop, h.connects⟩
        intro q hq' x hx
        cases hq'
        rcases List.mem_append.1 hx with hx | hx
        · exact h.queue items hq x hx
        · exact h.putting x (by rw [hp, List.mem_singleton.1 hx])
    · exact h
  | createRunner =>
    simp only [step, createRunner]
    split
    · refine ⟨h.state, h.pending, ?_, h.putting, trivial, h.connects⟩
      intro q hq d hd
      cases hq
      unfold firstItems at hd
      split at hd
      · exact h.state d (List.mem_singleton.1 hd).symm
      · cases hd
    · exact h
  | closeRunner => exact ⟨h.state, h.pending, h.queue, (fun d hd => by cases hd), trivial, h.connects⟩
  | get =>
    simp only [step, get]
    split
    · exact h
    · exact h
    · next x items hq =>
      have hx : ∀ d, (x :: items).getLast (by simp) = some d → P d := by
        intro d hd
        exact h.queue _ hq d (hd ▸ List.getLast_mem _)
      split
      · exact from_enter (s := { s with queue := some [] })
          ⟨h.state, h.pending, (fun q hq d hd => by cases hq; cases hd), h.putting, h.loop, h.connects⟩ hx
      · refine ⟨h.state, h.pending, (fun q hq d hd => by cases hq; cases hd), h.putting, ?_, h.connects⟩
        generalize (x :: items).getLast (by simp) = y at hx
        cases y with
        | none => trivial
        | some y => exact hx y rfl
      · exact h
  | closed =>
    simp only [step, closed]
    split
    · next old n hl =>
      refine from_enter h ?_
      rintro d rfl
      have := h.loop
      rw [hl] at this
      exact this
    · exact h
  | connect =>
    simp only [step, connect]
    split
    · next d hl =>
      refine ⟨h.state, h.pending, h.queue, h.putting, h.loop, ?_⟩
      intro x hx
      rcases List.mem_append.1 hx with hx | hx
      · exact h.connects x hx
      · rw [List.mem_singleton.1 hx]
        have := h.loop
        rw [hl] at this
        exact this
    · exact h

end Comp
end HatEvent
