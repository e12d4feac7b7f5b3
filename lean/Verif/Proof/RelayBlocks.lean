import Verif.Spec.RelayLive
import Verif.Proof.Relay
import Verif.Proof.Flatten
import Verif.Proof.EngineLive

/-!
# What the schedule of an event server is for one of its engines
-/

namespace HatEvent
open Spec

/-- What happens to engine `e`: the action `must` tells, or calls of `register`. -/
def EngineBlock (s t : Station) (e : Nat) (must : EngineAct → Prop) : Prop :=
  ∀ eng, s.engines[e]? = some eng → ∃ l, t.engines[e]? = some (eng.run l) ∧ (∀ x, must x → l = [x]) ∧
    ∀ x ∈ l, must x ∨ ∃ src evs, x = .register src evs

namespace Station

theorem block_same {s t : Station} (h : t.engines = s.engines) (e : Nat) {must : EngineAct → Prop} (hm : ∀ x, ¬ must x) : EngineBlock s t e must :=
  fun eng he => ⟨[], by rw [h]; exact he, fun x hx => absurd hx (hm x), by simp⟩

theorem block_call (cf : StationConf) (e : Nat) (l : List HostEntry) : ∀ (s : Station) (eng : Engine), s.engines[e]? = some eng →
    ∃ l', (l.foldl (callEngine cf) s).engines[e]? = some (eng.run l') ∧ ∀ x ∈ l', ∃ src evs, x = .register src evs := by
  induction l with
  | nil => exact fun s eng h => ⟨[], h, by simp⟩
  | cons x l ih =>
    intro s eng h
    have : ∃ l', (s.callEngine cf x).engines[e]? = some (eng.run l') ∧ ∀ x ∈ l', ∃ src evs, x = .register src evs := by
      unfold callEngine
      split
      · next eng' he =>
        by_cases hi : e = x.engine
        · subst hi
          rw [h] at he
          cases he
          exact ⟨[.register ⟨.eventer, x.conn⟩ (x.call.events cf.serverId)], List.getElem?_set_self (List.getElem?_eq_some_iff.1 h).1, by simp⟩
        · exact ⟨[], by rw [List.getElem?_set_ne (fun h => hi h.symm)]; exact h, by simp⟩
      · exact ⟨[], h, by simp⟩
    obtain ⟨l1, h1, h1'⟩ := this
    obtain ⟨l2, h2, h2'⟩ := ih _ _ h1
    refine ⟨l1 ++ l2, by rw [List.foldl_cons, h2]; simp [Engine.run], fun x hx => ?_⟩
    rcases List.mem_append.1 hx with hx | hx
    · exact h1' x hx
    · exact h2' x hx

theorem block_host (cf : StationConf) (s : Station) (act : HostAct) (e : Nat) {must : EngineAct → Prop} (hm : ∀ x, ¬ must x) :
    EngineBlock s (s.hostStep cf act) e must := by
  intro eng he
  obtain ⟨l, hl, hr⟩ := block_call cf e ((s.host.step act).calls.drop s.host.calls.length) { s with host := s.host.step act } eng he
  exact ⟨l, hl, fun x hx => absurd hx (hm x), fun x hx => .inr (hr x hx)⟩

theorem block_step (cf : StationConf) (s : Station) (act : StationAct) (e : Nat) :
    EngineBlock s (s.step cf act) e (fun x => act = .engine e x) := by
  cases act with
  | host act =>
    simp only [step]
    split
    · exact block_host cf s act e (by simp)
    · exact block_same rfl e (by simp)
  | arrive i =>
    simp only [step, arrive]
    split
    · split
      · exact block_host cf s _ e (by simp)
      · exact block_same rfl e (by simp)
    · exact block_same rfl e (by simp)
  | connect i => simp only [step, connect]; split <;> exact block_same rfl e (by simp)
  | client i act => cases act <;> exact block_same rfl e (by simp)
  | deliver i =>
    simp only [step, deliver]
    split
    · split <;> exact block_same rfl e (by simp)
    · exact block_same rfl e (by simp)
  | answered i =>
    simp only [step, answered]
    split
    · split
      · exact block_host cf s _ e (by simp)
      · exact block_same rfl e (by simp)
    · exact block_same rfl e (by simp)
  | queried i =>
    simp only [step, queried]
    split
    · exact block_host cf s _ e (by simp)
    · exact block_same rfl e (by simp)
  | start modules =>
    have happ : ∀ x : Engine, EngineBlock s { s with engines := s.engines ++ [x] } e (fun x => StationAct.start modules = .engine e x) := by
      intro x eng he
      exact ⟨[], by simp only [Engine.run, List.foldl_nil]; rw [List.getElem?_append_left (List.getElem?_eq_some_iff.1 he).1]; exact he, by simp, by simp⟩
    simp only [step, start]
    split
    · split
      · exact happ _
      · exact block_same rfl e (by simp)
    · split
      · exact happ _
      · exact block_same rfl e (by simp)
    · exact block_same rfl e (by simp)
  | engine i act =>
    intro eng he
    simp only [step, engineStep]
    by_cases hi : i = e
    · subst hi
      rw [he]
      refine ⟨[act], List.getElem?_set_self (List.getElem?_eq_some_iff.1 he).1, ?_, by simp⟩
      rintro x h
      cases h
      rfl
    · refine ⟨[], ?_, fun x h => ?_, by simp⟩
      · split
        · exact (List.getElem?_set_ne hi).trans he
        · exact he
      · cases h; exact absurd rfl hi
  | keep op => cases op <;> exact block_same rfl e (by simp)
  | remote events => exact block_same rfl e (by simp)

/-- New engines. -/
theorem engine_new {cf : StationConf} {s : Station} {act : StationAct} {e : Nat} {eng : Engine} (h0 : s.engines[e]? = none)
    (h : (s.step cf act).engines[e]? = some eng) : ∃ conf last, eng = Engine.create conf last := by
  have same : ∀ {t : Station}, t.engines.length = s.engines.length → t.engines[e]? = some eng → False := by
    intro t ht h
    have h1 := List.getElem?_eq_none_iff.1 h0
    have h2 := (List.getElem?_eq_some_iff.1 h).1
    omega
  have hhost : ∀ a, (s.hostStep cf a).engines[e]? = some eng → False := fun a => same (hostStep_calls cf s a).length
  have hsame : s.engines[e]? = some eng → False := same rfl
  cases act with
  | host act =>
    simp only [step] at h
    split at h
    · exact (hhost _ h).elim
    · exact (hsame h).elim
  | arrive i =>
    simp only [step, arrive] at h
    split at h
    · split at h
      · exact (hhost _ h).elim
      · exact (hsame h).elim
    · exact (hsame h).elim
  | connect i => simp only [step, connect] at h; split at h <;> exact (hsame h).elim
  | client i act => cases act <;> exact (hsame h).elim
  | deliver i =>
    simp only [step, deliver] at h
    split at h
    · split at h <;> exact (hsame h).elim
    · exact (hsame h).elim
  | answered i =>
    simp only [step, answered] at h
    split at h
    · split at h
      · exact (hhost _ h).elim
      · exact (hsame h).elim
    · exact (hsame h).elim
  | queried i =>
    simp only [step, queried] at h
    split at h
    · exact (hhost _ h).elim
    · exact (hsame h).elim
  | start modules =>
    have happ : ∀ conf last, (s.engines ++ [Engine.create conf last])[e]? = some eng → eng = Engine.create conf last := by
      intro conf last h
      rw [List.getElem?_append_right (List.getElem?_eq_none_iff.1 h0)] at h
      have := List.mem_of_getElem? h
      simpa using this
    simp only [step, start] at h
    split at h
    · split at h
      · exact ⟨_, _, happ _ _ h⟩
      · exact (hsame h).elim
    · split at h
      · exact ⟨_, _, happ _ _ h⟩
      · exact (hsame h).elim
    · exact (hsame h).elim
  | engine i act =>
    simp only [step, engineStep] at h
    split at h
    · exact (same (t := { s with engines := s.engines.set i _ }) (by simp) h).elim
    · exact (hsame h).elim
  | keep op => cases op <;> exact (hsame h).elim
  | remote events => exact (hsame h).elim

end Station

namespace Relay

theorem offered_none {eng : Engine} (h : offered eng = none) (reply : EngineReply) (now : Timestamp)
    (hs : eng.phase = .finishing → eng.sent ≠ []) : eng.step (.registered reply now) = eng := by
  unfold offered at h
  simp only [Engine.step, Engine.registered]
  split
  · next hp => rw [hp] at h; cases h
  · next hp =>
    rw [hp] at h
    exact absurd (List.getLast?_eq_none_iff.1 h) (hs hp)
  · rfl

theorem block_step (cf : StationConf) (s : Relay) (act : RelayAct) (e : Nat) (hs : ∀ eng, s.station.engines[e]? = some eng →
      eng.phase = .finishing → eng.sent ≠ []) :
    EngineBlock s.station (s.step cf act).station e (fun x => act = .station (.engine e x) ∧
      ∀ now, x = .registered .same now → s.returns e = true ∨ ∀ eng, s.station.engines[e]? = some eng → offered eng = none) := by
  unfold step
  split
  · next i now =>
    split
    · next hr =>
      intro eng he
      obtain ⟨l, h1, h2, h3⟩ := Station.block_step cf s.station (.engine i (.registered .same now)) e eng he
      refine ⟨l, h1, fun x hx => h2 x (by have := hx.1; simpa using this), fun x hx => ?_⟩
      rcases h3 x hx with h | h
      · have hi : i = e := by simp only [StationAct.engine.injEq] at h; exact h.1
        exact .inl ⟨by rw [h], fun _ _ => .inl (by rw [← hi]; exact hr)⟩
      · exact .inr h
    · next hr =>
      intro eng he
      by_cases hi : i = e
      · subst hi
        cases ho : offered eng with
        | none =>
          have hnone : ∀ eng, s.station.engines[i]? = some eng → offered eng = none := by
            intro eng' he'
            rw [he] at he'
            cases he'
            exact ho
          refine ⟨[.registered .same now], ?_, fun x hx => ?_, fun x hx => ?_⟩
          · show _ = some (eng.step (.registered .same now))
            rw [offered_none ho _ _ (hs eng he)]
            exact he
          · have := hx.1
            simp only [RelayAct.station.injEq, StationAct.engine.injEq, true_and] at this
            rw [this]
          · rw [List.mem_singleton.1 hx]
            exact .inl ⟨rfl, fun _ _ => .inr hnone⟩
        | some evs =>
          refine ⟨[], he, fun x hx => ?_, by simp⟩
          have := hx.1
          simp only [RelayAct.station.injEq, StationAct.engine.injEq, true_and] at this
          rcases hx.2 now this.symm with h | h
          · exact absurd h (by simpa using hr)
          · rw [h eng he] at ho; cases ho
      · refine ⟨[], he, fun x hx => ?_, by simp⟩
        have := hx.1
        simp only [RelayAct.station.injEq, StationAct.engine.injEq] at this
        exact absurd this.1 hi
  · next act hact =>
    intro eng he
    obtain ⟨l, h1, h2, h3⟩ := Station.block_step cf s.station act e eng he
    refine ⟨l, h1, fun x hx => h2 x (by have := hx.1; simpa using this), fun x hx => ?_⟩
    rcases h3 x hx with h | h
    · exact .inl ⟨by rw [h], fun now hx' => absurd (h.trans (by rw [hx'])) (hact e now)⟩
    · exact .inr h
  · next i =>
    unfold tell
    split
    · next evs _ _ _ _ =>
      have : s.station.step cf (.host (.notify evs false false)) = s.station.hostStep cf (.notify evs false false) := rfl
      simp only [this]
      exact Station.block_host cf _ _ e (by simp)
    · exact Station.block_same rfl e (by simp)

end Relay
end HatEvent
