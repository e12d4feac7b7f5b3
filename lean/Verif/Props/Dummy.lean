import Verif.Model.Dummy
import Verif.Props.Engine

/-!
# C50 with the dummy backend
-/

namespace HatEvent
open Spec

/-- **C50 does not hold** with the dummy backend: all engines that run on it, one after the other, begin with the same identifier, whatever they have
registered.  (Both are taken to have made a second call of `register`, so that the first one was made for a session that was not interrupted.) -/
theorem C50_dummy_refuted (r f : Bool) (conf conf' : EngineConf) (hsame : conf'.serverId = conf.serverId) (before : List (List Event)) (first last : EventId)
    (acts acts' : List EngineAct)
    (hfirst : ((DummyBackend.new r f).run before).getLastEventId conf.serverId = .ok first)
    (hlast : ((DummyBackend.new r f).run (before ++ ((Engine.create conf first).run acts).sent)).getLastEventId conf'.serverId = .ok last)
    (a b : Event) (l l' : List Event) (m m' : List (List Event))
    (ha : ((Engine.create conf first).run acts).sent = (a :: l) :: m) (hb : ((Engine.create conf' last).run acts').sent = (b :: l') :: m')
    (hm : m ≠ []) (hm' : m' ≠ []) : a.id = b.id := by
  cases hfirst
  cases hlast
  have h0 : 0 < m.length := List.length_pos_iff.2 hm
  have h0' : 0 < m'.length := List.length_pos_iff.2 hm'
  obtain ⟨n, t, h1, h2⟩ := C18_sessions conf ⟨conf.serverId, 0, 0⟩ rfl acts 0 (a :: l) (by rw [ha]; rfl)
  obtain ⟨n', t', h1', h2'⟩ := C18_sessions conf' ⟨conf'.serverId, 0, 0⟩ rfl acts' 0 (b :: l') (by rw [hb]; rfl)
  rw [ha] at h2
  rw [hb] at h2'
  simp only [List.length_cons] at h2 h2'
  have e : n = n' := by
    rcases h2 with h2 | ⟨-, h2, -⟩
    · rcases h2' with h2' | ⟨-, h2', -⟩
      · rw [h2, h2']
      · omega
    · omega
  rw [(h1 0 a rfl).1, (h1' 0 b rfl).1, hsame, e]

/-- Both engines give the identifier `7, 1, 1` to an event. -/
example : ∃ a b l l' m m', ((Engine.create exEngineConf ⟨7, 0, 0⟩).run (exFirst ++ [.close (exAt 5)])).sent = (a :: l) :: m ∧
    ((Engine.create exEngineConf ⟨7, 0, 0⟩).run (exFirst ++ [.close (exAt 9)])).sent = (b :: l') :: m' ∧ m ≠ [] ∧ m' ≠ [] ∧ a.id = ⟨7, 1, 1⟩ :=
  ⟨_, _, _, _, _, _, rfl, rfl, nofun, nofun, rfl⟩

end HatEvent
