import Verif.Spec.RelayLive
import Verif.Proof.Relay

/-!
# What the schedule of an event server is for its eventer server
-/

namespace HatEvent
open Spec

/-- Not the reception of a message. -/
def NoReceive (l : List EvAct) : Prop := ∀ i m, EvAct.receive i m ∉ l

/-- The actions of the eventer server in an action with its callbacks. -/
structure HostActs (s : Host) (a : HostAct) (t : Host) (l : List EvAct) : Prop where
  run : t.server = s.server.run l
  receive : ∀ i m, a = .receive i m → ∃ l', l = .receive i m :: l' ∧ NoReceive l'
  other : (∀ i m, a ≠ .receive i m) → NoReceive l
  answer : ∀ i r info conv evs last, a = .answer i r → (s.server.conns i).phase = .busy info (.register conv evs last) → .reply i r.handled ∈ l
  query : ∀ i r info conv params, a = .queried i r → (s.server.conns i).phase = .busy info (.query conv params) →
    ∃ h, .reply i h ∈ l ∧ ReplyFits (.query conv params) h
  single : ∀ k i, a = .send k i → l = [.send k i]

namespace Host

theorem acts_one {s : Host} {a : HostAct} {t : Host} (x : EvAct) (ht : t.server = s.server.step x) (ha : ∀ i m, a ≠ .receive i m) (hx : ∀ i m, x ≠ .receive i m)
    (h1 : ∀ i r info conv evs last, a = .answer i r → (s.server.conns i).phase = .busy info (.register conv evs last) → x = .reply i r.handled)
    (h2 : ∀ i r info conv params, a = .queried i r → (s.server.conns i).phase = .busy info (.query conv params) →
      ∃ h, x = .reply i h ∧ ReplyFits (.query conv params) h)
    (h3 : ∀ k i, a = .send k i → x = .send k i) : HostActs s a t [x] where
  run := ht
  receive i m h := absurd h (ha i m)
  other _ i m h := hx i m (List.mem_singleton.1 h).symm
  answer i r info conv evs last h hb := by rw [h1 i r info conv evs last h hb]; simp
  query i r info conv params h hb := by
    obtain ⟨x', e, hf⟩ := h2 i r info conv params h hb
    exact ⟨x', by rw [e]; simp, hf⟩
  single k i h := by rw [h3 k i h]

theorem acts_step (s : Host) (a : HostAct) : ∃ l, HostActs s a (s.step a) l := by
  have recv : ∀ (i : Nat) (m : ClientMsg) (t : Host) (l' : List EvAct), a = .receive i m → NoReceive l' →
      t.server = (s.server.step (.receive i m)).run l' → HostActs s a t (.receive i m :: l') := by
    rintro i m t l' rfl hl ht
    refine ⟨ht, ?_, ?_, ?_, ?_, ?_⟩
    · rintro i' m' h; cases h; exact ⟨l', rfl, hl⟩
    · intro h; exact absurd rfl (h i m)
    · intro _ _ _ _ _ _ h; cases h
    · intro _ _ _ _ _ h; cases h
    · intro _ _ h; cases h
  have none_ : ∀ (i : Nat) (m : ClientMsg) (t : Host), a = .receive i m → t.server = s.server.step (.receive i m) →
      ∃ l, HostActs s a t l := fun i m t ha ht => ⟨_, recv i m t [] ha (by intro _ _ h; cases h) ht⟩
  have one_ : ∀ (i : Nat) (m : ClientMsg) (t : Host) (x : EvAct), a = .receive i m → (∀ i m, x ≠ .receive i m) →
      t.server = (s.server.step (.receive i m)).step x → ∃ l, HostActs s a t l :=
    fun i m t x ha hx ht => ⟨_, recv i m t [x] ha (by intro i m h; exact hx i m (List.mem_singleton.1 h).symm) ht⟩
  cases a with
  | receive i msg =>
    show ∃ l, HostActs s _ ((s.serve (.receive i msg)).afterReceive i (s.server.conns i).phase) l
    unfold afterReceive
    split
    · unfold onConnected
      split
      · exact none_ i msg _ rfl rfl
      · exact one_ i msg _ (.connected i true) rfl (fun _ _ h => (nomatch h)) (settle_server _ _ _)
    · unfold onRegister
      split
      · exact one_ i msg _ (.reply i (Handled.registered none)) rfl (fun _ _ h => (nomatch h)) (settle_server _ _ _)
      · split
        · exact one_ i msg _ (.reply i (Handled.registered (some []))) rfl (fun _ _ h => (nomatch h)) (settle_server _ _ _)
        · exact none_ i msg _ rfl rfl
    · exact none_ i msg _ rfl (onDisconnected_server _ _ _)
    · exact none_ i msg _ rfl rfl
  | giveUp i =>
    show ∃ l, HostActs s _ (s.giveUp i) l
    unfold giveUp
    split
    · exact ⟨_, acts_one (.giveUp i) (settle_server _ _ _) (by simp) (by simp) (by simp) (by simp) (by simp)⟩
    · exact ⟨_, acts_one (.giveUp i) rfl (by simp) (by simp) (by simp) (by simp) (by simp)⟩
  | answer i result =>
    show ∃ l, HostActs s _ (s.answer i result) l
    unfold answer
    split
    · next info hp =>
      have hno : ∀ i' r info' conv evs last, HostAct.answer i result = .answer i' r →
          (s.server.conns i').phase = .busy info' (.register conv evs last) → False := by
        intro i' r info' conv evs last he hb
        cases he
        rw [hp] at hb
        cases hb
      split
      · exact ⟨_, acts_one (.connected i true) (settle_server _ _ _) (by simp) (by simp) (fun i' r info' conv evs last he hb => (hno _ _ _ _ _ _ he hb).elim) (by simp) (by simp)⟩
      · exact ⟨_, acts_one (.connected i false) rfl (by simp) (by simp) (fun i' r info' conv evs last he hb => (hno _ _ _ _ _ _ he hb).elim) (by simp) (by simp)⟩
    · refine ⟨_, acts_one (.reply i result.handled) (settle_server _ _ _) (by simp) (by simp) ?_ (by simp) (by simp)⟩
      intro i' r info' conv evs last he hb
      cases he
      rfl
    · next h1 h2 =>
      refine ⟨[], rfl, by simp, (fun _ i m h => (nomatch h)), ?_, by simp, by simp⟩
      intro i' r info' conv evs last he hb
      cases he
      exact absurd hb (h2 _ _ _ _)
  | queried i result =>
    show ∃ l, HostActs s _ (s.queried i result) l
    unfold queried
    split
    · next info conv params hp =>
      have hfit : ∀ (h : Handled), ReplyFits (.query conv params) h → ∀ i' r info' conv' params', HostAct.queried i result = .queried i' r →
          (s.server.conns i').phase = .busy info' (.query conv' params') → ∃ h', EvAct.reply i h = .reply i' h' ∧ ReplyFits (.query conv' params') h' := by
        intro h hf i' r info' conv' params' he hb
        cases he
        rw [hp] at hb
        cases hb
        exact ⟨h, rfl, hf⟩
      split
      · next r => exact ⟨_, acts_one (.reply i (.queried r)) (settle_server _ _ _) (by simp) (by simp) (by simp) (hfit _ (.query _ _ _)) (by simp)⟩
      · exact ⟨_, acts_one (.reply i .raised) (settle_server _ _ _) (by simp) (by simp) (by simp) (hfit _ (.raised _)) (by simp)⟩
    · next h1 =>
      refine ⟨[], rfl, by simp, (fun _ i m h => (nomatch h)), by simp, ?_, by simp⟩
      intro i' r info' conv params he hb
      cases he
      exact absurd hb (h1 _ _ _)
  | setStatus st e =>
    show ∃ l, HostActs s _ (s.setStatus st e) l
    unfold setStatus
    split
    · exact ⟨_, acts_one (.setStatus st) rfl (by simp) (by simp) (by simp) (by simp) (by simp)⟩
    · exact ⟨[], rfl, by simp, fun _ i m h => (by cases h), by simp, by simp, by simp⟩
  | closeEngine e => exact ⟨[], rfl, by simp, fun _ i m h => (by cases h), by simp, by simp, by simp⟩
  | accept => exact ⟨_, acts_one .accept rfl (by simp) (by simp) (by simp) (by simp) (by simp)⟩
  | lose i => exact ⟨_, acts_one (.lose i) rfl (by simp) (by simp) (by simp) (by simp) (by simp)⟩
  | statusStep task => exact ⟨_, acts_one (.statusStep task) rfl (by simp) (by simp) (by simp) (by simp) (by simp)⟩
  | notify es p w => exact ⟨_, acts_one (.notify es p w) rfl (by simp) (by simp) (by simp) (by simp) (by simp)⟩
  | send k i => exact ⟨_, acts_one (.send k i) rfl (by simp) (by simp) (by simp) (by simp) (by intro k' i' h; cases h; rfl)⟩
  | await_ k i => exact ⟨_, acts_one (.await_ k i) rfl (by simp) (by simp) (by simp) (by simp) (by simp)⟩

end Host
end HatEvent
