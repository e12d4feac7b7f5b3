import Verif.Spec.EventerServer
import Verif.Proof.Tactics
import Mathlib.Data.List.Induction
import Mathlib.Data.List.Nodup

/-!
# Eventer server
-/

namespace HatEvent
open Spec
namespace EvServer

theorem run_snoc (s : EvServer) (acts : List EvAct) (a : EvAct) : s.run (acts ++ [a]) = (s.run acts).step a := by
  simp [run]

theorem run_append (s : EvServer) (as bs : List EvAct) : s.run (as ++ bs) = (s.run as).run bs := by
  simp [run]

theorem setConn_conns (s : EvServer) (id i : Nat) (f : Conn → Conn) :
    (s.setConn id f).conns i = if i = id then f (s.conns i) else s.conns i := rfl

theorem setConn_self (s : EvServer) (id : Nat) (f : Conn → Conn) :
    (s.setConn id f).conns id = f (s.conns id) := by simp [setConn_conns]

theorem setConn_other (s : EvServer) {id i : Nat} (h : i ≠ id) (f : Conn → Conn) :
    (s.setConn id f).conns i = s.conns i := by simp [setConn_conns, h]

theorem establish_conns (s : EvServer) (id i : Nat) (info : ConnInfo) : (s.establish id info).conns i =
    if i = id then { s.conns i with sent := (s.conns i).sent ++ [.initOk s.status], phase := .ready info }
    else s.conns i := by
  show ((s.post id (.initOk s.status)).setConn id (fun c => { c with phase := .ready info })).conns i = _
  rw [setConn_conns]
  by_cases hi : i = id
  · simp only [hi, if_true, post, setConn_self]
  · simp only [hi, if_false, post, setConn_other _ hi]

/-! ### Actions that tell clients nothing -/

/-- No status or notification is sent and no new client is known. -/
structure Calm (s s' : EvServer) : Prop where
  useC : s'.useC = s.useC
  token : s'.token = s.token
  status : s'.status = s.status
  tasks : s'.tasks = s.tasks
  nextCall : s'.nextCall = s.nextCall
  nextConv : s'.nextConv = s.nextConv
  infos : s'.infos.Sublist s.infos
  lost : ∀ id, (s.conns id).lost = true → (s'.conns id).lost = true
  told : ∀ id, statuses (s'.conns id).sent = statuses (s.conns id).sent
  notes : ∀ k id, notesOf k (s'.conns id).sent = notesOf k (s.conns id).sent
  targets : ∀ k, (s'.calls k).targets = (s.calls k).targets
  withAck : ∀ k, (s'.calls k).withAck = (s.calls k).withAck
  unsent : ∀ k id, (s'.calls k).state id = .unsent ↔ (s.calls k).state id = .unsent

theorem Calm.refl (s : EvServer) : Calm s s :=
  ⟨rfl, rfl, rfl, rfl, rfl, rfl, List.Sublist.refl _, fun _ h => h, fun _ => rfl, fun _ _ => rfl, fun _ => rfl,
    fun _ => rfl, fun _ _ => Iff.rfl⟩

theorem Calm.trans {a b c : EvServer} (h : Calm a b) (h' : Calm b c) : Calm a c where
  useC := h'.useC.trans h.useC
  token := h'.token.trans h.token
  status := h'.status.trans h.status
  tasks := h'.tasks.trans h.tasks
  nextCall := h'.nextCall.trans h.nextCall
  nextConv := h'.nextConv.trans h.nextConv
  infos := h'.infos.trans h.infos
  lost id hl := h'.lost id (h.lost id hl)
  told id := (h'.told id).trans (h.told id)
  notes k id := (h'.notes k id).trans (h.notes k id)
  targets k := (h'.targets k).trans (h.targets k)
  withAck k := (h'.withAck k).trans (h.withAck k)
  unsent k id := (h'.unsent k id).trans (h.unsent k id)

theorem calm_set {s : EvServer} {id : Nat} {f : Conn → Conn} (hs : ∀ c, (f c).sent = c.sent)
    (hl : ∀ c : Conn, c.lost = true → (f c).lost = true) : Calm s (s.setConn id f) := by
  refine ⟨rfl, rfl, rfl, rfl, rfl, rfl, List.Sublist.refl _, ?_, ?_, ?_, fun _ => rfl, fun _ => rfl, fun _ _ => Iff.rfl⟩
  · intro i h
    rw [setConn_conns]
    split
    · exact hl _ h
    · exact h
  · intro i
    rw [setConn_conns]
    split
    · rw [hs]
    · rfl
  · intro k i
    rw [setConn_conns]
    split
    · rw [hs]
    · rfl

theorem post_sent (s : EvServer) (id i : Nat) (m : ServerMsg) :
    ((s.post id m).conns i).sent = if i = id then (s.conns i).sent ++ [m] else (s.conns i).sent := by
  unfold post
  rw [setConn_conns]
  split <;> rfl

theorem post_lost (s : EvServer) (id i : Nat) (m : ServerMsg) : ((s.post id m).conns i).lost = (s.conns i).lost := by
  unfold post
  rw [setConn_conns]
  split <;> rfl

theorem statuses_append (l l' : List ServerMsg) : statuses (l ++ l') = statuses l ++ statuses l' := by
  simp [statuses]

theorem notesOf_append (k : Nat) (l l' : List ServerMsg) : notesOf k (l ++ l') = notesOf k l ++ notesOf k l' := by
  simp [notesOf]

theorem calm_post {s : EvServer} {id : Nat} {m : ServerMsg} (h1 : statuses [m] = []) (h2 : ∀ k, notesOf k [m] = []) :
    Calm s (s.post id m) := by
  refine ⟨rfl, rfl, rfl, rfl, rfl, rfl, List.Sublist.refl _, ?_, ?_, ?_, fun _ => rfl, fun _ => rfl, fun _ _ => Iff.rfl⟩
  · intro i h; rw [post_lost]; exact h
  · intro i
    rw [post_sent]
    split
    · rw [statuses_append, h1, List.append_nil]
    · rfl
  · intro k i
    rw [post_sent]
    split
    · rw [notesOf_append, h2, List.append_nil]
    · rfl

theorem calm_endLoop (s : EvServer) (id : Nat) : Calm s (s.endLoop id) := by
  have h := calm_set (s := s) (id := id) (f := fun c => { c with phase := .ended, lost := true }) (fun _ => rfl)
    (fun _ _ => rfl)
  refine ⟨rfl, rfl, rfl, rfl, rfl, rfl, List.filter_sublist, h.lost, h.told, h.notes, fun _ => rfl, fun _ => rfl, ?_⟩
  intro k i
  show failDelivery ((s.calls k).state i) = .unsent ↔ _
  cases (s.calls k).state i <;> simp [failDelivery]

theorem calm_reject (s : EvServer) (id : Nat) : Calm s (s.reject id) := by
  unfold reject
  split
  · exact calm_endLoop s id
  · exact (calm_post rfl fun _ => rfl).trans (calm_set (fun _ => rfl) fun _ h => h)

theorem calm_respond (s : EvServer) (id : Nat) (info : ConnInfo) {m : ServerMsg} (h1 : statuses [m] = [])
    (h2 : ∀ k, notesOf k [m] = []) : Calm s (s.respond id info m) := by
  unfold respond
  split
  · exact calm_endLoop s id
  · exact (calm_post h1 h2).trans (calm_set (fun _ => rfl) fun _ h => h)

theorem calm_acknowledge (s : EvServer) (id conv : Nat) : Calm s (s.acknowledge id conv) := by
  have h := calm_set (s := s) (id := id) (f := fun c => { c with acks := c.acks ++ [conv] }) (fun _ => rfl)
    (fun _ h => h)
  refine ⟨rfl, rfl, rfl, rfl, rfl, rfl, List.Sublist.refl _, h.lost, h.told, h.notes, fun _ => rfl, fun _ => rfl, ?_⟩
  intro k i
  show (if i = id ∧ (s.calls k).state i = .waiting conv then Delivery.done else (s.calls k).state i) = .unsent ↔ _
  split
  · next h => simp [h.2]
  · exact Iff.rfl

theorem calm_receive (s : EvServer) (id : Nat) (msg : ClientMsg) : Calm s (s.receive id msg) := by
  unfold receive
  split
  · split
    · unfold initConn
      split
      · exact calm_reject s id
      · split
        · exact calm_set (fun _ => rfl) fun _ h => h
        · exact calm_reject s id
    · exact calm_endLoop s id
  · unfold process
    split
    · exact calm_acknowledge s id _
    · exact calm_set (fun _ => rfl) fun _ h => h
    · exact calm_set (fun _ => rfl) fun _ h => h
    · exact calm_endLoop s id
    · exact calm_endLoop s id
  · exact Calm.refl s

theorem calm_reply (s : EvServer) (id : Nat) (result : Handled) : Calm s (s.reply id result) := by
  unfold reply
  split
  · split
    · exact calm_endLoop s id
    · split
      · exact calm_set (fun _ => rfl) fun _ h => h
      · exact calm_respond s id _ rfl fun _ => rfl
    · exact calm_respond s id _ rfl fun _ => rfl
    · exact Calm.refl s
  · exact Calm.refl s

theorem calm_giveUp (s : EvServer) (id : Nat) : Calm s (s.giveUp id) := by
  unfold giveUp
  split
  · split
    · exact calm_endLoop s id
    · exact Calm.refl s
  · split
    · exact calm_endLoop s id
    · exact Calm.refl s
  · exact calm_endLoop s id
  · exact Calm.refl s

theorem calm_accept (s : EvServer) : Calm s (s.step .accept) := by
  have h := calm_set (s := s) (id := s.nextConn) (f := fun c => { c with phase := .waiting }) (fun _ => rfl)
    (fun _ h => h)
  exact ⟨rfl, rfl, rfl, rfl, rfl, rfl, List.Sublist.refl _, h.lost, h.told, h.notes, fun _ => rfl, fun _ => rfl,
    fun _ _ => Iff.rfl⟩

theorem calm_lose (s : EvServer) (id : Nat) : Calm s (s.step (.lose id)) :=
  calm_set (f := fun c => { c with lost := true }) (fun _ => rfl) fun _ _ => rfl

/-! ### Status -/

/-- Clients know the status or are going to be told. -/
def Told (s : EvServer) : Prop :=
  ∀ p ∈ s.infos, (s.conns p.1).lost = false →
    (statuses (s.conns p.1).sent).getLast? = some s.status ∨ ∃ k, p.1 ∈ s.tasks k

theorem told_calm {s s' : EvServer} (h : Calm s s') (ht : Told s) : Told s' := by
  intro p hp hl
  rw [h.told, h.status, h.tasks]
  refine ht p (h.infos.subset hp) ?_
  by_contra hc
  rw [h.lost p.1 (by simpa using hc)] at hl
  cases hl

theorem told_step {s : EvServer} (a : EvAct) (ht : Told s) : Told (s.step a) := by
  cases a with
  | accept => exact told_calm (calm_accept s) ht
  | lose id => exact told_calm (calm_lose s id) ht
  | receive id msg => exact told_calm (calm_receive s id msg) ht
  | connected id ok =>
    simp only [step, connected]
    split
    · next info hph =>
      split
      · split
        · exact told_calm (calm_endLoop s id) ht
        · intro p hp hl
          simp only [establish, List.mem_append, List.mem_singleton] at hp
          rw [establish_conns] at hl ⊢
          by_cases hi : p.1 = id
          · left
            simp [hi, statuses]
            rfl
          · rcases hp with hp | hp
            · simp only [hi, if_false] at hl ⊢
              exact ht p hp hl
            · rw [hp] at hi; exact absurd rfl hi
      · exact told_calm (calm_reject s id) ht
    · exact ht
  | reply id result => exact told_calm (calm_reply s id result) ht
  | giveUp id => exact told_calm (calm_giveUp s id) ht
  | setStatus status =>
    simp only [step, setStatus]
    split
    · exact ht
    · intro p hp _
      right
      exact ⟨s.nextTask, by simpa using ⟨p.2, hp⟩⟩
  | statusStep task =>
    simp only [step, statusStep]
    split
    · exact ht
    · next id rest heq =>
      have hkeep : ∀ i, i ≠ id → (∃ k, i ∈ s.tasks k) → ∃ k, i ∈ (if k = task then rest else s.tasks k) := by
        rintro i hi ⟨k, hk⟩
        refine ⟨k, ?_⟩
        split
        · next h =>
          rw [h, heq] at hk
          rcases List.mem_cons.1 hk with rfl | hk
          · exact absurd rfl hi
          · exact hk
        · exact hk
      split
      · next hlost =>
        intro p hp hl
        have hi : p.1 ≠ id := by
          intro h
          rw [h] at hl
          simp only at hlost hl
          rw [hlost] at hl; cases hl
        rcases ht p hp hl with h | h
        · exact .inl h
        · exact .inr (hkeep p.1 hi h)
      · intro p hp hl
        by_cases hi : p.1 = id
        · left
          simp [post_sent, hi, statuses]
          rfl
        · rw [post_lost] at hl
          rw [post_sent]
          simp only [hi, if_false]
          rcases ht p hp hl with h | h
          · exact .inl h
          · exact .inr (hkeep p.1 hi h)
  | notify events persisted withAck => exact ht
  | send call id =>
    simp only [step, send]
    split
    · split
      · split
        · exact ht
        · intro p hp hl
          change ((s.post id _).conns p.1).lost = false at hl
          rw [post_lost] at hl
          change (statuses ((s.post id _).conns p.1).sent).getLast? = _ ∨ _
          rw [post_sent]
          rcases ht p hp hl with h | h
          · left
            split
            · rw [statuses_append]
              have e : ∀ k c es, statuses [.events k c es] = [] := fun _ _ _ => rfl
              rw [e, List.append_nil]
              exact h
            · exact h
          · exact .inr h
      · exact ht
    · exact ht
  | await_ call id =>
    simp only [step, awaitAck]
    split
    · exact ht
    · exact ht

theorem told_run (useC : Bool) (token : Option String) (acts : List EvAct) : Told ((init useC token).run acts) := by
  induction acts using List.reverseRecOn with
  | nil => intro p hp; simp [run, init] at hp
  | append_singleton acts a ih => rw [run_snoc]; exact told_step a ih

end EvServer
end HatEvent
