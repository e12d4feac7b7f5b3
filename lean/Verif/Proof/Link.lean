import Verif.Model.Link
import Verif.Proof.EventerNotes
import Verif.Proof.ReqClient

/-! # A client connected to a server: proofs -/

namespace HatEvent
open Spec
namespace EvServer

/-- All notifications among messages. -/
def allNotes (sent : List ServerMsg) : List (List Event) :=
  sent.filterMap fun m => match m with
    | .events _ _ es => some es
    | _ => none

theorem allNotes_append (l l' : List ServerMsg) : allNotes (l ++ l') = allNotes l ++ allNotes l' := by simp [allNotes]

theorem allNotes_nil {l : List ServerMsg} (h : ∀ k, notesOf k l = []) : allNotes l = [] := by
  rw [allNotes, List.filterMap_eq_nil_iff]
  intro m hm
  cases m with
  | events k c es =>
    have := (List.filterMap_eq_nil_iff.1 (h k)) _ hm
    simp at this
  | _ => rfl

/-- Nothing happens to notifications. -/
structure Still (s s' : EvServer) : Prop where
  notes : ∀ id, allNotes (s'.conns id).sent = allNotes (s.conns id).sent
  lost : ∀ id, (s.conns id).lost = true → (s'.conns id).lost = true
  targets : ∀ k, (s'.calls k).targets = (s.calls k).targets
  unsent : ∀ k id, (s'.calls k).state id = .unsent ↔ (s.calls k).state id = .unsent
  nextCall : s'.nextCall = s.nextCall

theorem Still.refl (s : EvServer) : Still s s := ⟨fun _ => rfl, fun _ h => h, fun _ => rfl, fun _ _ => Iff.rfl, rfl⟩

theorem still_calm {s s' : EvServer} (h : Calm s s') (hl : Later s s') : Still s s' := by
  refine ⟨fun id => ?_, h.lost, h.targets, h.unsent, h.nextCall⟩
  obtain ⟨x, hx⟩ := hl.sent id
  rw [← hx, allNotes_append]
  rw [allNotes_nil (l := x), List.append_nil]
  intro k
  have := h.notes k id
  rw [← hx, notesOf_append] at this
  simpa using this

theorem still_step (s : EvServer) (a : EvAct) (h1 : ∀ ev p w, a ≠ .notify ev p w) (h2 : ∀ c i, a ≠ .send c i) : Still s (s.step a) := by
  have hl := later_step s a
  cases a with
  | accept => exact still_calm (calm_accept s) hl
  | lose id => exact still_calm (calm_lose s id) hl
  | receive id msg => exact still_calm (calm_receive s id msg) hl
  | connected id ok =>
    simp only [step, connected] at hl ⊢
    split at hl
    · next info hp =>
      split at hl
      · split at hl
        · rw [if_pos ‹_›, if_pos ‹_›]; exact still_calm (calm_endLoop s id) hl
        · rw [if_pos ‹_›, if_neg ‹_›]
          refine ⟨fun i => ?_, fun i h => ?_, fun _ => rfl, fun _ _ => Iff.rfl, rfl⟩
          · rw [establish_conns]
            split
            · simp [allNotes]
            · rfl
          · rw [establish_conns]
            split <;> exact h
      · rw [if_neg ‹_›]; exact still_calm (calm_reject s id) hl
    · exact Still.refl s
  | reply id result => exact still_calm (calm_reply s id result) hl
  | giveUp id => exact still_calm (calm_giveUp s id) hl
  | setStatus status =>
    simp only [step, setStatus]
    split
    · exact Still.refl s
    · exact ⟨fun _ => rfl, fun _ h => h, fun _ => rfl, fun _ _ => Iff.rfl, rfl⟩
  | statusStep task =>
    simp only [step, statusStep]
    split
    · exact Still.refl s
    · split
      · exact ⟨fun _ => rfl, fun _ h => h, fun _ => rfl, fun _ _ => Iff.rfl, rfl⟩
      · refine ⟨fun i => ?_, fun i h => ?_, fun _ => rfl, fun _ _ => Iff.rfl, rfl⟩
        · rw [post_sent]
          split
          · simp [allNotes]
          · rfl
        · rw [post_lost]; exact h
  | notify ev p w => exact absurd rfl (h1 ev p w)
  | send c i => exact absurd rfl (h2 c i)
  | await_ call id =>
    simp only [step, awaitAck]
    split
    · next conv hst =>
      refine ⟨fun _ => rfl, fun _ h => h, fun k => ?_, fun k i => ?_, rfl⟩
      · simp only [setDelivery]; split <;> rfl
      · simp only [setDelivery]
        split
        · next hk =>
          subst hk
          simp only
          split
          · next hi => subst hi; simp [hst]
          · exact Iff.rfl
        · exact Iff.rfl
    · exact Still.refl s

/-- What a call still has to send to a client. -/
def pending (P : Event → Bool) (s : EvServer) (k id : Nat) : List Event :=
  if (s.calls k).state id = .unsent then
    (((s.calls k).targets.find? fun t => t.1 = id).map fun t => t.2.filter P).getD []
  else []

theorem pending_still {s s' : EvServer} (h : Still s s') (P : Event → Bool) (k id : Nat) : s'.pending P k id = s.pending P k id := by
  unfold pending
  rw [h.targets]
  by_cases hu : (s.calls k).state id = .unsent
  · rw [if_pos hu, if_pos ((h.unsent k id).2 hu)]
  · rw [if_neg hu, if_neg fun hh => hu ((h.unsent k id).1 hh)]

/-- The notifications of a client that satisfy `P`. -/
def got (P : Event → Bool) (s : EvServer) (id : Nat) : List Event := (allNotes (s.conns id).sent).flatMap fun es => es.filter P

theorem got_still {s s' : EvServer} (h : Still s s') (P : Event → Bool) (id : Nat) : s'.got P id = s.got P id := by
  unfold got; rw [h.notes]

/-- A call has events for a client. -/
def Addresses (P : Event → Bool) (s : EvServer) (k id : Nat) : Prop := ∃ es, (id, es) ∈ (s.calls k).targets ∧ ∃ e ∈ es, P e = true

theorem pending_of_not_addresses {P : Event → Bool} {s : EvServer} {k id : Nat} (h : ¬ Addresses P s k id) : s.pending P k id = [] := by
  unfold pending
  split
  · cases hf : (s.calls k).targets.find? fun t => t.1 = id with
    | none => rfl
    | some t =>
      have hm := List.mem_of_find?_eq_some hf
      have h2 := List.find?_some hf
      simp only [decide_eq_true_eq] at h2
      show t.2.filter P = []
      rw [List.filter_eq_nil_iff]
      intro e he hp
      exact h ⟨t.2, by rw [← h2]; exact hm, e, he, hp⟩
  · rfl

theorem pending_of_returned {P : Event → Bool} {s : EvServer} {k id : Nat} (h : (s.calls k).returned) : s.pending P k id = [] := by
  unfold pending
  split
  · next hu =>
    cases hf : (s.calls k).targets.find? fun t => t.1 = id with
    | none => rfl
    | some t =>
      have hm := List.mem_of_find?_eq_some hf
      have h2 := List.find?_some hf
      simp only [decide_eq_true_eq] at h2
      have := h t hm
      rw [h2, hu] at this
      cases this
  · rfl

/-- What the client was to be told, against what it was told. -/
structure Owed (P : Event → Bool) (s : EvServer) (id : Nat) (due : List Event) : Prop where
  pre : s.got P id <+: due
  all : ∃ k, (∀ j, j ≠ k → s.pending P j id = []) ∧ ((s.conns id).lost = false → s.got P id ++ s.pending P k id = due)

theorem owed_still {P : Event → Bool} {s s' : EvServer} {id : Nat} {due : List Event} (h : Still s s') (ho : Owed P s id due) : Owed P s' id due := by
  refine ⟨by rw [got_still h]; exact ho.pre, ?_⟩
  obtain ⟨k, h1, h2⟩ := ho.all
  refine ⟨k, fun j hj => by rw [pending_still h]; exact h1 j hj, fun hl => ?_⟩
  rw [got_still h, pending_still h]
  refine h2 ?_
  by_contra hn
  rw [h.lost id (by simpa using hn)] at hl
  cases hl

theorem got_sent {P : Event → Bool} {s s' : EvServer} {id i : Nat} {m : ServerMsg} (h : (s'.conns i).sent = if i = id then (s.conns i).sent ++ [m] else (s.conns i).sent) :
    s'.got P i = s.got P i ++ (if i = id then (allNotes [m]).flatMap (fun es => es.filter P) else []) := by
  unfold got
  rw [h]
  split
  · rw [allNotes_append, List.flatMap_append]
  · simp

theorem owed_send {P : Event → Bool} {s : EvServer} {id : Nat} {due : List Event} (call i : Nat) (ho : Owed P s id due) :
    Owed P (s.step (.send call i)) id due := by
  simp only [step, send]
  split
  · next t hf hst =>
    split
    · -- the state of other calls and clients stays
      have hpend : ∀ (s' : EvServer) d, d ≠ .unsent → s'.calls = s.calls → ∀ j c, (s'.setDelivery call i d).pending P j c =
          if j = call ∧ c = i then [] else s.pending P j c := by
        intro s' d hd hc j c
        unfold pending
        simp only [setDelivery, hc]
        by_cases hj : j = call
        · simp only [hj, if_true, true_and]
          by_cases hi : c = i
          · simp [hi, hd]
          · simp [hi]
        · simp [hj]
      obtain ⟨k, h1, h2⟩ := ho.all
      have hti : s.pending P call i = t.2.filter P := by
        unfold pending
        rw [if_pos hst, hf]; rfl
      split
      · next hlost =>
        have hg : (s.setDelivery call i .done).got P id = s.got P id := rfl
        refine ⟨by rw [hg]; exact ho.pre, k, fun j hj => ?_, fun hl => ?_⟩
        · rw [hpend s .done (by simp) rfl]
          split
          · rfl
          · exact h1 j hj
        · change (s.conns id).lost = false at hl
          have hne : id ≠ i := by rintro rfl; rw [hlost] at hl; cases hl
          rw [hg, hpend s .done (by simp) rfl, if_neg fun hh => hne hh.2]
          exact h2 hl
      · next hlost =>
        have hlost : (s.conns i).lost = false := by simpa using hlost
        generalize hs' : ({ s.post i (.events call s.nextConv t.2) with nextConv := s.nextConv + 1 } : EvServer) = s'
        generalize hd' : (if (s.calls call).withAck = true then Delivery.sent s.nextConv else .done) = d
        have hd : d ≠ .unsent := by rw [← hd']; split <;> simp
        have hc : s'.calls = s.calls := by subst hs'; rfl
        have hg : (s'.setDelivery call i d).got P id = s.got P id ++ (if id = i then t.2.filter P else []) := by
          have := got_sent (P := P) (s := s) (s' := s'.setDelivery call i d) (id := i) (i := id) (m := .events call s.nextConv t.2)
            (by subst hs'; exact post_sent s i id _)
          rw [this]
          congr 1
          split
          · simp [allNotes]
          · rfl
        have hl' : ((s'.setDelivery call i d).conns id).lost = (s.conns id).lost := by
          subst hs'; exact post_lost s i id _
        by_cases hi : id = i
        · subst hi
          rw [if_pos rfl] at hg
          have hdue := h2 hlost
          by_cases hk : k = call
          · subst hk
            rw [hti] at hdue
            refine ⟨by rw [hg, hdue]; exact List.prefix_rfl, k, fun j hj => ?_, fun _ => ?_⟩
            · rw [hpend s' d hd hc, if_neg fun hh => hj hh.1]; exact h1 j hj
            · rw [hg, hpend s' d hd hc, if_pos ⟨rfl, rfl⟩, List.append_nil, hdue]
          · have hz := h1 call (Ne.symm hk)
            rw [hti] at hz
            rw [hz, List.append_nil] at hg
            refine ⟨by rw [hg]; exact ho.pre, k, fun j hj => ?_, fun _ => ?_⟩
            · rw [hpend s' d hd hc]
              split
              · rfl
              · exact h1 j hj
            · rw [hg, hpend s' d hd hc, if_neg fun hh => hk hh.1]; exact hdue
        · rw [if_neg hi, List.append_nil] at hg
          refine ⟨by rw [hg]; exact ho.pre, k, fun j hj => ?_, fun hl => ?_⟩
          · rw [hpend s' d hd hc, if_neg fun hh => hi hh.2]; exact h1 j hj
          · rw [hg, hpend s' d hd hc, if_neg fun hh => hi hh.2]
            exact h2 (hl' ▸ hl)
    · exact ho
  · exact ho

/-- The events a call is to send to a client, that satisfy `P`. -/
def share (P : Event → Bool) (s : EvServer) (id : Nat) (events : List Event) (persisted : Bool) : List Event :=
  (((s.infos.filterMap (target events persisted)).find? fun t => t.1 = id).map fun t => t.2.filter P).getD []

theorem owed_notify {P : Event → Bool} {s : EvServer} {id : Nat} {due : List Event} {events : List Event} {persisted withAck : Bool}
    (hseq : Addresses P (s.step (.notify events persisted withAck)) s.nextCall id → ∀ j < s.nextCall, Addresses P s j id → (s.calls j).returned)
    (hlater : ∀ k, s.nextCall ≤ k → (s.calls k).targets = [])
    (ho : Owed P s id due) : Owed P (s.step (.notify events persisted withAck)) id (due ++ s.share P id events persisted) := by
  have hg : (s.step (.notify events persisted withAck)).got P id = s.got P id := rfl
  have hp : ∀ j, (s.step (.notify events persisted withAck)).pending P j id =
      if j = s.nextCall then s.share P id events persisted else s.pending P j id := by
    intro j
    unfold pending share
    simp only [step, notify]
    split <;> simp
  have hno : ∀ j, s.nextCall ≤ j → s.pending P j id = [] := by
    intro j hj
    exact pending_of_not_addresses fun ⟨es, h, _⟩ => by rw [hlater j hj] at h; cases h
  obtain ⟨k, h1, h2⟩ := ho.all
  refine ⟨by rw [hg]; exact ho.pre.trans (List.prefix_append _ _), ?_⟩
  by_cases ha : Addresses P (s.step (.notify events persisted withAck)) s.nextCall id
  · have hall : ∀ j, s.pending P j id = [] := by
      intro j
      by_cases hj : j < s.nextCall
      · by_cases hb : Addresses P s j id
        · exact pending_of_returned (hseq ha j hj hb)
        · exact pending_of_not_addresses hb
      · exact hno j (by omega)
    refine ⟨s.nextCall, fun j hj => ?_, fun hl => ?_⟩
    · rw [hp, if_neg hj]; exact hall j
    · rw [hg, hp, if_pos rfl, ← h2 hl, hall k, List.append_nil]
  · have hz := pending_of_not_addresses ha
    rw [hp, if_pos rfl] at hz
    rw [hz, List.append_nil]
    refine ⟨k, fun j hj => ?_, fun hl => ?_⟩
    · rw [hp, hz]
      split
      · rfl
      · exact h1 j hj
    · rw [hg, hp, hz]
      split
      · next hk =>
        have := h2 hl
        rw [hno k (by omega)] at this
        exact this
      · exact h2 hl

end EvServer
end HatEvent
