import Verif.Spec.AdminServer
import Verif.Proof.Tactics
import Mathlib.Data.List.Forall2
import Mathlib.Data.List.Induction

/-! # Facts about the adminer server -/

namespace HatEvent
namespace AdminServer

theorem run_snoc (s : AdminServer) (acts : List AdminServerAct) (a : AdminServerAct) :
    s.run (acts ++ [a]) = (s.run acts).step a := by simp [run]

theorem run_append (s : AdminServer) (xs ys : List AdminServerAct) : s.run (xs ++ ys) = (s.run xs).run ys := by simp [run]

theorem setConn_conns (s : AdminServer) (id i : Nat) (f : AdminConn → AdminConn) :
    (s.setConn id f).conns i = if i = id then f (s.conns i) else s.conns i := rfl

theorem endLoop_conf (s : AdminServer) (id : Nat) : (s.endLoop id).conf = s.conf := rfl

theorem respond_conf (s : AdminServer) (id : Nat) (res : AdminRes) : (s.respond id res).conf = s.conf := by
  unfold respond; split <;> rfl

theorem store_conns (s : AdminServer) (conf : Json) (ok : Bool) : (s.store conf ok).conns = s.conns := by
  unfold store; split <;> rfl

theorem respond_conns (s : AdminServer) (id i : Nat) (res : AdminRes) : (s.respond id res).conns i =
    if i = id then
      if (s.conns id).lost then { s.conns i with running := false, lost := true }
      else { s.conns i with sent := (s.conns i).sent ++ [res] }
    else s.conns i := by
  unfold respond
  split
  · show (if i = id then _ else _) = _; rfl
  · rfl

/-! ### The configuration -/

theorem conf_step {s : AdminServer} {a : AdminServerAct} (h : ¬ s.Sets a) : (s.step a).conf = s.conf := by
  cases a with
  | accept => rfl
  | lose id => rfl
  | giveUp id =>
    show (s.giveUp id).conf = _
    unfold giveUp; split <;> rfl
  | receive id req ok =>
    show (s.receive id req ok).conf = _
    unfold receive
    split
    · next hr =>
      cases req with
      | get conv => simp only; rw [respond_conf]; rfl
      | set conv conf =>
        simp only
        rw [respond_conf]
        cases ok with
        | true => exact absurd ⟨id, conv, conf, rfl, hr⟩ h
        | false => rfl
      | other => rfl
    · rfl

theorem conf_run {s : AdminServer} {acts : List AdminServerAct} (h : s.Quiet acts) : (s.run acts).conf = s.conf := by
  induction acts using List.reverseRecOn with
  | nil => rfl
  | append_singleton acts a ih =>
    rw [run_snoc, conf_step (h acts a [] rfl)]
    exact ih fun pre b post e => h pre b (post ++ [a]) (by rw [e]; simp)

theorem conf_set {s : AdminServer} {id conv : Nat} {conf : Json} (h : (s.conns id).running = true) :
    (s.step (.receive id (.set conv conf) true)).conf = conf := by
  show (s.receive id (.set conv conf) true).conf = _
  unfold receive
  rw [if_pos h]
  simp only
  rw [respond_conf]; rfl

/-! ### Responses -/

theorem other_step {s : AdminServer} {a : AdminServerAct} {id : Nat} (h : a.about s.next ≠ id) :
    (s.step a).conns id = s.conns id := by
  have h' : ¬ id = a.about s.next := fun e => h e.symm
  cases a with
  | accept => exact if_neg h'
  | lose i => exact if_neg h'
  | giveUp i =>
    show (s.giveUp i).conns id = _
    unfold giveUp; split
    · exact if_neg h'
    · rfl
  | receive i req ok =>
    have hi : ¬ id = i := h'
    show (s.receive i req ok).conns id = _
    unfold receive
    split
    · cases req with
      | get conv => simp only; rw [respond_conns, if_neg hi]; exact if_neg hi
      | set conv conf => simp only; rw [respond_conns, if_neg hi, store_conns]; exact if_neg hi
      | other => exact if_neg h'
    · rfl

/-- The responses of a connection: one for each request, or the loop has ended and the last ones are missing. -/
structure Paired (c : AdminConn) : Prop where
  run : c.running = true → List.Forall₂ Fits c.handled c.sent
  all : ∃ l, l <+: c.handled ∧ List.Forall₂ Fits l c.sent

theorem paired_end {c : AdminConn} (h : Paired c) : Paired { c with running := false, lost := true } :=
  ⟨fun h => by simp at h, h.all⟩

theorem paired_answer {c : AdminConn} (h : Paired c) (hr : c.running = true) {req : AdminReq} {res : AdminRes}
    (hf : Fits req res) : Paired { c with handled := c.handled ++ [req], sent := c.sent ++ [res] } := by
  have e : List.Forall₂ Fits (c.handled ++ [req]) (c.sent ++ [res]) :=
    List.rel_append (h.run hr) (.cons hf .nil)
  exact ⟨fun _ => e, _, List.prefix_rfl, e⟩

theorem paired_drop {c : AdminConn} (h : Paired c) (req : AdminReq) :
    Paired { c with handled := c.handled ++ [req], running := false, lost := true } := by
  obtain ⟨l, h1, h2⟩ := h.all
  exact ⟨fun h => by simp at h, l, h1.trans (List.prefix_append _ _), h2⟩

theorem paired_step {s : AdminServer} (a : AdminServerAct) {id : Nat} (h : Paired (s.conns id))
    (hn : (s.conns s.next).handled = [] ∧ (s.conns s.next).sent = []) : Paired ((s.step a).conns id) := by
  by_cases ha : a.about s.next = id
  swap
  · rw [other_step ha]; exact h
  subst ha
  cases a with
  | accept =>
    have e : (s.step .accept).conns s.next = { s.conns s.next with running := true } := if_pos rfl
    show Paired ((s.step .accept).conns s.next)
    rw [e]
    refine ⟨fun _ => ?_, [], List.nil_prefix, ?_⟩
    · rw [hn.1, hn.2]; exact .nil
    · rw [hn.2]; exact .nil
  | lose i =>
    have e : (s.step (.lose i)).conns i = { s.conns i with lost := true } := if_pos rfl
    show Paired ((s.step (.lose i)).conns i)
    rw [e]; exact ⟨h.run, h.all⟩
  | giveUp i =>
    show Paired ((s.giveUp i).conns i)
    unfold giveUp; split
    · have e : (s.endLoop i).conns i = { s.conns i with running := false, lost := true } := if_pos rfl
      rw [e]; exact paired_end h
    · exact h
  | receive i req ok =>
    have h : Paired (s.conns i) := h
    show Paired ((s.receive i req ok).conns i)
    unfold receive
    split
    · next hr =>
      have ht : (s.take i req).conns i = { s.conns i with handled := (s.conns i).handled ++ [req] } := if_pos rfl
      cases req with
      | get conv =>
        simp only
        rw [respond_conns, if_pos rfl, ht]
        split
        · exact paired_drop h _
        · exact paired_answer h hr (.get conv s.conf)
      | set conv conf =>
        simp only
        rw [respond_conns, if_pos rfl, store_conns, ht]
        split
        · exact paired_drop h _
        · exact paired_answer h hr (.set conv conf ok)
      | other =>
        have e : (s.endLoop i).conns i = { s.conns i with running := false, lost := true } := if_pos rfl
        simp only
        rw [e]; exact paired_end h
    · exact h

/-- Connections that do not exist yet have nothing. -/
def Fresh (s : AdminServer) : Prop :=
  ∀ i, s.next ≤ i → (s.conns i).running = false ∧ (s.conns i).handled = [] ∧ (s.conns i).sent = []

instance (a : AdminServerAct) : Decidable (a = .accept) := by
  cases a <;> first | exact isTrue rfl | exact isFalse (by simp)

theorem next_step (s : AdminServer) (a : AdminServerAct) : (s.step a).next = if a = .accept then s.next + 1 else s.next := by
  have hr : ∀ (t : AdminServer) id res, (t.respond id res).next = t.next := by
    intro t id res; unfold respond; split <;> rfl
  cases a with
  | accept => rfl
  | lose id => rfl
  | giveUp id => show (s.giveUp id).next = _; unfold giveUp; split <;> rfl
  | receive id req ok =>
    show (s.receive id req ok).next = s.next
    unfold receive
    split
    · cases req with
      | get conv => simp only; rw [hr]; rfl
      | set conv conf => simp only; rw [hr]; cases ok <;> rfl
      | other => rfl
    · rfl

theorem fresh_step {s : AdminServer} (a : AdminServerAct) (h : Fresh s) : Fresh (s.step a) := by
  intro i hi
  rw [next_step] at hi
  have hle : s.next ≤ i := by split at hi <;> omega
  by_cases ha : a.about s.next = i
  swap
  · rw [other_step ha]; exact h i hle
  subst ha
  have h := h _ hle
  cases a with
  | accept => simp [AdminServerAct.about] at hi
  | lose j =>
    have e : (s.step (.lose j)).conns j = { s.conns j with lost := true } := if_pos rfl
    show ((s.step (.lose j)).conns j).running = false ∧ _
    simp only [AdminServerAct.about]
    rw [e]; exact h
  | giveUp j =>
    show ((s.giveUp j).conns j).running = false ∧ ((s.giveUp j).conns j).handled = [] ∧ ((s.giveUp j).conns j).sent = []
    unfold giveUp; split
    · have e : (s.endLoop j).conns j = { s.conns j with running := false, lost := true } := if_pos rfl
      rw [e]; exact ⟨rfl, h.2⟩
    · exact h
  | receive j req ok =>
    have h : (s.conns j).running = false ∧ _ := h
    have e : s.step (.receive j req ok) = s := by
      show s.receive j req ok = s
      unfold receive; rw [if_neg (by rw [h.1]; simp)]
    rw [e]; exact h

theorem fresh_run (conf : Json) (acts : List AdminServerAct) : Fresh ((init conf).run acts) := by
  induction acts using List.reverseRecOn with
  | nil => intro i _; exact ⟨rfl, rfl, rfl⟩
  | append_singleton acts a ih => rw [run_snoc]; exact fresh_step a ih

theorem paired_run (conf : Json) (acts : List AdminServerAct) (id : Nat) : Paired (((init conf).run acts).conns id) := by
  induction acts using List.reverseRecOn with
  | nil => exact ⟨fun _ => .nil, [], List.prefix_rfl, .nil⟩
  | append_singleton acts a ih =>
    rw [run_snoc]; exact paired_step a ih (fresh_run conf acts _ (Nat.le_refl _)).2

theorem handled_run (conf : Json) (acts : List AdminServerAct) (id : Nat) :
    (((init conf).run acts).conns id).handled.Sublist (requestsOf id acts) := by
  induction acts using List.reverseRecOn with
  | nil => exact List.Sublist.refl _
  | append_singleton acts a ih =>
    have he : requestsOf id (acts ++ [a]) = requestsOf id acts ++ requestsOf id [a] := by simp [requestsOf]
    rw [run_snoc, he]
    generalize (init conf).run acts = s at ih
    by_cases ha : a.about s.next = id
    swap
    · rw [other_step ha]; exact ih.trans (List.sublist_append_left _ _)
    subst ha
    cases a with
    | accept =>
      have e : (s.step .accept).conns s.next = { s.conns s.next with running := true } := if_pos rfl
      simp only [AdminServerAct.about] at ih ⊢
      rw [e]; exact ih.trans (List.sublist_append_left _ _)
    | lose i =>
      have e : (s.step (.lose i)).conns i = { s.conns i with lost := true } := if_pos rfl
      simp only [AdminServerAct.about] at ih ⊢
      rw [e]; exact ih.trans (List.sublist_append_left _ _)
    | giveUp i =>
      simp only [AdminServerAct.about] at ih ⊢
      refine List.Sublist.trans ?_ (ih.trans (List.sublist_append_left _ _))
      show ((s.giveUp i).conns i).handled.Sublist _
      unfold giveUp; split
      · have e : (s.endLoop i).conns i = { s.conns i with running := false, lost := true } := if_pos rfl
        rw [e]
      · exact List.Sublist.refl _
    | receive i req ok =>
      simp only [AdminServerAct.about] at ih ⊢
      have hq : requestsOf i [.receive i req ok] = [req] := by simp [requestsOf]
      rw [hq]
      have ht : (s.take i req).conns i = { s.conns i with handled := (s.conns i).handled ++ [req] } := if_pos rfl
      have hgrow : ((s.conns i).handled ++ [req]).Sublist (requestsOf i acts ++ [req]) :=
        ih.append (List.Sublist.refl _)
      have hsame : (s.conns i).handled.Sublist (requestsOf i acts ++ [req]) := ih.trans (List.sublist_append_left _ _)
      show ((s.receive i req ok).conns i).handled.Sublist _
      unfold receive
      split
      · cases req with
        | get conv =>
          simp only
          rw [respond_conns, if_pos rfl, ht]
          split <;> exact hgrow
        | set conv c =>
          simp only
          rw [respond_conns, if_pos rfl, store_conns, ht]
          split <;> exact hgrow
        | other =>
          have e : (s.endLoop i).conns i = { s.conns i with running := false, lost := true } := if_pos rfl
          simp only
          rw [e]; exact hsame
      · exact hsame

end AdminServer
end HatEvent
