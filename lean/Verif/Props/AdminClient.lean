import Verif.Model.AdminClient
import Verif.Proof.Tactics
import Mathlib.Data.List.Induction

/-!
# Adminer client (C55)
-/

namespace HatEvent
namespace AdminClient

theorem run_snoc (s : AdminClient) (acts : List AdminAct) (a : AdminAct) : s.run (acts ++ [a]) = (s.run acts).step a := by
  simp [run]

theorem run_append (s : AdminClient) (a b : List AdminAct) : s.run (a ++ b) = (s.run a).run b := by
  simp [run]

/-- Requests that were not made. -/
def Unmade (s : AdminClient) : Prop := ∀ k, s.next ≤ k → s.calls k = .absent

/-- The loop runs. -/
def Live (s : AdminClient) : Prop := s.isOpen = true ∧ s.ended = false ∧ s.started = true

/-- An action that does not stop the loop. -/
def Fine (s : AdminClient) : AdminAct → Prop
  | .receive msg => s.calls msg.conv = .waiting msg.kind
  | .close => False
  | _ => True

theorem fine_step {s : AdminClient} {a : AdminAct} (hu : Unmade s) (hl : Live s) (h : Fine s a) :
    Unmade (s.step a) ∧ Live (s.step a) := by
  have hset : ∀ {k : Nat} {p : AdminPhase}, s.calls k ≠ .absent → Unmade (s.setCall k p) ∧ Live (s.setCall k p) := by
    intro k p hk
    refine ⟨?_, hl⟩
    intro i hi
    show (if i = k then p else s.calls i) = _
    rw [if_neg]
    · exact hu i hi
    · rintro rfl
      exact hk (hu _ hi)
  cases a with
  | start => simp only [step, start, hl.1, if_true]; exact ⟨hu, rfl, hl.2.1, rfl⟩
  | request kind =>
    refine ⟨?_, hl⟩
    intro i hi
    have hi : s.next + 1 ≤ i := hi
    show (if i = s.next then _ else s.calls i) = _
    rw [if_neg (by omega)]
    exact hu i (by omega)
  | sendDone k =>
    simp only [step, sendDone]
    split
    · next hp => exact hset (by rw [hp]; simp)
    · exact ⟨hu, hl⟩
  | resume k =>
    simp only [step, resume]
    split
    · next hp => exact hset (by rw [hp]; simp)
    · exact ⟨hu, hl⟩
  | cancel k =>
    simp only [step, cancel]
    split
    · exact ⟨hu, hl⟩
    · exact ⟨hu, hl⟩
    · next hp _ => exact hset hp
  | receive msg =>
    have h : s.calls msg.conv = .waiting msg.kind := h
    simp only [step, receive, h, hl.2.1, hl.2.2, if_true]
    exact hset (by rw [h]; simp)
  | close => cases h
  | stop =>
    simp only [step, stop, hl.1, if_true]
    exact ⟨hu, hl⟩

/-- A request with a response keeps it. -/
theorem got_step {s : AdminClient} {a : AdminAct} {k : Nat} {r : AdminEnd} (hu : Unmade s) (hl : Live s) (h : Fine s a)
    (hc : a ≠ .cancel k) (hr : s.calls k = .resolved r ∨ s.calls k = .finished r) :
    (s.step a).calls k = .resolved r ∨ (s.step a).calls k = .finished r := by
  have hother : ∀ {j : Nat} {p : AdminPhase}, k ≠ j → (s.setCall j p).calls k = .resolved r ∨ (s.setCall j p).calls k = .finished r := by
    intro j p hj
    show (if k = j then p else s.calls k) = _ ∨ (if k = j then p else s.calls k) = _
    rw [if_neg hj]
    exact hr
  cases a with
  | start => simp only [step, start, hl.1, if_true]; exact hr
  | request kind =>
    have hk : k ≠ s.next := by
      rintro rfl
      rw [hu _ (Nat.le_refl _)] at hr
      simp at hr
    exact hother hk
  | sendDone j =>
    simp only [step, sendDone]
    split
    · next hp => exact hother (by rintro rfl; rw [hp] at hr; simp at hr)
    · exact hr
  | resume j =>
    simp only [step, resume]
    split
    · next r' hp =>
      by_cases hj : k = j
      · subst hj
        rw [hp] at hr
        simp only [AdminPhase.resolved.injEq, reduceCtorEq, or_false] at hr
        subst hr
        right
        show (if k = k then _ else _) = _
        rw [if_pos rfl]
      · exact hother hj
    · exact hr
  | cancel j =>
    simp only [step, cancel]
    split
    · exact hr
    · exact hr
    · exact hother (by rintro rfl; exact hc rfl)
  | receive msg =>
    have h : s.calls msg.conv = .waiting msg.kind := h
    simp only [step, receive, h, hl.2.1, hl.2.2, if_true]
    exact hother (by rintro rfl; rw [h] at hr; simp at hr)
  | close => cases h
  | stop =>
    simp only [step, stop, hl.1, if_true]
    exact hr

/-- A history in which every message finds its request. -/
def FineRun : AdminClient → List AdminAct → Prop
  | _, [] => True
  | s, a :: acts => Fine s a ∧ FineRun (s.step a) acts

theorem fineRun_run {s : AdminClient} {acts : List AdminAct} (hu : Unmade s) (hl : Live s) (h : FineRun s acts) :
    Unmade (s.run acts) ∧ Live (s.run acts) := by
  induction acts generalizing s with
  | nil => exact ⟨hu, hl⟩
  | cons a acts ih =>
    obtain ⟨h1, h2⟩ := fine_step hu hl h.1
    exact ih h1 h2 h.2

theorem got_run {s : AdminClient} {acts : List AdminAct} {k : Nat} {r : AdminEnd} (hu : Unmade s) (hl : Live s)
    (h : FineRun s acts) (hc : .cancel k ∉ acts) (hr : s.calls k = .resolved r ∨ s.calls k = .finished r) :
    (s.run acts).calls k = .resolved r ∨ (s.run acts).calls k = .finished r := by
  induction acts generalizing s with
  | nil => exact hr
  | cons a acts ih =>
    simp only [List.mem_cons, not_or] at hc
    obtain ⟨h1, h2⟩ := fine_step hu hl h.1
    exact ih h1 h2 h.2 hc.2 (got_step hu hl h.1 (Ne.symm hc.1) hr)

end AdminClient

open AdminClient

/-- The client is not closed by anyone and every received message is the response for a request that waits for it. -/
def Answering (acts : List AdminAct) : Prop :=
  .close ∉ acts ∧ ∀ pre msg post, acts = pre ++ .receive msg :: post →
    (AdminClient.run {} pre).calls msg.conv = .waiting msg.kind

theorem fineRun_of {s : AdminClient} {acts : List AdminAct} (h1 : .close ∉ acts)
    (h2 : ∀ pre msg post, acts = pre ++ .receive msg :: post → (s.run pre).calls msg.conv = .waiting msg.kind) :
    FineRun s acts := by
  induction acts generalizing s with
  | nil => trivial
  | cons a acts ih =>
    simp only [List.mem_cons, not_or] at h1
    refine ⟨?_, ih h1.2 ?_⟩
    · cases a with
      | receive msg => exact h2 [] msg acts rfl
      | close => exact absurd rfl h1.1
      | _ => trivial
    · intro pre msg post he
      exact h2 (a :: pre) msg post (by rw [he]; rfl)

/-- **C55** As long as the server answers only requests that still wait, cancelling requests does not disturb the others: the
client stays open and every request that was answered ends with its own response. Missing: the response for a request that was
cancelled, see `C55_refuted`. -/
theorem C55_partial (before after : List AdminAct) (msg : AdminMsg)
    (h : Answering (before ++ .receive msg :: after)) (hc : .cancel msg.conv ∉ after) :
    (AdminClient.run {} (before ++ .receive msg :: after)).isOpen = true ∧
    (AdminClient.run {} (before ++ .receive msg :: after ++ [.resume msg.conv])).calls msg.conv =
      .finished (match msg.data with
        | some data => .success data
        | none => .adminerError) := by
  have hf := fineRun_of h.1 h.2
  have hu0 : Unmade {} := fun _ _ => rfl
  have hl0 : Live {} := ⟨rfl, rfl, rfl⟩
  have hsplit : ∀ {s : AdminClient} {a b : List AdminAct}, FineRun s (a ++ b) → FineRun s a ∧ FineRun (s.run a) b := by
    intro s a b
    induction a generalizing s with
    | nil => intro h; exact ⟨trivial, h⟩
    | cons x a ih =>
      intro h
      obtain ⟨i1, i2⟩ := ih h.2
      exact ⟨⟨h.1, i1⟩, i2⟩
  obtain ⟨f1, f2, f3⟩ := hsplit hf
  obtain ⟨hu1, hl1⟩ := fineRun_run hu0 hl0 f1
  obtain ⟨hu2, hl2⟩ := fine_step hu1 hl1 f2
  have f2' : (AdminClient.run {} before).calls msg.conv = .waiting msg.kind := f2
  have hres : ((AdminClient.run {} before).step (.receive msg)).calls msg.conv = .resolved (result msg.data) := by
    simp only [AdminClient.step, receive, f2', hl1.2.1, hl1.2.2, if_true]
    show (if msg.conv = msg.conv then _ else _) = _
    rw [if_pos rfl]
  have hgot := got_run hu2 hl2 f3 hc (.inl hres)
  have hrun : AdminClient.run {} (before ++ .receive msg :: after) =
      ((AdminClient.run {} before).step (.receive msg)).run after := by
    rw [run_append]; rfl
  rw [run_snoc, hrun]
  refine ⟨(fineRun_run hu2 hl2 f3).2.1, ?_⟩
  generalize (((AdminClient.run {} before).step (.receive msg)).run after) = s at hgot ⊢
  have hr : result msg.data = (match msg.data with
        | some data => .success data
        | none => .adminerError) := by
    unfold result; rfl
  rw [← hr]
  rcases hgot with hg | hg
  · simp only [AdminClient.step, resume, hg]
    show (if msg.conv = msg.conv then _ else _) = _
    rw [if_pos rfl]
  · simp only [AdminClient.step, resume, hg]

/-- Two requests, the first is cancelled. -/
def exAdmin : List AdminAct :=
  [.request .getLogConf, .request .setLogConf, .sendDone 0, .sendDone 1, .cancel 0]

example : Answering (exAdmin ++ .receive ⟨1, .setLogConf, some .null⟩ :: [.request .getLogConf]) ∧
    (.cancel 1 : AdminAct) ∉ [AdminAct.request .getLogConf] := by
  refine ⟨⟨by simp [exAdmin], ?_⟩, by simp⟩
  intro pre msg post h
  match pre with
  | [] => simp [exAdmin] at h
  | [_] => simp [exAdmin] at h
  | [_, _] => simp [exAdmin] at h
  | [_, _, _] => simp [exAdmin] at h
  | [_, _, _, _] => simp [exAdmin] at h
  | [a, b, c, d, e] =>
    simp [exAdmin] at h
    obtain ⟨rfl, rfl, rfl, rfl, rfl, rfl, rfl⟩ := h
    rfl
  | [_, _, _, _, _, _] => simp [exAdmin] at h
  | _ :: _ :: _ :: _ :: _ :: _ :: _ :: rest => simp [exAdmin] at h

/-- **C55** is false: the response for a cancelled request ends the receive loop (`adminer/client.py:101-102`), closes the client and fails
the other requests. Here request 0 is cancelled, both requests are answered, and request 1 ends with `ConnectionError`. -/
theorem C55_refuted :
    ¬ ∀ (before after : List AdminAct) (msg : AdminMsg), .close ∉ before ++ after → (.cancel msg.conv ∉ before ++ after) →
      (AdminClient.run {} before).calls msg.conv = .waiting msg.kind → 
      (∀ m, .receive m ∈ before ++ after → m.conv < (AdminClient.run {} before).next ∧ m.conv ≠ msg.conv) →
      (AdminClient.run {} (before ++ after ++ [.receive msg, .resume msg.conv])).calls msg.conv =
        .finished (AdminClient.result msg.data) := by
  intro h
  have h := h exAdmin [.receive ⟨0, .getLogConf, some .null⟩] ⟨1, .setLogConf, some .null⟩ (by simp [exAdmin])
    (by simp [exAdmin]) rfl (by simp [exAdmin, AdminClient.run, AdminClient.step, AdminClient.request, AdminClient.setCall,
      AdminClient.sendDone, AdminClient.cancel])
  cases h

end HatEvent
