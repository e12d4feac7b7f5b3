import Verif.Spec.ReqClient
import Verif.Proof.Tactics
import Mathlib.Data.List.Induction

/-!
# The eventer client
-/

namespace HatEvent
open Spec
namespace ReqClient

theorem run_snoc (s : ReqClient) (acts : List ReqAct) (a : ReqAct) : s.run (acts ++ [a]) = (s.run acts).step a := by
  simp [run]

theorem run_append (s : ReqClient) (a b : List ReqAct) : s.run (a ++ b) = (s.run a).run b := by
  simp [run]

theorem run_cons (s : ReqClient) (a : ReqAct) (b : List ReqAct) : s.run (a :: b) = (s.step a).run b := rfl

/-- Requests, and whether they want a response. -/
def _root_.HatEvent.ReqAct.asks : ReqAct → Option Bool
  | .register _ w => some w
  | .query _ => some true
  | _ => none

/-- How one call may move in one action. -/
inductive Moves (s : ReqClient) (k : Nat) : ReqAct → CallPhase → Prop
  | stay (a : ReqAct) : Moves s k a (s.calls k)
  | made (a : ReqAct) (h : k = s.nextCall) (p : CallPhase) (w : Bool) (ha : a.asks = some w)
      (hp : (s.isOpen = true ∧ p = .sending s.nextConv w) ∨ (s.isOpen = false ∧ p = .finished .connectionError)) :
      Moves s k a p
  | wait (conv : Nat) (h : s.calls k = .sending conv true) (ho : s.isOpen = true) : Moves s k (.sendDone k) (.waiting conv)
  | fail (conv : Nat) (h : s.calls k = .sending conv true) (ho : s.isOpen = false) :
      Moves s k (.sendDone k) (.finished .connectionError)
  | sent (conv : Nat) (h : s.calls k = .sending conv false) : Moves s k (.sendDone k) (.finished .nothing)
  | resume (conv : Nat) (e : CallEnd) (h : s.calls k = .resolved conv e) : Moves s k (.resume k) (.finished e)
  | cancel (h1 : s.calls k ≠ .absent) (h2 : ∀ e, s.calls k ≠ .finished e) : Moves s k (.cancel k) (.finished .cancelled)
  | answer (conv : Nat) (x : Answer) (h : s.calls k = .waiting conv) :
      Moves s k (.receive (.answer conv x)) (.resolved conv (.answered x))
  | close (a : ReqAct) (conv : Nat) (h : s.calls k = .waiting conv) (h1 : ∀ c x, a ≠ .receive (.answer c x)) :
      Moves s k a (.resolved conv .connectionError)

theorem moves_end {s : ReqClient} {k : Nat} {a : ReqAct} (h1 : ∀ c x, a ≠ .receive (.answer c x)) :
    Moves s k a (s.endLoop.calls k) := by
  show Moves s k a (failCall (s.calls k))
  unfold failCall
  split
  · next conv h => exact .close a conv h h1
  · exact .stay a

theorem moves_step (s : ReqClient) (a : ReqAct) (k : Nat) : Moves s k a ((s.step a).calls k) := by
  have hreq : ∀ m w, a.asks = some w → Moves s k a ((s.request m w).calls k) := by
    intro m w ha
    unfold request
    by_cases hk : k = s.nextCall
    · split
      · next ho =>
        refine .made a hk _ w ha (.inl ⟨ho, ?_⟩)
        simp [setCall, hk]
      · next ho =>
        refine .made a hk _ w ha (.inr ⟨by simpa using ho, ?_⟩)
        simp [setCall, hk]
    · split <;> simp only [setCall, hk, if_false] <;> exact .stay a
  cases a with
  | start =>
    simp only [step, start]
    split <;> exact .stay _
  | register events w => exact hreq _ _ rfl
  | query params => exact hreq _ _ rfl
  | sendDone j =>
    simp only [step, sendDone]
    split
    · next conv w h =>
      by_cases hk : k = j
      · subst hk
        cases w with
        | true =>
          simp only [if_true]
          split
          · next ho => simp only [setCall, if_true]; exact .wait conv h ho
          · next ho => simp only [setCall, if_true]; exact .fail conv h (by simpa using ho)
        | false =>
          rw [if_neg (by simp)]
          simp only [setCall, if_true]
          exact .sent conv h
      · split
        · split <;> simp only [setCall, hk, if_false] <;> exact .stay _
        · simp only [setCall, hk, if_false]; exact .stay _
    · exact .stay _
  | resume j =>
    simp only [step, resume]
    split
    · next conv e h =>
      by_cases hk : k = j
      · subst hk
        simp only [setCall, if_true]
        exact .resume conv e h
      · simp only [setCall, hk, if_false]; exact .stay _
    · exact .stay _
  | cancel j =>
    simp only [step, cancel]
    split
    · exact .stay _
    · exact .stay _
    · next h1 h2 =>
      by_cases hk : k = j
      · subst hk
        simp only [setCall, if_true]
        exact .cancel h1 h2
      · simp only [setCall, hk, if_false]; exact .stay _
  | receive msg =>
    simp only [step, receive]
    split
    · unfold process
      split
      · exact .stay _
      · exact .stay _
      · next conv x =>
        show Moves s k _ (answerCall conv x (s.calls k))
        unfold answerCall
        split
        · next c h =>
          split
          · next hc => subst hc; exact .answer c x h
          · rw [← h]; exact .stay _
        · exact .stay _
      · exact moves_end (by simp)
    · exact .stay _
  | callbackDone ok =>
    simp only [step, callbackDone]
    split
    · split
      · unfold afterCallback
        split
        · unfold acknowledge
          split
          · exact .stay _
          · exact moves_end (by simp)
        · exact .stay _
      · exact moves_end (by simp)
    · exact .stay _
  | close => exact .stay _
  | stop =>
    simp only [step, stop]
    split
    · exact .stay _
    · split
      · exact moves_end (by simp)
      · exact moves_end (by simp)
      · exact .stay _

/-- Counters, closing and the loop. -/
theorem next_step (s : ReqClient) (a : ReqAct) :
    s.nextCall ≤ (s.step a).nextCall ∧ s.nextConv ≤ (s.step a).nextConv ∧
      (s.isOpen = false → (s.step a).isOpen = false) := by
  have hreq : ∀ m w, s.nextCall ≤ (s.request m w).nextCall ∧ s.nextConv ≤ (s.request m w).nextConv ∧
      (s.isOpen = false → (s.request m w).isOpen = false) := by
    intro m w
    unfold request
    split
    · exact ⟨Nat.le_succ _, Nat.le_succ _, fun h => h⟩
    · exact ⟨Nat.le_succ _, Nat.le_refl _, fun h => h⟩
  have hr : s.nextCall ≤ s.nextCall ∧ s.nextConv ≤ s.nextConv ∧ (s.isOpen = false → s.isOpen = false) :=
    ⟨Nat.le_refl _, Nat.le_refl _, id⟩
  have he : s.nextCall ≤ s.endLoop.nextCall ∧ s.nextConv ≤ s.endLoop.nextConv ∧
      (s.isOpen = false → s.endLoop.isOpen = false) := ⟨Nat.le_refl _, Nat.le_refl _, fun _ => rfl⟩
  cases a with
  | start => simp only [step, start]; split <;> exact hr
  | register events w => exact hreq _ _
  | query params => exact hreq _ _
  | sendDone j =>
    simp only [step, sendDone]
    split
    · split
      · split <;> exact hr
      · exact hr
    · exact hr
  | resume j => simp only [step, resume]; split <;> exact hr
  | cancel j => simp only [step, cancel]; split <;> exact hr
  | receive msg =>
    simp only [step, receive]
    split
    · unfold process
      split
      · exact hr
      · exact hr
      · exact hr
      · exact he
    · exact hr
  | callbackDone ok =>
    simp only [step, callbackDone]
    split
    · split
      · unfold afterCallback
        split
        · unfold acknowledge
          split
          · exact hr
          · exact he
        · exact hr
      · exact he
    · exact hr
  | close => exact ⟨Nat.le_refl _, Nat.le_refl _, fun _ => rfl⟩
  | stop =>
    simp only [step, stop]
    split
    · exact hr
    · split
      · exact he
      · exact he
      · exact hr

theorem request_next {s : ReqClient} {a : ReqAct} {w : Bool} (ha : a.asks = some w) :
    (s.step a).nextCall = s.nextCall + 1 ∧ (s.isOpen = true → (s.step a).nextConv = s.nextConv + 1) := by
  have hreq : ∀ m w, (s.request m w).nextCall = s.nextCall + 1 ∧
      (s.isOpen = true → (s.request m w).nextConv = s.nextConv + 1) := by
    intro m w
    unfold request
    split
    · exact ⟨rfl, fun _ => rfl⟩
    · next h => exact ⟨rfl, fun h' => absurd h' h⟩
  cases a with
  | register events w => exact hreq _ _
  | query params => exact hreq _ _
  | _ => cases ha

/-- Calls that were not made. -/
def Unmade (s : ReqClient) : Prop := ∀ k, s.nextCall ≤ k → s.calls k = .absent

theorem unmade_step {s : ReqClient} (a : ReqAct) (h : Unmade s) : Unmade (s.step a) := by
  intro k hk
  have hle := (next_step s a).1
  have hm := moves_step s a k
  have h0 := h k (Nat.le_trans hle hk)
  generalize hp : (s.step a).calls k = p at hm
  cases hm with
  | stay => exact h0
  | made _ hn _ w ha _ =>
    exfalso
    have hreq := request_next (s := s) ha
    omega
  | wait conv h => rw [h0] at h; cases h
  | fail conv h => rw [h0] at h; cases h
  | sent conv h => rw [h0] at h; cases h
  | resume conv e h => rw [h0] at h; cases h
  | cancel h1 => exact absurd h0 h1
  | answer conv x h => rw [h0] at h; cases h
  | close _ conv h => rw [h0] at h; cases h

theorem unmade_run (status : Status) (acts : List ReqAct) : Unmade ((init status).run acts) := by
  induction acts using List.reverseRecOn with
  | nil => intro k _; rfl
  | append_singleton acts a ih => rw [run_snoc]; exact unmade_step a ih

theorem finished_step {s : ReqClient} (a : ReqAct) (hu : Unmade s) {k : Nat} {e : CallEnd}
    (h : s.calls k = .finished e) : (s.step a).calls k = .finished e := by
  have hm := moves_step s a k
  generalize hp : (s.step a).calls k = p at hm
  cases hm with
  | stay => exact h
  | made _ hn _ _ _ _ => rw [hn, hu _ (Nat.le_refl _)] at h; cases h
  | wait conv h' => rw [h] at h'; cases h'
  | fail conv h' => rw [h] at h'; cases h'
  | sent conv h' => rw [h] at h'; cases h'
  | resume conv e h' => rw [h] at h'; cases h'
  | cancel h1 h2 => exact absurd h (h2 e)
  | answer conv x h' => rw [h] at h'; cases h'
  | close _ conv h' => rw [h] at h'; cases h'

/-- The life of a call that was handed over with a conversation. -/
def Own (conv : Nat) (acts : List ReqAct) (p : CallPhase) : Prop :=
  (∃ w, p = .sending conv w) ∨ p = .waiting conv ∨
    ∃ e, (p = .resolved conv e ∨ p = .finished e) ∧ ∀ x, e = .answered x → .receive (.answer conv x) ∈ acts

theorem own_step {s : ReqClient} {a : ReqAct} {conv k : Nat} {acts : List ReqAct} (hk : k < s.nextCall)
    (h : Own conv acts (s.calls k)) : Own conv (acts ++ [a]) ((s.step a).calls k) := by
  have hm := moves_step s a k
  have hmono : ∀ {p}, Own conv acts p → Own conv (acts ++ [a]) p := by
    rintro p (h | h | ⟨e, h1, h2⟩)
    · exact .inl h
    · exact .inr (.inl h)
    · exact .inr (.inr ⟨e, h1, fun x hx => List.mem_append_left _ (h2 x hx)⟩)
  generalize hp : (s.step a).calls k = p at hm
  cases hm with
  | stay => exact hmono h
  | made _ hn _ _ _ _ => omega
  | wait c h' =>
    rw [h'] at h
    rcases h with ⟨w, h⟩ | h | ⟨e, h | h, _⟩ <;> cases h
    exact .inr (.inl rfl)
  | fail c h' => exact .inr (.inr ⟨_, .inr rfl, by simp⟩)
  | sent c h' => exact .inr (.inr ⟨_, .inr rfl, by simp⟩)
  | resume c e h' =>
    rw [h'] at h
    rcases h with ⟨w, h⟩ | h | ⟨e, h | h, h2⟩ <;> cases h
    exact .inr (.inr ⟨_, .inr rfl, fun x hx => List.mem_append_left _ (h2 x hx)⟩)
  | cancel h1 h2 => exact .inr (.inr ⟨_, .inr rfl, by simp⟩)
  | answer c x h' =>
    rw [h'] at h
    rcases h with ⟨w, h⟩ | h | ⟨e, h | h, h2⟩ <;> cases h
    refine .inr (.inr ⟨_, .inl rfl, fun y hy => ?_⟩)
    cases hy
    exact List.mem_append_right _ (List.mem_singleton.2 rfl)
  | close _ c h' =>
    rw [h'] at h
    rcases h with ⟨w, h⟩ | h | ⟨e, h | h, h2⟩ <;> cases h
    exact .inr (.inr ⟨_, .inl rfl, by simp⟩)

theorem own_run {s : ReqClient} {conv k : Nat} (hk : k < s.nextCall) (h : Own conv [] (s.calls k)) (acts : List ReqAct) :
    k < (s.run acts).nextCall ∧ Own conv acts ((s.run acts).calls k) := by
  induction acts using List.reverseRecOn with
  | nil => exact ⟨hk, h⟩
  | append_singleton acts a ih =>
    rw [run_snoc]
    exact ⟨Nat.lt_of_lt_of_le ih.1 (next_step _ a).1, own_step ih.1 ih.2⟩

theorem finished_run {s : ReqClient} {k : Nat} {e : CallEnd} (acts : List ReqAct) (hu : Unmade s)
    (h : s.calls k = .finished e) : (s.run acts).calls k = .finished e := by
  induction acts generalizing s with
  | nil => exact h
  | cons a acts ih => exact ih (unmade_step a hu) (finished_step a hu h)

/-- When the loop has ended nothing waits. -/
def Quiet (s : ReqClient) : Prop := s.loop = .ended → s.isOpen = false ∧ ∀ k conv, s.calls k ≠ .waiting conv

theorem quiet_end (s : ReqClient) : Quiet s.endLoop := by
  intro _
  refine ⟨rfl, ?_⟩
  intro k conv h
  change failCall (s.calls k) = _ at h
  unfold failCall at h
  split at h
  · cases h
  · next h' => exact h' conv h

theorem moves_waiting {s : ReqClient} {k : Nat} {a : ReqAct} {p : CallPhase} {conv : Nat} (h : Moves s k a p)
    (hp : p = .waiting conv) : s.calls k = .waiting conv ∨ (s.calls k = .sending conv true ∧ s.isOpen = true) := by
  cases h with
  | stay => exact .inl hp
  | made _ _ _ _ _ hm => rcases hm with ⟨_, hm⟩ | ⟨_, hm⟩ <;> (subst hm; cases hp)
  | wait _ h ho => cases hp; exact .inr ⟨h, ho⟩
  | _ => cases hp

theorem quiet_step {s : ReqClient} (a : ReqAct) (h : Quiet s) : Quiet (s.step a) := by
  have hgen : ((s.step a).loop = .ended → s.loop = .ended) → Quiet (s.step a) := by
    intro hl hend
    obtain ⟨h1, h2⟩ := h (hl hend)
    refine ⟨(next_step s a).2.2 h1, ?_⟩
    intro k conv hp
    rcases moves_waiting (moves_step s a k) hp with h | ⟨_, h⟩
    · exact h2 k conv h
    · rw [h1] at h; cases h
  cases a with
  | start =>
    apply hgen
    simp only [step, start]
    split
    · simp
    · exact id
  | register events w => apply hgen; simp only [step, request]; split <;> exact id
  | query params => apply hgen; simp only [step, request]; split <;> exact id
  | sendDone j =>
    apply hgen
    simp only [step, sendDone]
    split
    · split
      · split <;> exact id
      · exact id
    · exact id
  | resume j => apply hgen; simp only [step, resume]; split <;> exact id
  | cancel j => apply hgen; simp only [step, cancel]; split <;> exact id
  | receive msg =>
    by_cases hm : msg = .other ∧ s.loop = .receiving
    · obtain ⟨rfl, hl⟩ := hm
      simp only [step, receive, hl]
      exact quiet_end s
    · apply hgen
      simp only [step, receive]
      split
      · next hl =>
        unfold process
        split
        · simp
        · simp
        · exact id
        · exact absurd ⟨rfl, hl⟩ hm
      · exact id
  | callbackDone ok =>
    simp only [step, callbackDone]
    split
    · split
      · unfold afterCallback
        split
        · unfold acknowledge
          split
          · intro h; cases h
          · exact quiet_end s
        · intro h; cases h
      · exact quiet_end s
    · exact h
  | close =>
    apply hgen
    simp only [step, close]
    split
    · simp
    · exact id
  | stop =>
    simp only [step, stop]
    split
    · exact h
    · split
      · exact quiet_end s
      · exact quiet_end s
      · exact h

theorem quiet_run (status : Status) (acts : List ReqAct) : Quiet ((init status).run acts) := by
  induction acts using List.reverseRecOn with
  | nil => intro h; cases h
  | append_singleton acts a ih => rw [run_snoc]; exact quiet_step a ih

/-- A future that is done stays so until the call is resumed or cancelled. -/
theorem resolved_step {s : ReqClient} {a : ReqAct} {k conv : Nat} {e : CallEnd} (hu : Unmade s)
    (h : s.calls k = .resolved conv e) (h1 : a ≠ .cancel k) :
    (s.step a).calls k = .resolved conv e ∨ (s.step a).calls k = .finished e := by
  have hm := moves_step s a k
  generalize hp : (s.step a).calls k = p at hm
  cases hm with
  | stay => exact .inl h
  | made _ hn _ _ _ _ => rw [hn, hu _ (Nat.le_refl _)] at h; cases h
  | wait conv h' => rw [h] at h'; cases h'
  | fail conv h' => rw [h] at h'; cases h'
  | sent conv h' => rw [h] at h'; cases h'
  | resume conv e h' => rw [h] at h'; cases h'; exact .inr rfl
  | cancel _ h2 => exact absurd rfl h1
  | answer conv x h' => rw [h] at h'; cases h'
  | close _ conv h' => rw [h] at h'; cases h'

theorem resolved_run {s : ReqClient} {k conv : Nat} {e : CallEnd} (acts : List ReqAct) (hu : Unmade s)
    (h : s.calls k = .resolved conv e ∨ s.calls k = .finished e) (hc : .cancel k ∉ acts) :
    (s.run acts).calls k = .resolved conv e ∨ (s.run acts).calls k = .finished e := by
  induction acts generalizing s with
  | nil => exact h
  | cons a acts ih =>
    simp only [List.mem_cons, not_or] at hc
    refine ih (unmade_step a hu) ?_ hc.2
    rcases h with h | h
    · exact resolved_step hu h (Ne.symm hc.1)
    · exact .inr (finished_step a hu h)

/-- Conversations in use are old. -/
def ConvsOk (s : ReqClient) : Prop := (s.sent.filterMap requestConv).Nodup ∧ ∀ m ∈ s.sent, ∀ c, requestConv m = some c → c < s.nextConv

theorem convsOk_step {s : ReqClient} (a : ReqAct) (h : ConvsOk s) : ConvsOk (s.step a) := by
  have hreq : ∀ (m : Nat → ClientMsg) w, (∀ c, requestConv (m c) = some c) → ConvsOk (s.request m w) := by
    intro m w hm
    unfold request
    split
    · refine ⟨?_, ?_⟩
      · show (List.filterMap requestConv (s.sent ++ [m s.nextConv])).Nodup
        rw [List.filterMap_append, List.nodup_append]
        refine ⟨h.1, ?_, ?_⟩
        · simp [hm]
        · intro c hc d hd
          simp only [List.filterMap_cons, hm, List.filterMap_nil, List.mem_singleton] at hd
          obtain ⟨x, hx1, hx2⟩ := List.mem_filterMap.1 hc
          have := h.2 x hx1 c hx2
          omega
      · intro x hx c hc
        show c < s.nextConv + 1
        rcases List.mem_append.1 hx with hx | hx
        · exact Nat.lt_succ_of_lt (h.2 x hx c hc)
        · rw [List.mem_singleton.1 hx, hm] at hc
          cases hc
          exact Nat.lt_succ_self _
    · exact h
  cases a with
  | start => simp only [step, start]; split <;> exact h
  | register events w => exact hreq _ _ fun _ => rfl
  | query params => exact hreq _ _ fun _ => rfl
  | sendDone j =>
    simp only [step, sendDone]
    split
    · split
      · split <;> exact h
      · exact h
    · exact h
  | resume j => simp only [step, resume]; split <;> exact h
  | cancel j => simp only [step, cancel]; split <;> exact h
  | receive msg =>
    simp only [step, receive]
    split
    · unfold process
      split <;> exact h
    · exact h
  | callbackDone ok =>
    simp only [step, callbackDone]
    split
    · split
      · unfold afterCallback
        split
        · unfold acknowledge
          split
          · refine ⟨?_, ?_⟩
            · show (List.filterMap requestConv (s.sent ++ [_])).Nodup
              rw [List.filterMap_append]
              show (List.filterMap requestConv s.sent ++ []).Nodup
              rw [List.append_nil]
              exact h.1
            · intro x hx c hc
              rcases List.mem_append.1 hx with hx | hx
              · exact h.2 x hx c hc
              · rw [List.mem_singleton.1 hx] at hc; cases hc
          · exact h
        · exact h
      · exact h
    · exact h
  | close => exact h
  | stop =>
    simp only [step, stop]
    split
    · exact h
    · split <;> exact h

theorem convsOk_run (status : Status) (acts : List ReqAct) : ConvsOk ((init status).run acts) := by
  induction acts using List.reverseRecOn with
  | nil => exact ⟨List.nodup_nil, by simp [run, init]⟩
  | append_singleton acts a ih => rw [run_snoc]; exact convsOk_step a ih

/-- A notification was received and its callback has finished. -/
def Seen (acts : List ReqAct) (conv : Nat) : Prop :=
  ∃ pre mid post events, acts = pre ++ .receive (.notify conv events false) :: mid ++ .callbackDone true :: post

structure AcksOk (acts : List ReqAct) (s : ReqClient) : Prop where
  seen : ∀ conv, .ack conv ∈ s.sent → Seen acts conv
  calling : ∀ msg, s.loop = .calling msg → ∃ pre mid, acts = pre ++ .receive msg :: mid

theorem Seen.snoc {acts : List ReqAct} {conv : Nat} (a : ReqAct) (h : Seen acts conv) : Seen (acts ++ [a]) conv := by
  obtain ⟨pre, mid, post, events, rfl⟩ := h
  exact ⟨pre, mid, post ++ [a], events, by simp⟩

theorem acksOk_step {s : ReqClient} {acts : List ReqAct} (a : ReqAct) (h : AcksOk acts s) :
    AcksOk (acts ++ [a]) (s.step a) := by
  have hgen : ∀ {s' : ReqClient}, (∀ conv, .ack conv ∈ s'.sent → .ack conv ∈ s.sent) →
      (∀ msg, s'.loop = .calling msg → s.loop = .calling msg) → AcksOk (acts ++ [a]) s' := by
    intro s' h1 h2
    refine ⟨fun conv hc => (h.seen conv (h1 conv hc)).snoc a, ?_⟩
    intro msg hm
    obtain ⟨pre, mid, rfl⟩ := h.calling msg (h2 msg hm)
    exact ⟨pre, mid ++ [a], by simp⟩
  have hreq : ∀ (m : Nat → ClientMsg) w, (∀ c c', m c ≠ .ack c') → AcksOk (acts ++ [a]) (s.request m w) := by
    intro m w hm
    unfold request
    split
    · refine hgen ?_ fun _ h => h
      intro conv hc
      rcases List.mem_append.1 hc with hc | hc
      · exact hc
      · exact absurd (List.mem_singleton.1 hc).symm (hm _ _)
    · exact hgen (fun _ h => h) fun _ h => h
  have hend : AcksOk (acts ++ [a]) s.endLoop := hgen (fun _ h => h) (by simp [endLoop])
  have hsame : AcksOk (acts ++ [a]) s := hgen (fun _ h => h) fun _ h => h
  cases a with
  | start =>
    simp only [step, start]
    split
    · exact hgen (fun _ h => h) (by simp)
    · exact hsame
  | register events w => exact hreq (fun conv => .register conv events (!w)) w (by simp)
  | query params => exact hreq (fun conv => .query conv params) true (by simp)
  | sendDone j =>
    simp only [step, sendDone]
    split
    · split
      · split <;> exact hgen (fun _ h => h) fun _ h => h
      · exact hgen (fun _ h => h) fun _ h => h
    · exact hsame
  | resume j =>
    simp only [step, resume]
    split
    · exact hgen (fun _ h => h) fun _ h => h
    · exact hsame
  | cancel j =>
    simp only [step, cancel]
    split
    · exact hsame
    · exact hsame
    · exact hgen (fun _ h => h) fun _ h => h
  | receive msg =>
    simp only [step, receive]
    split
    · unfold process
      split
      · refine ⟨hsame.seen, ?_⟩
        intro m hm
        cases hm
        exact ⟨acts, [], rfl⟩
      · refine ⟨hsame.seen, ?_⟩
        intro m hm
        cases hm
        exact ⟨acts, [], rfl⟩
      · exact hgen (fun _ h => h) fun _ h => h
      · exact hend
    · exact hsame
  | callbackDone ok =>
    simp only [step, callbackDone]
    split
    · next msg hl =>
      split
      · next hok =>
        subst hok
        unfold afterCallback
        split
        · next conv events =>
          unfold acknowledge
          split
          · refine ⟨?_, by simp⟩
            intro c hc
            rcases List.mem_append.1 hc with hc | hc
            · exact hsame.seen c hc
            · cases List.mem_singleton.1 hc
              obtain ⟨pre, mid, he⟩ := h.calling _ hl
              exact ⟨pre, mid, [], events, by rw [he]⟩
          · exact hend
        · exact hgen (fun _ h => h) (by simp)
      · exact hend
    · exact hsame
  | close =>
    refine hgen (fun _ h => h) ?_
    intro msg hm
    simp only [step, close] at hm
    split at hm
    · cases hm
    · exact hm
  | stop =>
    simp only [step, stop]
    split
    · exact hsame
    · split
      · exact hend
      · exact hend
      · exact hsame

theorem acksOk_run (status : Status) (acts : List ReqAct) : AcksOk acts ((init status).run acts) := by
  induction acts using List.reverseRecOn with
  | nil => exact ⟨by simp [run, init], by simp [run, init]⟩
  | append_singleton acts a ih => rw [run_snoc]; exact acksOk_step a ih

end ReqClient
end HatEvent
