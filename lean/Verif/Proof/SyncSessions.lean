import Verif.Proof.Sync

/-!
# Sessions during synchronisation
-/

namespace HatEvent
open Spec

theorem queried_append (s : Sync) (as bs : List SyncAct) :
    queried s (as ++ bs) = queried s as ++ queried (s.run as) bs := by
  induction as generalizing s with
  | nil => rfl
  | cons a as ih =>
    show answer s a ++ queried (s.step a) (as ++ bs) = _
    rw [ih]
    simp [queried, Sync.run]

theorem queried_snoc (s : Sync) (as : List SyncAct) (a : SyncAct) :
    queried s (as ++ [a]) = queried s as ++ answer (s.run as) a := by
  rw [queried_append]
  simp [queried]

/-- Sessions of the first list are before those of the second. -/
def Apart (l l' : List Event) : Prop := ∀ a ∈ l, ∀ b ∈ l', a.id.session < b.id.session

/-- State of the questions: `q` are the events received. -/
def QuestionsOk (s : Sync) (q : List Event) : SyncTask → Prop
  | .starting => s.calls = [] ∧ q = []
  | .asking _ events => WholeSessions s.calls s.calls.flatten ∧ q = s.calls.flatten ++ events ∧
      Apart s.calls.flatten events ∧ (s.calls ≠ [] → events ≠ [])
  | .answered _ events es _ => WholeSessions s.calls s.calls.flatten ∧ q = s.calls.flatten ++ events ++ es ∧
      Apart s.calls.flatten (events ++ es) ∧ (s.calls ≠ [] → events ≠ [])
  | .storing _ events _ => WholeSessions s.calls s.calls.flatten ∧ q = s.calls.flatten ++ events ∧
      Apart s.calls.flatten events ∧ (s.calls ≠ [] → events ≠ [])
  | .draining _ => ∃ qs ns, s.calls = qs ++ ns ∧ WholeSessions qs q
  | .synced => ∃ qs ns, s.calls = qs ++ ns ∧ WholeSessions qs q

theorem questionsOk_same {s s' : Sync} {q : List Event} {t : SyncTask} (hc : s'.calls = s.calls)
    (h : QuestionsOk s q t) : QuestionsOk s' q t := by
  cases t <;> simp only [QuestionsOk, hc] at h ⊢ <;> exact h

theorem session_le {a b : Event} (hs : a.id.server = b.id.server) (h : IdLt a.id b.id) :
    a.id.session ≤ b.id.session := by
  rcases h with h | ⟨_, h | ⟨h, _⟩⟩ <;> omega

theorem apart_more {c l es : List Event} {server : Int} (hi : Increasing (l ++ es)) (h : Apart c l)
    (hs : ∀ e ∈ l ++ es, e.id.server = server) (hn : c ≠ [] → l ≠ []) : Apart c (l ++ es) := by
  intro a ha b hb
  rcases List.mem_append.1 hb with hb' | hb'
  · exact h a ha b hb'
  · have hc : c ≠ [] := List.ne_nil_of_mem ha
    obtain ⟨x, hx⟩ := List.exists_mem_of_ne_nil l (hn hc)
    have h1 := h a ha x hx
    have h2 := session_le (by rw [hs x (List.mem_append_left _ hx), hs b hb]) ((List.pairwise_append.1 hi).2.2 x hx b hb')
    omega

theorem wholeSessions_snoc {calls : List (List Event)} {c : List Event} (h : WholeSessions calls calls.flatten)
    (hn : c ≠ []) (hs : ∀ a ∈ c, ∀ b ∈ c, a.id.session = b.id.session) (ha : Apart calls.flatten c) :
    WholeSessions (calls ++ [c]) (calls ++ [c]).flatten where
  all := rfl
  nonempty := by
    intro x hx
    rcases List.mem_append.1 hx with hx | hx
    · exact h.nonempty x hx
    · obtain rfl := List.mem_singleton.1 hx; exact hn
  single := by
    intro x hx
    rcases List.mem_append.1 hx with hx | hx
    · exact h.single x hx
    · obtain rfl := List.mem_singleton.1 hx; exact hs
  order := by
    rw [List.pairwise_append]
    refine ⟨h.order, List.pairwise_singleton _ _, ?_⟩
    intro x hx y hy a hxa b hyb
    obtain rfl := List.mem_singleton.1 hy
    exact ha a (List.mem_flatten.2 ⟨x, hx, hxa⟩) b hyb

/-- In an increasing list the first session is before the rest. -/
theorem takeWhile_session {e : Event} {l : List Event} {server : Int} (hi : Increasing (e :: l))
    (hs : ∀ x ∈ e :: l, x.id.server = server) :
    Apart ((e :: l).takeWhile fun x => decide (x.id.session = e.id.session))
      ((e :: l).dropWhile fun x => decide (x.id.session = e.id.session)) := by
  have hlow : ∀ x ∈ e :: l, e.id.session ≤ x.id.session := by
    intro x hx
    rcases List.mem_cons.1 hx with rfl | hx'
    · exact Int.le_refl _
    · exact session_le (by rw [hs x hx, hs e List.mem_cons_self]) ((List.pairwise_cons.1 hi).1 x hx')
  have key : ∀ m : List Event, Increasing m → (∀ x ∈ m, x.id.server = server ∧ e.id.session ≤ x.id.session) →
      ∀ b ∈ m.dropWhile fun x => decide (x.id.session = e.id.session), e.id.session < b.id.session := by
    intro m
    induction m with
    | nil => simp
    | cons x m ih =>
      intro h1 h2 b hb
      by_cases hx : x.id.session = e.id.session
      · rw [List.dropWhile_cons_of_pos (by simpa using hx)] at hb
        exact ih (List.pairwise_cons.1 h1).2 (fun y hy => h2 y (List.mem_cons_of_mem _ hy)) b hb
      · rw [List.dropWhile_cons_of_neg (by simpa using hx)] at hb
        have h3 := (h2 x List.mem_cons_self).2
        have h4 : x.id.session ≤ b.id.session := by
          rcases List.mem_cons.1 hb with rfl | hb'
          · exact Int.le_refl _
          · exact session_le (by rw [(h2 x List.mem_cons_self).1, (h2 b hb).1]) ((List.pairwise_cons.1 h1).1 b hb')
        omega
  intro a ha b hb
  have h1 : a.id.session = e.id.session := by
    have := List.all_eq_true.1 List.all_takeWhile a ha
    simpa using this
  rw [h1]
  exact key _ hi (fun x hx => ⟨hs x hx, hlow x hx⟩) b hb

/-- An increasing list whose last element is of the session of the first one is of one session. -/
theorem one_session {e : Event} {l : List Event} {server : Int} (hi : Increasing (e :: l))
    (hs : ∀ x ∈ e :: l, x.id.server = server)
    (hl : (e :: l).getLast?.map (fun x => x.id.session) = some e.id.session) :
    ∀ a ∈ e :: l, a.id.session = e.id.session := by
  intro a ha
  have h1 : e.id.session ≤ a.id.session := by
    rcases List.mem_cons.1 ha with rfl | ha'
    · exact Int.le_refl _
    · exact session_le (by rw [hs a ha, hs e List.mem_cons_self]) ((List.pairwise_cons.1 hi).1 a ha')
  have hne : e :: l ≠ [] := by simp
  rw [List.getLast?_eq_some_getLast hne] at hl
  have hl : ((e :: l).getLast hne).id.session = e.id.session := by simpa using hl
  have h2 : a.id.session ≤ ((e :: l).getLast hne).id.session := by
    have hcut := List.dropLast_concat_getLast hne
    have hi' : Increasing ((e :: l).dropLast ++ [(e :: l).getLast hne]) := by rw [hcut]; exact hi
    have hm : a ∈ (e :: l).dropLast ++ [(e :: l).getLast hne] := by rw [hcut]; exact ha
    rcases List.mem_append.1 hm with ha' | ha'
    · refine session_le ?_ ((List.pairwise_append.1 hi').2.2 a ha' _ (by simp))
      rw [hs _ (List.getLast_mem hne), hs a (List.dropLast_subset _ ha')]
    · rw [List.mem_singleton.1 ha']
  omega

theorem part_facts {s : Sync} {all g : List Event} {server : Int}
    (hs : ∀ e ∈ all, e.id.server = server) (hp : Part s all g) :
    Increasing g ∧ ∀ e ∈ g, e.id.server = server :=
  ⟨hp.sorted, fun e he => hs e (hp.known e he).1⟩

theorem questionsOk_advance {s : Sync} {all pre q : List Event} {server : Int} (h : SyncOk s all pre)
    (hs : ∀ e ∈ all, e.id.server = server) (hq : QuestionsOk s q s.task) :
    QuestionsOk s.advance q s.advance.task := by
  obtain ⟨t, hk⟩ : ∃ t, s.task = t := ⟨_, rfl⟩
  have ht := h.task
  rw [hk] at hq ht
  unfold Sync.advance
  simp only [hk]
  cases t with
  | starting =>
    obtain ⟨h1, h2⟩ := hq
    refine ⟨?_, ?_, ?_, ?_⟩
    · simp only [h1]
      exact ⟨rfl, by simp, by simp, by simp⟩
    · simp [h1, h2]
    · intro a ha; simp [h1] at ha
    · simp [h1]
  | asking a b => simp only [hk]; exact hq
  | answered last events es more =>
    obtain ⟨h1, h2, h3, h4⟩ := hq
    refine ⟨h1, ?_, h3, ?_⟩
    · rw [h2, List.append_assoc]
    · intro hc he
      exact h4 hc (List.append_eq_nil_iff.1 he).1
  | storing last events more =>
    simp only
    obtain ⟨h1, h2, h3, h4⟩ := hq
    obtain ⟨f1, f2⟩ := part_facts hs ht.1
    have hi : Increasing events := (List.pairwise_append.1 f1).2.1
    have hsv : ∀ x ∈ events, x.id.server = server := fun x hx => f2 x (List.mem_append_right _ hx)
    unfold Sync.store
    cases events with
    | nil =>
      simp only
      cases more with
      | true => exact ⟨h1, h2, h3, h4⟩
      | false => exact ⟨s.calls, [], by simp, by rw [h2, List.append_nil]; exact h1⟩
    | cons e l =>
      simp only
      split
      · next hne =>
        have hap := takeWhile_session hi hsv
        have hsingle : ∀ a ∈ (e :: l).takeWhile (fun x => decide (x.id.session = e.id.session)),
            a.id.session = e.id.session := by
          intro a ha
          have := List.all_eq_true.1 List.all_takeWhile a ha
          simpa using this
        have hcut := List.takeWhile_append_dropWhile (p := fun x : Event => decide (x.id.session = e.id.session))
          (l := e :: l)
        refine ⟨?_, ?_, ?_, ?_⟩
        · refine wholeSessions_snoc h1 ?_ ?_ ?_
          · simp
          · intro a ha b hb
            rw [hsingle a ha, hsingle b hb]
          · intro a ha b hb
            exact h3 a ha b (by rw [← hcut]; exact List.mem_append_left _ hb)
        · rw [h2]
          simp only [List.flatten_append, List.flatten_singleton, List.append_assoc, hcut]
        · intro a ha b hb
          simp only [List.flatten_append, List.flatten_singleton, List.mem_append] at ha
          rcases ha with ha | ha
          · exact h3 a ha b (by rw [← hcut]; exact List.mem_append_right _ hb)
          · exact hap a ha b hb
        · intro _ hd
          apply hne
          have hall : (e :: l).takeWhile (fun x => decide (x.id.session = e.id.session)) = e :: l := by
            have h5 := hcut
            change (e :: l).dropWhile _ = [] at hd
            rw [hd, List.append_nil] at h5
            exact h5
          have hnn : e :: l ≠ [] := by simp
          rw [List.getLast?_eq_some_getLast hnn]
          have := hsingle ((e :: l).getLast hnn) (by rw [hall]; exact List.getLast_mem hnn)
          simpa using this
      · next hsame =>
        have hone := one_session hi hsv (not_not.1 hsame)
        cases more with
        | true => exact ⟨h1, h2, h3, h4⟩
        | false =>
          refine ⟨s.calls ++ [e :: l], [], by simp, ?_⟩
          have := wholeSessions_snoc h1 (c := e :: l) (by simp)
            (fun a ha b hb => by rw [hone a ha, hone b hb]) h3
          have hf : (s.calls ++ [e :: l]).flatten = q := by rw [h2]; simp
          rw [hf] at this
          exact this
  | draining last =>
    simp only
    obtain ⟨qs, ns, h1, h2⟩ := hq
    unfold Sync.drain
    split
    · rw [hk]; exact ⟨qs, ns, h1, h2⟩
    · exact ⟨qs, ns, h1, h2⟩
    · simp only
      split
      · simp only [hk]; exact ⟨qs, ns, h1, h2⟩
      · simp only [hk]
        next es q _ _ =>
        exact ⟨qs, ns ++ [es.filter fun e => last.lt e.id], by simp only [h1, List.append_assoc], h2⟩
  | synced => simp only [hk]; exact hq

theorem questionsOk_receive {s : Sync} {all pre q : List Event} {server : Int} {m : SyncMsg} {w : List SyncMsg}
    (hw : s.wire = m :: w) (h : SyncOk s all pre) (hs : ∀ e ∈ all, e.id.server = server)
    (hq : QuestionsOk s q s.task) :
    QuestionsOk (({ s with wire := w } : Sync).receive m)
      (q ++ match m with | .response es _ => es | _ => []) (({ s with wire := w } : Sync).receive m).task := by
  have ht := h.task
  cases m with
  | notify es =>
    rw [List.append_nil]
    unfold Sync.receive
    cases hqu : s.queue with
    | some qq => exact questionsOk_same (s := s) rfl hq
    | none =>
      have hk : s.task = .synced := h.queue.2 hqu
      simp only [hk] at hq ⊢
      obtain ⟨qs, ns, h1, h2⟩ := hq
      exact ⟨qs, ns ++ [es], by simp [h1], h2⟩
  | response es more =>
    have hr : responses s.wire = (es, more) :: responses w := by rw [hw]; rfl
    obtain ⟨t, hk⟩ : ∃ t, s.task = t := ⟨_, rfl⟩
    rw [hk] at hq ht
    unfold Sync.receive
    simp only [hk]
    cases t with
    | asking last events =>
      obtain ⟨h1, h2, h3, h4⟩ := hq
      obtain ⟨_, _, t3⟩ := ht
      rcases t3 with ⟨_, t4⟩ | ⟨es', more', _, t4, t5⟩
      · rw [hr] at t4; cases t4
      · rw [hr] at t4
        simp only [List.cons.injEq, Prod.mk.injEq] at t4
        obtain ⟨⟨rfl, rfl⟩, _⟩ := t4
        obtain ⟨f1, f2⟩ := part_facts hs t5.1
        rw [List.append_assoc] at f1 f2
        refine ⟨h1, by rw [h2], ?_, h4⟩
        refine apart_more (List.pairwise_append.1 f1).2.1 h3 (fun e he => f2 e (List.mem_append_right _ he)) ?_
        intro hc
        apply h4
        intro h5
        apply hc
        show s.calls.flatten = []
        rw [h5]; rfl
    | starting => simp [TaskOk, hr] at ht
    | answered a b c d => obtain ⟨_, _, _, h4, _⟩ := ht; rw [hr] at h4; cases h4
    | storing a b c => obtain ⟨_, _, _, h4, _⟩ := ht; rw [hr] at h4; cases h4
    | draining a => obtain ⟨_, _, h4⟩ := ht; rw [hr] at h4; cases h4
    | synced => obtain ⟨_, h4⟩ := ht; rw [hr] at h4; cases h4

theorem questionsOk_run {server : Int} {keep : Event → Bool} {last : EventId} {acts : List SyncAct}
    (h : Increasing (flushed server acts)) :
    QuestionsOk ((Sync.init server keep last).run acts) (queried (Sync.init server keep last) acts)
      ((Sync.init server keep last).run acts).task := by
  induction acts using List.reverseRecOn with
  | nil => exact ⟨rfl, rfl⟩
  | append_singleton acts a ih =>
    rw [flushed_snoc] at h
    have hpre := (List.pairwise_append.1 h).1
    have hq := ih hpre
    obtain ⟨pre, hp⟩ := syncOk_run (keep := keep) (last := last) hpre
    have hsv : ∀ e ∈ flushed server acts, e.id.server = server := by
      intro e he
      unfold flushed at he
      simpa using (List.mem_filter.1 he).2
    rw [sync_run_snoc, queried_snoc]
    generalize (Sync.init server keep last).run acts = s at hp hq ⊢
    generalize queried (Sync.init server keep last) acts = q at hq ⊢
    cases a with
    | flush r => simp only [answer, List.append_nil]; exact questionsOk_same (s := s) rfl hq
    | remove gone => simp only [answer, List.append_nil]; exact questionsOk_same (s := s) rfl hq
    | connect => simp only [answer, List.append_nil]; exact questionsOk_same (s := s) rfl hq
    | notify =>
      simp only [answer, List.append_nil]
      obtain ⟨_, _, _, e4, _, e6, _⟩ := sendNotify_same s
      show QuestionsOk s.sendNotify q s.sendNotify.task
      rw [e6]
      exact questionsOk_same (s := s) e4 hq
    | serve n =>
      simp only [answer, List.append_nil, Sync.step]
      split
      · exact hq
      · unfold Sync.serve
        split
        · exact hq
        · exact questionsOk_same (s := s) rfl hq
    | deliver =>
      simp only [answer, Sync.step]
      split
      · rw [List.append_nil]; exact hq
      · cases hw : s.wire with
        | nil => simp only [List.append_nil]; exact hq
        | cons m w =>
          have := questionsOk_receive hw hp hsv hq
          cases m with
          | notify es => exact this
          | response es more => exact this
    | advance =>
      simp only [answer, List.append_nil, Sync.step]
      split
      · exact hq
      · exact questionsOk_advance hp hsv hq
    | close => simp only [answer, List.append_nil]; exact questionsOk_same (s := s) rfl hq

end HatEvent
