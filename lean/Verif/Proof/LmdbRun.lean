import Verif.Proof.LmdbServer
import Mathlib.Data.List.Induction

/-!
# Invariants of histories of the abstract store
-/

namespace HatEvent
open Spec

theorem run_spec_snoc {conf : Conf} {ops : List BackendOp} {op : BackendOp} {w' : World}
    (h : Run conf (ops ++ [op]) w') : ∃ w, Run conf ops w ∧ Step w op w' := by
  generalize hl : ops ++ [op] = l at h
  cases h with
  | nil => simp at hl
  | snoc h1 h2 _ =>
    obtain ⟨rfl, hx⟩ := List.append_inj' hl rfl
    cases hx
    exact ⟨_, h1, h2⟩

theorem run_spec_nil {conf : Conf} {w : World} (h : Run conf [] w) : w = .new conf := by
  generalize hl : ([] : List BackendOp) = l at h
  cases h with
  | nil => rfl
  | snoc h1 h2 _ => simp at hl

/-- An open backend has the configuration of an opening. -/
theorem run_spec_conf {conf : Conf} {ops : List BackendOp} {w : World} (h : Run conf ops w)
    (ho : w.isOpen = true) : .reopen w.conf ∈ ops := by
  induction h with
  | nil => simp [World.new] at ho
  | snoc h1 h2 _ ih =>
    cases h2 with
    | closed a b => exact List.mem_append_left _ (ih ho)
    | register a => exact List.mem_append_left _ (ih ho)
    | touch a => exact List.mem_append_left _ (ih ho)
    | flush a => exact List.mem_append_left _ (ih ho)
    | flushFail a => simp at ho
    | cleanup r a b => exact List.mem_append_left _ (ih ho)
    | cleanupFail a => simp at ho
    | reopen a => simp
    | reopenFail => simp at ho

theorem slot_offers {conf : Conf} {parts : Dict Int Partition} (es : List Event) (st : Store)
    (t : EventType) (e : Event) (h : (es.foldl (Store.offer conf parts) st).slot t = some e) :
    st.slot t = some e ∨ Visible conf e := by
  induction es generalizing st with
  | nil => exact .inl h
  | cons x es ih =>
    rcases ih _ h with h | h
    · unfold Store.offer at h
      split at h
      · next hc =>
        simp only at h
        split at h
        · next ht => cases h; exact .inr ⟨hc.1.2.2, ht.2.1⟩
        · exact .inl h
      · exact .inl h
    · exact .inr h

/-- The events added by registering satisfy the conditions. -/
theorem cond_offers {conf : Conf} {parts : Dict Int Partition} (es : List Event) (st : Store) :
    ∃ new, (es.foldl (Store.offer conf parts) st).log = st.log ++ new ∧
      ∀ e ∈ new, conf.conditions e = true := by
  induction es generalizing st with
  | nil => exact ⟨[], by simp, by simp⟩
  | cons x es ih =>
    obtain ⟨new, h1, h2⟩ := ih (st.offer conf parts x)
    rw [List.foldl_cons, h1]
    unfold Store.offer
    split
    · next hc =>
      refine ⟨x :: new, by simp, ?_⟩
      intro e he
      rcases List.mem_cons.1 he with rfl | he
      · exact hc.1.2.2
      · exact h2 e he
    · exact ⟨new, rfl, h2⟩

theorem log_offers {conf : Conf} {parts : Dict Int Partition} (es : List Event) (st : Store) :
    st.log <+: (es.foldl (Store.offer conf parts) st).log ∧
      ∀ e ∈ (es.foldl (Store.offer conf parts) st).log, e ∈ st.log ∨ e ∈ es := by
  induction es generalizing st with
  | nil => exact ⟨List.prefix_refl _, fun e h => .inl h⟩
  | cons x es ih =>
    obtain ⟨h1, h2⟩ := ih (st.offer conf parts x)
    rcases log_offer (conf := conf) (parts := parts) st x with h | h
    · rw [h] at h1 h2
      refine ⟨h1, fun e he => ?_⟩
      rcases h2 e he with h | h <;> simp [h]
    · rw [h] at h1 h2
      refine ⟨(List.prefix_append _ _).trans h1, fun e he => ?_⟩
      rcases h2 e he with h | h
      · simp only [List.mem_append, List.mem_singleton] at h
        rcases h with h | h <;> simp [h]
      · simp [h]

/-- Facts about every history of the abstract store. -/
structure RunOk (ops : List BackendOp) (w : World) : Prop where
  shownF : ∀ t e, w.flushed.slot t = some e → ∃ c, .reopen c ∈ ops ∧ Visible c e
  shownC : ∀ t e, w.cur.slot t = some e → ∃ c, .reopen c ∈ ops ∧ Visible c e
  logC : ∀ e ∈ w.cur.log, ∃ es, .register es ∈ ops ∧ e ∈ es
  cond : ∃ pend, w.cur.log = w.flushed.log ++ pend ∧ ∀ e ∈ pend, w.conf.conditions e = true
  okF : StoreOk w.flushed
  okC : StoreOk w.cur

theorem RunOk.pre {ops : List BackendOp} {w : World} (h : RunOk ops w) :
    w.flushed.log <+: w.cur.log := by
  obtain ⟨pend, h1, _⟩ := h.cond
  exact ⟨pend, h1.symm⟩

theorem run_ok {conf : Conf} {ops : List BackendOp} {w : World} (h : Run conf ops w) :
    RunOk ops w := by
  induction h with
  | nil =>
    exact ⟨by simp [World.new, Store.empty], by simp [World.new, Store.empty],
      by simp [World.new, Store.empty], ⟨[], by simp [World.new, Store.empty], by simp⟩, storeOk_empty, storeOk_empty⟩
  | @snoc ops w op w' h1 h2 _ ih =>
    have e1 : ∀ {st : Store}, (∀ t e, st.slot t = some e → ∃ c, .reopen c ∈ ops ∧ Visible c e) →
        ∀ t e, st.slot t = some e → ∃ c, .reopen c ∈ ops ++ [op] ∧ Visible c e := by
      intro st h t e he
      obtain ⟨c, h1, h2⟩ := h t e he
      exact ⟨c, List.mem_append_left _ h1, h2⟩
    have e2 : ∀ {l : List Event}, (∀ e ∈ l, ∃ es, .register es ∈ ops ∧ e ∈ es) →
        ∀ e ∈ l, ∃ es, .register es ∈ ops ++ [op] ∧ e ∈ es := by
      intro st h e he
      obtain ⟨c, h1, h2⟩ := h e he
      exact ⟨c, List.mem_append_left _ h1, h2⟩
    have hlf : ∀ e ∈ w.flushed.log, ∃ es, .register es ∈ ops ∧ e ∈ es :=
      fun e he => ih.logC e (ih.pre.subset he)
    have hsame : RunOk (ops ++ [op]) w :=
      ⟨e1 ih.shownF, e1 ih.shownC, e2 ih.logC, ih.cond, ih.okF, ih.okC⟩
    have hback : ∀ w' : World, w'.cur = w.flushed → w'.flushed = w.flushed → RunOk (ops ++ [op]) w' := by
      intro w' h1 h2
      exact ⟨by rw [h2]; exact e1 ih.shownF, by rw [h1]; exact e1 ih.shownF, by rw [h1]; exact e2 hlf,
        ⟨[], by rw [h1, h2, List.append_nil], by simp⟩, by rw [h2]; exact ih.okF, by rw [h1]; exact ih.okF⟩
    cases h2 with
    | closed a b => exact hsame
    | @register es a =>
      have hl := log_offers (conf := w.conf) (parts := w.partitions) es w.cur
      refine ⟨hsame.shownF, ?_, ?_, ?_, ih.okF, storeOk_offers _ ih.okC⟩
      · intro t e he
        rcases slot_offers _ _ _ _ he with h | h
        · exact hsame.shownC t e h
        · exact ⟨w.conf, List.mem_append_left _ (run_spec_conf h1 a), h⟩
      · intro e he
        rcases hl.2 e he with h | h
        · exact hsame.logC e h
        · exact ⟨es, by simp, h⟩
      · obtain ⟨pend, p1, p2⟩ := ih.cond
        obtain ⟨new, n1, n2⟩ := cond_offers (conf := w.conf) (parts := w.partitions) es w.cur
        refine ⟨pend ++ new, by rw [n1, p1, List.append_assoc], ?_⟩
        intro e he
        rcases List.mem_append.1 he with h | h
        · exact p2 e h
        · exact n2 e h
    | touch a => exact hsame
    | flush a =>
      exact ⟨hsame.shownC, hsame.shownC, hsame.logC, ⟨[], by simp, by simp⟩, ih.okC, ih.okC⟩
    | flushFail a => exact hback _ rfl rfl
    | cleanup r a b =>
      exact ⟨hsame.shownF, hsame.shownC, hsame.logC, hsame.cond, storeOk_drop ih.okF _,
        storeOk_drop ih.okC _⟩
    | cleanupFail a => exact hback _ rfl rfl
    | reopen a => exact hback _ rfl rfl
    | reopenFail => exact hback _ rfl rfl

theorem keepsAccepted_snoc {ops : List BackendOp} {op : BackendOp} (h : KeepsAccepted (ops ++ [op])) :
    KeepsAccepted ops ∧ ∀ c c', .reopen c ∈ ops → op = .reopen c' → ∀ e, Visible c e →
      c'.latestSub.matches e.type = true → c'.conditions e = true := by
  unfold KeepsAccepted at h ⊢
  rw [List.filterMap_append, List.pairwise_append] at h
  refine ⟨h.1, ?_⟩
  rintro c c' hc rfl e he
  refine h.2.2 c (List.mem_filterMap.2 ⟨_, hc, rfl⟩) c' ?_ e he
  simp

theorem worldRefs_new (conf : Conf) : WorldRefs (.new conf) (.new conf) :=
  ⟨diskRefs_empty, by intro t e h; simp [World.new, Store.empty] at h,
    by intro t e h; simp [World.new, Store.empty] at h, by simp [Backend.new]⟩

/-- Every history in which conditions keep accepting latest events is a history of the abstract
store with a consistent reference database. -/
theorem run_refs (conf : Conf) (ops : List BackendOp) (hl : LookupLaws ops) (hk : KeepsAccepted ops) :
    ∃ w, Run conf ops w ∧ WorldRel ((Backend.new conf).run ops) w ∧
      WorldRefs ((Backend.new conf).run ops) w := by
  induction ops using List.reverseRecOn with
  | nil => exact ⟨_, .nil, worldRel_new conf, worldRefs_new conf⟩
  | append_singleton ops op ih =>
    obtain ⟨k1, k2⟩ := keepsAccepted_snoc hk
    obtain ⟨w, h1, h2, h3⟩ := ih (fun c hc => hl c (by simp [hc])) k1
    obtain ⟨w', h4, h5, h6⟩ := step_refs h2 (fun hm => hl _ (by
      have := run_conf conf ops hm; simp [this])) h3 op (by
        rintro c rfl t e he
        obtain ⟨c', hc', hv⟩ := (run_ok h1).shownF t e he
        exact k2 c' c hc' rfl e hv)
    exact ⟨w', .snoc h1 h4 (by rw [run_snoc]; exact h5.isOpen), by rw [run_snoc]; exact ⟨h5, h6⟩⟩

end HatEvent
