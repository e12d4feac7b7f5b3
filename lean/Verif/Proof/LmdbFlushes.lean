import Verif.Proof.LmdbAsync
import Verif.Props.LmdbOpen

/-!
# Calls of `flush`, and flushes that succeed
-/

namespace HatEvent
open Spec

variable {c0 : Conf} {ops0 : List BackendOp} {s s' : Async}

/-! ### Requests -/

/-- Registrations before a call of `flush` that is served or has returned. -/
structure Requests (s : Async) : Prop where
  requests : ∀ n ∈ s.requests, n ≤ s.calls.length
  serving : ∀ n ∈ s.serving, n ≤ s.cb.length + s.flusher.inflight.length
  idle : s.flusher = .idle → s.serving = []
  flushed : ∀ n ∈ s.flushed, n ≤ s.cb.length
  final : ∀ r, s.flusher = .waiting r true ∨ s.flusher = .notifying r true → s.isOpen = false ∧ s.mem.registered = []
  ended : s.flusher = .ended → s.isOpen = false ∧ s.mem.registered = []
  failed : ∀ f, s.flusher = .failed f → s.lost = true

theorem requests_rest (h : Requests s) (hr : SameRest s s') : Requests s' where
  requests := by rw [hr.requests, hr.calls]; exact h.requests
  serving := by rw [hr.serving, hr.cb, hr.flusher]; exact h.serving
  idle := by rw [hr.serving, hr.flusher]; exact h.idle
  flushed := by rw [hr.flushed, hr.cb]; exact h.flushed
  final := by rw [hr.flusher, hr.isOpen, hr.registered]; exact h.final
  ended := by rw [hr.flusher, hr.isOpen, hr.registered]; exact h.ended
  failed := by rw [hr.flusher, hr.lost]; exact h.failed

theorem requests_touch (h : Requests s) (g : Nat) (p : Int) : Requests (s.touch g p) := by
  refine ⟨?_, ?_, ?_, ?_, ?_, ?_, ?_⟩
  · simpa using h.requests
  · simpa using h.serving
  · simpa using h.idle
  · simpa using h.flushed
  · simpa using h.final
  · simpa using h.ended
  · simpa using h.failed

theorem requests_step (hsim : s.lost = false → Sim c0 ops0 s) (h : s.lost = false → Requests s) (a : Act) :
    (s.step a).lost = false → Requests (s.step a) := by
  intro hl
  have hl0 := lost_step s a hl
  have hsim := hsim hl0
  have h := h hl0
  cases a with
  | register es =>
    simp only [Async.step, Async.register]
    split
    case isFalse => exact h
    case isTrue ho =>
    split
    · next m hm =>
      refine ⟨?_, h.serving, h.idle, h.flushed, ?_, ?_, h.failed⟩
      · intro n hn
        have := h.requests n hn
        simp only [List.length_append, List.length_singleton]; omega
      · intro r hr
        have := (h.final r hr).1
        rw [ho] at this; simp at this
      · intro hr
        have := (h.ended hr).1
        rw [ho] at this; simp at this
    · exact h
  | query p =>
    rcases hsim.phase with hs | ⟨opsA, mA, pre, post, g, final, hs⟩
    · obtain ⟨_, _, _, _, h4⟩ := hs.body.query p
      exact requests_rest h h4
    · obtain ⟨_, _, _, _, h4⟩ := hs.body.query p
      exact requests_rest h h4
  | request =>
    simp only [Async.step]
    split
    · refine ⟨?_, h.serving, h.idle, h.flushed, h.final, h.ended, h.failed⟩
      intro n hn
      simp only [List.mem_append, List.mem_singleton] at hn
      rcases hn with hn | rfl
      · exact h.requests n hn
      · exact le_refl _
    · exact h
  | flush =>
    simp only [Async.step, Async.startFlush]
    have hseq := hsim.seq
    split
    · next hf =>
      refine ⟨by simp, ?_, by simp, h.flushed, ?_, by simp, by simp⟩
      · intro n hn
        simp only at hn
        have hn : n ∈ s.requests := by
          cases ho : s.isOpen <;> simp [ho] at hn
          exact hn
        have h1 := h.requests n hn
        rw [hf] at hseq
        rw [← hseq] at h1
        simp only [Flusher.inflight, List.append_nil, List.length_append] at h1 ⊢
        exact h1
      · rintro r (hr | hr)
        · simp only [Flusher.waiting.injEq, Bool.not_eq_true'] at hr
          exact ⟨hr.2, rfl⟩
        · cases hr
    · exact h
  | cleanup fl se now =>
    simp only [Async.step]
    split
    · exact ⟨h.requests, h.serving, h.idle, h.flushed, h.final, h.ended, h.failed⟩
    · exact h
  | start =>
    simp only [Async.step, Async.startJob]
    split
    · exact ⟨h.requests, h.serving, h.idle, h.flushed, h.final, h.ended, h.failed⟩
    · exact h
  | job raise =>
    simp only [Async.step, Async.runJob] at hl ⊢
    split at hl
    · exact h
    · exact ⟨h.requests, h.serving, h.idle, h.flushed, h.final, h.ended, h.failed⟩
    · split
      · exact ⟨h.requests, h.serving, h.idle, h.flushed, h.final, h.ended, h.failed⟩
      · refine ⟨h.requests, h.serving, h.idle, h.flushed, ?_, ?_, h.failed⟩
        · intro r hr; exact ⟨rfl, (h.final r hr).2⟩
        · intro hr; exact ⟨rfl, (h.ended hr).2⟩
    · next g r hj =>
      obtain ⟨opsA, mA, final, hs⟩ := pending_of_flush hsim hj
      have hf := hs.flusher
      split at hl
      · simp at hl
      · next hr =>
        rw [if_neg hr]
        split at hl
        · next d' hd =>
          have hse := h.serving
          have hfi := h.final
          rw [hf] at hse hfi
          simp only [Async.startFlush, hf, Flusher.done, if_true]
          refine ⟨h.requests, hse, by simp, h.flushed, ?_, by simp, by simp⟩
          rintro r (hr | hr)
          · cases hr
          · simp only [Flusher.notifying.injEq] at hr
            exact hfi mA.registered (.inl (by rw [hr.2]))
        · simp at hl
  | finish i =>
    have key : ∀ {H : Mem → List (List Event) → Prop} {pre post : List Job}, Body c0 ops0 H s pre post →
        Requests (s.finish i) := by
      intro H pre post hb
      obtain ⟨_, _, ⟨g, p, _, hr⟩ | hr⟩ := hb.finish i
      · exact requests_rest (requests_touch h g p) hr
      · exact requests_rest h hr
    rcases hsim.phase with hs | ⟨opsA, mA, pre, post, g, final, hs⟩
    · exact key hs.body
    · exact key hs.body
  | notify =>
    simp only [Async.step, Async.notify]
    split
    · next events r final hf =>
      have h1 := h.serving
      have h3 := h.final
      rw [hf] at h1 h3
      refine ⟨h.requests, ?_, by simp, ?_, ?_, by simp, by simp⟩
      · intro n hn
        have := h1 n hn
        simp only [Flusher.inflight, List.length_cons, List.length_append, List.length_nil] at this ⊢
        omega
      · intro n hn
        have := h.flushed n hn
        simp only [List.length_append, List.length_singleton]; omega
      · rintro r' (hr | hr)
        · cases hr
        · simp only [Flusher.notifying.injEq] at hr
          exact h3 _ (.inr (by rw [hr.2]))
    · next final hf =>
      have h1 := h.serving
      have h3 := h.final
      rw [hf] at h1 h3
      refine ⟨h.requests, by simp, by simp, ?_, ?_, ?_, ?_⟩
      · intro n hn
        simp only at hn
        cases ho : s.isOpen with
        | false => rw [ho] at hn; exact h.flushed n (by simpa using hn)
        | true =>
          rw [ho] at hn
          simp only [if_true, List.mem_append] at hn
          rcases hn with hn | hn
          · exact h.flushed n hn
          · simpa [Flusher.inflight] using h1 n hn
      · rintro r' (hr | hr) <;> (cases final <;> simp at hr)
      · intro hr
        cases final with
        | false => simp at hr
        | true => exact h3 [] (.inr rfl)
      · intro f hr
        cases final <;> simp at hr
    · next final hf =>
      rw [h.failed _ hf] at hl0
      simp at hl0
    · exact h
  | close =>
    exact ⟨h.requests, h.serving, h.idle, h.flushed, fun r hr => ⟨rfl, (h.final r hr).2⟩,
      fun hr => ⟨rfl, (h.ended hr).2⟩, h.failed⟩

theorem async_snoc (s : Async) (acts : List Act) (a : Act) : s.run (acts ++ [a]) = (s.run acts).step a := by
  simp [Async.run]

theorem requests_run {conf : Conf} {disk : Disk} {mem : Mem} (h : OpenAt c0 ops0 [] disk conf mem)
    (hr : mem.registered = []) (acts : List Act) (hl : ((Async.create conf disk mem).run acts).lost = false) :
    Requests ((Async.create conf disk mem).run acts) := by
  revert hl
  induction acts using List.reverseRecOn with
  | nil =>
    intro _
    refine ⟨?_, ?_, ?_, ?_, ?_, ?_, ?_⟩ <;> simp [Async.run, Async.create]
  | append_singleton acts a ih =>
    rw [async_snoc]
    exact requests_step (sim_run h hr acts) ih a

/-! ### Flushes succeed -/

/-- The lists of a schedule. -/
def Spec.actCalls (acts : List Act) : List (List Event) :=
  acts.filterMap fun a => match a with | .register es => some es | _ => none

/-- Ascending queries, or exceptions because of them, do not occur. -/
def Spec.NoRace (acts : List Act) : Prop :=
  .job true ∉ acts ∨ ∀ p, .query (.timeseries p) ∈ acts → p.order = .descending

/-- No query will look up pending entries at its end. -/
structure NoLookup (s : Async) : Prop where
  raced : s.raced = false
  jobs : ∀ q, .query q ∈ s.jobs → q.waiting.partition = none
  read : ∀ x ∈ s.read, x.1.waiting.partition = none

theorem noLookup_step (h : NoLookup s) (a : Act)
    (ha : ∀ p, a = .query (.timeseries p) → p.order = .descending) : NoLookup (s.step a) := by
  have hanswer : ∀ {s : Async} {p n r}, NoLookup s → NoLookup (s.answer p n r) :=
    fun h => ⟨h.raced, h.jobs, h.read⟩
  have hsubmit : ∀ {s : Async} {p} {w : Waiting}, NoLookup s → w.partition = none → NoLookup (s.submit p w) := by
    intro s p w h hw
    refine ⟨h.raced, ?_, h.read⟩
    intro q hq
    simp only [Async.submit, List.mem_append, List.mem_singleton, Job.query.injEq] at hq
    rcases hq with hq | rfl
    · exact h.jobs q hq
    · exact hw
  cases a with
  | register es =>
    simp only [Async.step, Async.register]
    split
    · split
      · exact ⟨h.raced, h.jobs, h.read⟩
      · exact h
    · exact h
  | query p =>
    simp only [Async.step, Async.query]
    split
    · cases p with
      | latest t => exact hanswer h
      | server p =>
        simp only [Async.queryServer]
        split
        · exact hanswer h
        · exact hsubmit h rfl
      | timeseries p =>
        have ho := ha p rfl
        simp only [Async.queryTimeseries]
        split
        · exact hanswer h
        · split
          · exact hanswer h
          · exact hanswer h
          · simp only [Async.queryPartition, ho]
            have ht : ∀ q, NoLookup (s.touch s.gen q) := by
              intro q
              refine ⟨?_, by simpa using h.jobs, by simpa using h.read⟩
              unfold Async.touch
              simpa using h.raced
            split
            · exact hanswer (ht _)
            · split
              · exact hanswer (ht _)
              · exact hsubmit (ht _) rfl
    · exact h
  | request =>
    simp only [Async.step]
    split <;> exact ⟨h.raced, h.jobs, h.read⟩
  | flush =>
    simp only [Async.step, Async.startFlush]
    split
    · refine ⟨h.raced, ?_, h.read⟩
      intro q hq
      simp only [List.mem_append, List.mem_singleton, reduceCtorEq, or_false] at hq
      exact h.jobs q hq
    · exact h
  | cleanup fl se now =>
    simp only [Async.step]
    split
    · refine ⟨h.raced, ?_, h.read⟩
      intro q hq
      simp only [List.mem_append, List.mem_singleton, reduceCtorEq, or_false] at hq
      exact h.jobs q hq
    · exact h
  | start =>
    simp only [Async.step, Async.startJob]
    split <;> exact ⟨h.raced, h.jobs, h.read⟩
  | job raise =>
    simp only [Async.step, Async.runJob]
    split
    · exact h
    · next q r hj =>
      refine ⟨h.raced, fun q' hq => h.jobs q' (by rw [hj]; exact List.mem_cons_of_mem _ hq), ?_⟩
      intro x hx
      simp only [List.mem_append, List.mem_singleton] at hx
      rcases hx with hx | rfl
      · exact h.read x hx
      · exact h.jobs q (by rw [hj]; simp)
    · next r hj =>
      split <;> exact ⟨h.raced, fun q' hq => h.jobs q' (by rw [hj]; exact List.mem_cons_of_mem _ hq), h.read⟩
    · next r hj =>
      split
      · exact ⟨rfl, fun q' hq => h.jobs q' (by rw [hj]; exact List.mem_cons_of_mem _ hq), h.read⟩
      · split <;> exact ⟨rfl, fun q' hq => h.jobs q' (by rw [hj]; exact List.mem_cons_of_mem _ hq), h.read⟩
  | finish i =>
    simp only [Async.step, Async.finish]
    split
    · exact h
    · next q r hx =>
      have hp := h.read _ (List.mem_of_getElem? hx)
      cases hl : q.waiting.lookup r with
      | some p => rw [lookup_partition hl] at hp; simp at hp
      | none =>
        refine hanswer ⟨h.raced, h.jobs, ?_⟩
        intro x hx
        exact h.read x (List.mem_of_mem_eraseIdx hx)
  | notify =>
    simp only [Async.step, Async.notify]
    split <;> exact ⟨h.raced, h.jobs, h.read⟩
  | close => exact ⟨h.raced, h.jobs, h.read⟩

theorem calls_step (s : Async) (a : Act) :
    (s.step a).calls = s.calls ∨ (s.step a).calls = s.calls ++ actCalls [a] := by
  cases a with
  | register es =>
    simp only [Async.step, Async.register]
    split
    · split
      · exact .inr rfl
      · exact .inl rfl
    · exact .inl rfl
  | query p =>
    left
    simp only [Async.step, Async.query]
    split
    · cases p with
      | latest t => rfl
      | server p => simp only [Async.queryServer]; split <;> rfl
      | timeseries p =>
        simp only [Async.queryTimeseries]
        split
        · rfl
        · split
          · rfl
          · rfl
          · simp only [Async.queryPartition]
            split
            · split
              · simp [Async.answer]
              · split <;> simp [Async.answer, Async.submit]
            · rfl
    · rfl
  | request => left; simp only [Async.step]; split <;> rfl
  | flush => left; simp only [Async.step, Async.startFlush]; split <;> rfl
  | cleanup => left; simp only [Async.step]; split <;> rfl
  | start => left; simp only [Async.step, Async.startJob]; split <;> rfl
  | job raise =>
    left
    simp only [Async.step, Async.runJob]
    split
    · rfl
    · rfl
    · split <;> rfl
    · split
      · rfl
      · split <;> rfl
  | finish i =>
    left
    simp only [Async.step, Async.finish]
    split
    · rfl
    · rename_i q r _
      simp only [Async.answer]
      cases q.waiting.lookup r <;> simp [Async.touchLookup]
  | notify => left; simp only [Async.step, Async.notify]; split <;> rfl
  | close => exact .inl rfl

theorem calls_sublist (conf : Conf) (disk : Disk) (mem : Mem) (acts : List Act) :
    List.Sublist ((Async.create conf disk mem).run acts).calls (actCalls acts) := by
  induction acts using List.reverseRecOn with
  | nil => simp [Async.run, Async.create, actCalls]
  | append_singleton acts a ih =>
    rw [async_snoc]
    have happ : actCalls (acts ++ [a]) = actCalls acts ++ actCalls [a] := by simp [actCalls]
    rw [happ]
    rcases calls_step ((Async.create conf disk mem).run acts) a with h | h
    · rw [h]; exact ih.trans (List.sublist_append_left _ _)
    · rw [h]; exact ih.append (List.Sublist.refl _)

theorem offered_eq (ops : List BackendOp) : offered ops = ((callsOf ops).map List.length).sum := by
  induction ops with
  | nil => rfl
  | cons op ops ih =>
    have h1 : offered (op :: ops) = offered [op] + offered ops := by simp [offered]
    have h2 : callsOf (op :: ops) = callsOf [op] ++ callsOf ops := by simp [callsOf, List.filterMap_cons]; split <;> simp
    rw [h1, h2, ih, List.map_append, List.sum_append]
    cases op <;> simp [offered, callsOf]

theorem mem_callsOf {ops : List BackendOp} {es : List Event} : es ∈ callsOf ops ↔ .register es ∈ ops := by
  simp only [callsOf, List.mem_filterMap]
  constructor
  · rintro ⟨op, h1, h2⟩
    cases op <;> simp at h2
    subst h2; exact h1
  · intro h; exact ⟨_, h, rfl⟩

/-- What is needed for flushes to succeed. -/
structure Spec.Fits (ops0 : List BackendOp) (calls : List (List Event)) : Prop where
  laws : LookupLaws ops0
  storable0 : StorableOps ops0
  storable : ∀ es ∈ calls, ∀ e ∈ es, Storable e
  few : offered ops0 + (calls.map List.length).sum < 2 ^ 64

theorem Spec.Fits.sub {calls calls' : List (List Event)} (h : Fits ops0 calls) (hs : calls'.Sublist calls) :
    Fits ops0 calls' :=
  ⟨h.laws, h.storable0, fun es he => h.storable es (hs.subset he), by
    have : (calls'.map List.length).sum ≤ (calls.map List.length).sum := by
      clear h
      induction hs with
      | slnil => exact le_refl _
      | cons a _ ih => simp only [List.map_cons, List.sum_cons]; omega
      | cons_cons a _ ih => simp only [List.map_cons, List.sum_cons]; omega
    have := h.few; omega⟩

theorem OpenAt.flush_ok {ops : List BackendOp} {d : Disk} {c : Conf} {m : Mem} (h : OpenAt c0 ops0 ops d c m)
    (hf : Fits ops0 (callsOf ops)) : ∃ d', extFlush d m.createChanges.1 = .ok d' := by
  have hl : LookupLaws (ops0 ++ ops) := by
    intro c' hc'
    rcases List.mem_append.1 hc' with hc' | hc'
    · exact hf.laws c' hc'
    · exact absurd hc' (h.noReopen c')
  have hst : StorableOps (ops0 ++ ops) := by
    constructor
    · intro es he
      rcases List.mem_append.1 he with he | he
      · exact hf.storable0.1 es he
      · exact hf.storable es (mem_callsOf.2 he)
    · intro p hp
      rcases List.mem_append.1 hp with hp | hp
      · exact hf.storable0.2 p hp
      · obtain ⟨g, _⟩ := run_partTable _ (ops0 ++ ops) (partsOk_new c0)
        have hk := h.touched p hp
        obtain ⟨part, hpart⟩ : ∃ part, Dict.get m.timeseries.partitions p = some part := by
          cases hg : Dict.get m.timeseries.partitions p with
          | some part => exact ⟨part, rfl⟩
          | none => exact absurd hk (Dict.get_eq_none_iff.1 hg)
        have := (g.2 m h.mem).2 p part hpart
        exact g.1.range p _ this
  have hN : offered (ops0 ++ ops) < 2 ^ 64 := by
    have h1 : offered (ops0 ++ ops) = offered ops0 + offered ops := by simp [offered]
    rw [h1, offered_eq ops]; exact hf.few
  have hopen := flush_open c0 (ops0 ++ ops) hl hst hN (by rw [h.mem]; simp)
  rw [run_snoc, Backend.step, h.mem] at hopen
  simp only [h.disk] at hopen
  cases he : extFlush d m.createChanges.1 with
  | ok d' => exact ⟨d', rfl⟩
  | error e => rw [he] at hopen; simp at hopen

theorem runJob_lost (h : Sim c0 ops0 s) (hf : Fits ops0 s.calls) {raise : Bool}
    (hr : raise = false ∨ s.raced = false) (hl : s.lost = false) : (s.runJob raise).lost = false := by
  unfold Async.runJob
  split
  · exact hl
  · exact hl
  · split <;> exact hl
  · next g r hj =>
    obtain ⟨opsA, mA, final, hs⟩ := pending_of_flush h hj
    have hpre : (callsOf opsA).Sublist s.calls := by
      rw [hs.calls, ← h.seq, hs.flusher]
      exact List.sublist_append_left _ _
    obtain ⟨d', hd⟩ := hs.hist.flush_ok (hf.sub hpre)
    rw [← hs.old] at hd
    rw [hd]
    rcases hr with rfl | hr
    · simpa using hl
    · simpa [hr] using hl

theorem run_lost {conf : Conf} {disk : Disk} {mem : Mem} (h : OpenAt c0 ops0 [] disk conf mem)
    (hr : mem.registered = []) (acts : List Act) (hf : Fits ops0 (actCalls acts)) (hn : NoRace acts) :
    ((Async.create conf disk mem).run acts).lost = false := by
  have hk : ∀ pre post, acts = pre ++ post →
      ((Async.create conf disk mem).run pre).lost = false ∧
        (.job true ∉ acts ∨ NoLookup ((Async.create conf disk mem).run pre)) := by
    intro pre
    induction pre using List.reverseRecOn with
    | nil =>
      intro _ _
      refine ⟨rfl, .inr ⟨rfl, ?_, ?_⟩⟩ <;> simp [Async.run, Async.create]
    | append_singleton pre a ih =>
      intro post hacts
      obtain ⟨i1, i2⟩ := ih (a :: post) (by simp [hacts])
      have hsim := sim_run h hr pre i1
      have hmem : a ∈ acts := by rw [hacts]; simp
      rw [async_snoc]
      constructor
      · by_cases hj : ∃ raise, a = .job raise
        · obtain ⟨raise, rfl⟩ := hj
          refine runJob_lost hsim (hf.sub ((calls_sublist conf disk mem pre).trans ?_)) ?_ i1
          · rw [hacts]; simp [actCalls]
          · rcases i2 with i2 | i2
            · cases raise with
              | false => exact .inl rfl
              | true => exact absurd hmem i2
            · exact .inr i2.raced
        · have key : ∀ {s : Async}, (∀ raise, a ≠ .job raise) → (s.step a).lost = s.lost := by
            intro s ha
            by_cases hls : (s.step a).lost = false
            · rw [hls, lost_step s a hls]
            · cases a with
              | job raise => exact absurd rfl (ha raise)
              | register es =>
                simp only [Async.step, Async.register]
                split
                · split <;> rfl
                · rfl
              | query p =>
                simp only [Async.step, Async.query]
                split
                · cases p with
                  | latest t => rfl
                  | server p => simp only [Async.queryServer]; split <;> rfl
                  | timeseries p =>
                    simp only [Async.queryTimeseries]
                    split
                    · rfl
                    · split
                      · rfl
                      · rfl
                      · simp only [Async.queryPartition]
                        split
                        · split
                          · simp [Async.answer]
                          · split <;> simp [Async.answer, Async.submit]
                        · rfl
                · rfl
              | request => simp only [Async.step]; split <;> rfl
              | flush => simp only [Async.step, Async.startFlush]; split <;> rfl
              | cleanup => simp only [Async.step]; split <;> rfl
              | start => simp only [Async.step, Async.startJob]; split <;> rfl
              | finish i =>
                simp only [Async.step, Async.finish]
                split
                · rfl
                · rename_i q r _
                  simp only [Async.answer]
                  cases q.waiting.lookup r <;> simp [Async.touchLookup]
              | notify => simp only [Async.step, Async.notify]; split <;> rfl
              | close => rfl
          rw [key (fun raise ha => hj ⟨raise, ha⟩)]; exact i1
      · rcases hn with hn | hn
        · exact .inl hn
        · rcases i2 with i2 | i2
          · exact .inl i2
          · refine .inr (noLookup_step i2 a ?_)
            rintro p rfl
            exact hn p hmem
  exact (hk acts [] (by simp)).1

/-! ### All results -/

theorem results_early {s : Async} (h : Sim c0 ops0 s) (hf : Fits ops0 s.calls) :
    ∀ x ∈ s.results, EarlyRes c0 ops0 s x := by
  intro x hx
  rcases h.phase with hs | ⟨opsA, mA, pre, post, g, final, hs⟩
  · rcases hs.body.results x hx with g | g
    · exact g
    · exact lateRes_early g
  · rcases hs.body.results x hx with g | ⟨mq, cs, h1, h2, h3⟩
    · exact g
    · have hpre : (callsOf opsA).Sublist s.calls := by
        rw [hs.calls, ← h.seq, hs.flusher]
        exact List.sublist_append_left _ _
      obtain ⟨d', hd⟩ := hs.hist.flush_ok (hf.sub hpre)
      exact ⟨d', mq, cs, Late.flushed hs.hist hd h1, h2 d', h3⟩

/-! ### After a failed flush -/

/-- Fields other than those of queries that a step of a query leaves alone. -/
theorem query_fields (s : Async) (p : QueryParams) : (s.query p).cb = s.cb ∧ (s.query p).calls = s.calls ∧
    (s.query p).flushed = s.flushed ∧ (s.query p).lost = s.lost ∧ (s.query p).flusher = s.flusher ∧
    (s.query p).isOpen = s.isOpen := by
  have hr : SameRest s (s.query p) := by
    simp only [Async.query]
    split
    · cases p with
      | latest t => exact sameRest_answer _ _ _
      | server p =>
        simp only [Async.queryServer]
        split
        · exact sameRest_answer _ _ _
        · exact sameRest_submit _ _
      | timeseries p =>
        simp only [Async.queryTimeseries]
        split
        · exact sameRest_answer _ _ _
        · split
          · exact sameRest_answer _ _ _
          · exact sameRest_answer _ _ _
          · simp only [Async.queryPartition]
            split
            · split
              · exact (sameRest_touch _).trans (sameRest_answer _ _ _)
              · split
                · exact (sameRest_touch _).trans (sameRest_answer _ _ _)
                · exact (sameRest_touch _).trans (sameRest_submit _ _)
            · exact sameRest_submit _ _
    · exact .refl
  exact ⟨hr.cb, hr.calls, hr.flushed, hr.lost, hr.flusher, hr.isOpen⟩

theorem finish_fields (s : Async) (i : Nat) : (s.finish i).cb = s.cb ∧ (s.finish i).calls = s.calls ∧
    (s.finish i).flushed = s.flushed ∧ (s.finish i).lost = s.lost ∧ (s.finish i).flusher = s.flusher ∧
    (s.finish i).isOpen = s.isOpen := by
  simp only [Async.finish]
  split
  · exact ⟨rfl, rfl, rfl, rfl, rfl, rfl⟩
  · rename_i q r _
    simp only [Async.answer]
    cases q.waiting.lookup r <;> simp [Async.touchLookup]

/-- A failed flush closes the backend. -/
def Closing (s : Async) : Prop := s.lost = true → (∃ f, s.flusher = .failed f) ∨ s.isOpen = false

theorem closing_step (h : Closing s) (hw : ∀ g r, s.jobs = .flush g :: r → s.flusher.isWaiting = true) (a : Act) :
    Closing (s.step a) := by
  unfold Closing at *
  cases a with
  | register es =>
    simp only [Async.step, Async.register]
    split
    · split <;> exact h
    · exact h
  | query p =>
    obtain ⟨_, _, _, h1, h2, h3⟩ := query_fields s p
    simp only [Async.step]
    rw [h1, h2, h3]; exact h
  | request => simp only [Async.step]; split <;> exact h
  | flush =>
    simp only [Async.step, Async.startFlush]
    split
    · next hf =>
      intro hl
      rcases h hl with ⟨f, h'⟩ | h'
      · rw [hf] at h'; cases h'
      · exact .inr h'
    · exact h
  | cleanup => simp only [Async.step]; split <;> exact h
  | start => simp only [Async.step, Async.startJob]; split <;> exact h
  | job raise =>
    simp only [Async.step, Async.runJob]
    have key : ∀ {g r}, s.jobs = .flush g :: r → ∃ f, s.flusher.done false = .failed f := by
      intro g r hj
      have := hw g r hj
      cases hf : s.flusher <;> rw [hf] at this <;> simp [Flusher.isWaiting] at this
      exact ⟨_, rfl⟩
    split
    · exact h
    · exact h
    · split
      · exact h
      · exact fun _ => .inr rfl
    · next g r hj =>
      split
      · exact fun _ => .inl (key hj)
      · split
        · intro hl
          rcases h hl with ⟨f, h'⟩ | h'
          · have := hw g r hj; rw [h'] at this; simp [Flusher.isWaiting] at this
          · exact .inr h'
        · exact fun _ => .inl (key hj)
  | finish i =>
    obtain ⟨_, _, _, h1, h2, h3⟩ := finish_fields s i
    simp only [Async.step]
    rw [h1, h2, h3]; exact h
  | notify =>
    simp only [Async.step, Async.notify]
    split
    · next hf =>
      intro hl
      rcases h hl with ⟨f, h'⟩ | h'
      · rw [hf] at h'; cases h'
      · exact .inr h'
    · next hf =>
      intro hl
      rcases h hl with ⟨f, h'⟩ | h'
      · rw [hf] at h'; cases h'
      · exact .inr h'
    · exact fun _ => .inr rfl
    · exact h
  | close => exact fun _ => .inr rfl

/-- There is a job of a flush exactly while the flush loop waits for it. -/
def OneFlush (s : Async) : Prop :=
  (NoFlush s.jobs ∧ s.flusher.isWaiting = false) ∨
    ∃ pre g post, s.jobs = pre ++ .flush g :: post ∧ NoFlush pre ∧ NoFlush post ∧ s.flusher.isWaiting = true

theorem noFlush_append {l l' : List Job} (h : NoFlush l) (h' : NoFlush l') : NoFlush (l ++ l') := by
  intro g hg
  rcases List.mem_append.1 hg with hg | hg
  · exact h g hg
  · exact h' g hg

theorem oneFlush_new {new : List Job} (h : OneFlush s) (hj : s'.jobs = s.jobs ++ new) (hn : NoFlush new)
    (hf : s'.flusher.isWaiting = s.flusher.isWaiting) : OneFlush s' := by
  rcases h with ⟨h1, h2⟩ | ⟨pre, g, post, h1, h2, h3, h4⟩
  · exact .inl ⟨by rw [hj]; exact noFlush_append h1 hn, hf.trans h2⟩
  · exact .inr ⟨pre, g, post ++ new, by rw [hj, h1]; simp, h2, noFlush_append h3 hn, hf.trans h4⟩

theorem oneFlush_same (h : OneFlush s) (hj : s'.jobs = s.jobs)
    (hf : s'.flusher.isWaiting = s.flusher.isWaiting) : OneFlush s' :=
  oneFlush_new h (new := []) (by simpa using hj) (by intro g; simp) hf

theorem oneFlush_drop {j : Job} {r : List Job} (h : OneFlush s) (hs : s.jobs = j :: r) (hj' : ∀ g, j ≠ .flush g)
    (hj : s'.jobs = r) (hf : s'.flusher.isWaiting = s.flusher.isWaiting) : OneFlush s' := by
  rcases h with ⟨h1, h2⟩ | ⟨pre, g, post, h1, h2, h3, h4⟩
  · exact .inl ⟨by rw [hj]; rw [hs] at h1; exact noFlush_cons h1, hf.trans h2⟩
  · rw [hs] at h1
    cases pre with
    | nil =>
      simp only [List.nil_append, List.cons.injEq] at h1
      exact absurd h1.1 (hj' g)
    | cons x pre =>
      simp only [List.cons_append, List.cons.injEq] at h1
      exact .inr ⟨pre, g, post, by rw [hj, h1.2], noFlush_cons h2, h3, hf.trans h4⟩

theorem oneFlush_run {g : Nat} {r : List Job} (h : OneFlush s) (hs : s.jobs = .flush g :: r) :
    s.flusher.isWaiting = true ∧ NoFlush r := by
  rcases h with ⟨h1, _⟩ | ⟨pre, g', post, h1, h2, h3, h4⟩
  · exact absurd (by rw [hs]; simp) (h1 g)
  · rw [hs] at h1
    cases pre with
    | nil =>
      simp only [List.nil_append, List.cons.injEq] at h1
      rw [h1.2]; exact ⟨h4, h3⟩
    | cons x pre =>
      simp only [List.cons_append, List.cons.injEq] at h1
      rw [← h1.1] at h2
      exact absurd (by simp) (h2 g)

theorem done_notWaiting (f : Flusher) (b : Bool) : (f.done b).isWaiting = false := by
  cases f <;> cases b <;> rfl

theorem query_jobs (s : Async) (p : QueryParams) : ∃ new, (s.query p).jobs = s.jobs ++ new ∧ NoFlush new := by
  have hsub : ∀ {s : Async} {p w}, ∃ new, (s.submit p w).jobs = s.jobs ++ new ∧ NoFlush new :=
    fun {s p w} => ⟨[.query ⟨p, s.gen, w, s.calls.length⟩], rfl, by intro g; simp⟩
  have hans : ∀ {s : Async} {p n r}, ∃ new, (s.answer p n r).jobs = s.jobs ++ new ∧ NoFlush new :=
    ⟨[], by simp [Async.answer], by intro g; simp⟩
  simp only [Async.query]
  split
  · cases p with
    | latest t => exact hans
    | server p =>
      simp only [Async.queryServer]
      split
      · exact hans
      · exact hsub
    | timeseries p =>
      simp only [Async.queryTimeseries]
      split
      · exact hans
      · split
        · exact hans
        · exact hans
        · simp only [Async.queryPartition]
          split
          · have hj := fun q => touch_jobs s s.gen q
            split
            · rw [← hj]; exact hans
            · split
              · rw [← hj]; exact hans
              · rw [← hj]; exact hsub
          · exact hsub
  · exact ⟨[], by simp, by intro g; simp⟩

theorem finish_jobs (s : Async) (i : Nat) : (s.finish i).jobs = s.jobs := by
  simp only [Async.finish]
  split
  · rfl
  · rename_i q r _
    simp only [Async.answer]
    cases q.waiting.lookup r <;> simp [Async.touchLookup]

theorem oneFlush_step (h : OneFlush s) (a : Act) : OneFlush (s.step a) := by
  cases a with
  | register es =>
    simp only [Async.step, Async.register]
    split
    · split
      · exact oneFlush_same h rfl rfl
      · exact h
    · exact h
  | query p =>
    obtain ⟨new, h1, h2⟩ := query_jobs s p
    exact oneFlush_new h h1 h2 (by simp only [Async.step]; rw [(query_fields s p).2.2.2.2.1])
  | request =>
    simp only [Async.step]
    split
    · exact oneFlush_same h rfl rfl
    · exact h
  | flush =>
    simp only [Async.step, Async.startFlush]
    split
    · next hf =>
      rcases h with ⟨h1, _⟩ | ⟨_, _, _, _, _, _, h4⟩
      · exact .inr ⟨s.jobs, s.gen, [], rfl, h1, by intro g; simp, rfl⟩
      · rw [hf] at h4; simp [Flusher.isWaiting] at h4
    · exact h
  | cleanup fl se now =>
    simp only [Async.step]
    split
    · exact oneFlush_new h (new := [.cleanup fl se now]) rfl (by intro g; simp) rfl
    · exact h
  | start =>
    simp only [Async.step, Async.startJob]
    split
    · exact oneFlush_same h rfl rfl
    · exact h
  | job raise =>
    simp only [Async.step, Async.runJob]
    split
    · exact h
    · next hj => exact oneFlush_drop h hj (by simp) rfl rfl
    · next hj =>
      split
      · exact oneFlush_drop h hj (by simp) rfl rfl
      · exact oneFlush_drop h hj (by simp) rfl rfl
    · next hj =>
      have := (oneFlush_run h hj).2
      split
      · exact .inl ⟨this, done_notWaiting _ _⟩
      · split
        · exact .inl ⟨this, done_notWaiting _ _⟩
        · exact .inl ⟨this, done_notWaiting _ _⟩
  | finish i =>
    exact oneFlush_same h (finish_jobs s i) (by simp only [Async.step]; rw [(finish_fields s i).2.2.2.2.1])
  | notify =>
    simp only [Async.step, Async.notify]
    split
    · next hf => exact oneFlush_same h rfl (by rw [hf]; rfl)
    · next f hf => exact oneFlush_same h rfl (by rw [hf]; cases f <;> rfl)
    · next f hf => exact oneFlush_same h rfl (by rw [hf]; cases f <;> rfl)
    · exact h
  | close => exact oneFlush_same h rfl rfl

/-- Calls, callbacks and returned calls of `flush` are only added. -/
theorem flushed_step (s : Async) (a : Act) : s.cb <+: (s.step a).cb ∧ s.calls <+: (s.step a).calls ∧
    ((s.step a).flushed = s.flushed ∨ (s.isOpen = true ∧ (∃ f, s.flusher = .notifying [] f) ∧
      (s.step a).flushed = s.flushed ++ s.serving ∧ (s.step a).lost = s.lost)) := by
  have hc : s.calls <+: (s.step a).calls := by
    rcases calls_step s a with h | h <;> rw [h]
    all_goals first | exact List.prefix_rfl | exact List.prefix_append _ _
  refine ⟨?_, hc, ?_⟩
  · cases a with
    | register es => simp only [Async.step, Async.register]; split; (split <;> exact List.prefix_rfl); exact List.prefix_rfl
    | query p => simp only [Async.step]; rw [(query_fields s p).1]; exact List.prefix_rfl
    | request => simp only [Async.step]; split <;> exact List.prefix_rfl
    | flush => simp only [Async.step, Async.startFlush]; split <;> exact List.prefix_rfl
    | cleanup => simp only [Async.step]; split <;> exact List.prefix_rfl
    | start => simp only [Async.step, Async.startJob]; split <;> exact List.prefix_rfl
    | job raise =>
      simp only [Async.step, Async.runJob]
      split
      · exact List.prefix_rfl
      · exact List.prefix_rfl
      · split <;> exact List.prefix_rfl
      · split
        · exact List.prefix_rfl
        · split <;> exact List.prefix_rfl
    | finish i => simp only [Async.step]; rw [(finish_fields s i).1]; exact List.prefix_rfl
    | notify =>
      simp only [Async.step, Async.notify]
      split
      · exact List.prefix_append _ _
      · exact List.prefix_rfl
      · exact List.prefix_rfl
      · exact List.prefix_rfl
    | close => exact List.prefix_rfl
  · cases a with
    | register es => left; simp only [Async.step, Async.register]; split; (split <;> rfl); rfl
    | query p => left; simp only [Async.step]; rw [(query_fields s p).2.2.1]
    | request => left; simp only [Async.step]; split <;> rfl
    | flush => left; simp only [Async.step, Async.startFlush]; split <;> rfl
    | cleanup => left; simp only [Async.step]; split <;> rfl
    | start => left; simp only [Async.step, Async.startJob]; split <;> rfl
    | job raise =>
      left
      simp only [Async.step, Async.runJob]
      split
      · rfl
      · rfl
      · split <;> rfl
      · split
        · rfl
        · split <;> rfl
    | finish i => left; simp only [Async.step]; rw [(finish_fields s i).2.2.1]
    | notify =>
      simp only [Async.step, Async.notify]
      split
      · exact .inl rfl
      · next f hf =>
        cases ho : s.isOpen with
        | true => exact .inr ⟨rfl, ⟨f, hf⟩, by simp, rfl⟩
        | false => left; simp
      · exact .inl rfl
      · exact .inl rfl
    | close => exact .inl rfl

/-- Returned calls of `flush`, whether or not a flush failed later. -/
theorem flushed_run {conf : Conf} {disk : Disk} {mem : Mem} (h : OpenAt c0 ops0 [] disk conf mem)
    (hr : mem.registered = []) (acts : List Act) :
    ∀ n ∈ ((Async.create conf disk mem).run acts).flushed,
      n ≤ ((Async.create conf disk mem).run acts).cb.length ∧
      n ≤ ((Async.create conf disk mem).run acts).calls.length ∧
      ((Async.create conf disk mem).run acts).cb.take n = ((Async.create conf disk mem).run acts).calls.take n := by
  suffices hk : (∀ n ∈ ((Async.create conf disk mem).run acts).flushed,
      n ≤ ((Async.create conf disk mem).run acts).cb.length ∧
      n ≤ ((Async.create conf disk mem).run acts).calls.length ∧
      ((Async.create conf disk mem).run acts).cb.take n = ((Async.create conf disk mem).run acts).calls.take n) ∧
      Closing ((Async.create conf disk mem).run acts) ∧ OneFlush ((Async.create conf disk mem).run acts) from hk.1
  induction acts using List.reverseRecOn with
  | nil =>
    refine ⟨by simp [Async.run, Async.create], ?_, .inl ⟨?_, rfl⟩⟩
    · intro hl; simp [Async.run, Async.create] at hl
    · intro g; simp [Async.run, Async.create]
  | append_singleton acts a ih =>
    rw [async_snoc]
    have hsim := sim_run h hr acts
    have hreq := requests_run h hr acts
    generalize (Async.create conf disk mem).run acts = s at *
    obtain ⟨i1, i2, i3⟩ := ih
    refine ⟨?_, closing_step i2 (fun g r hj => (oneFlush_run i3 hj).1) a, oneFlush_step i3 a⟩
    obtain ⟨⟨x, f1⟩, ⟨y, f2⟩, f3⟩ := flushed_step s a
    have hold : ∀ n, n ≤ s.cb.length ∧ n ≤ s.calls.length ∧ s.cb.take n = s.calls.take n →
        n ≤ (s.step a).cb.length ∧ n ≤ (s.step a).calls.length ∧
          (s.step a).cb.take n = (s.step a).calls.take n := by
      rintro n ⟨g1, g2, g3⟩
      rw [← f1, ← f2]
      refine ⟨by simp; omega, by simp; omega, ?_⟩
      rw [List.take_append_of_le_length g1, List.take_append_of_le_length g2, g3]
    intro n hn
    apply hold
    rcases f3 with f3 | ⟨ho, ⟨f, hf⟩, f3, _⟩
    · rw [f3] at hn; exact i1 n hn
    · rw [f3] at hn
      rcases List.mem_append.1 hn with hn | hn
      · exact i1 n hn
      · have hl : s.lost = false := by
          cases hl : s.lost with
          | false => rfl
          | true =>
            rcases i2 hl with ⟨f', h'⟩ | h'
            · rw [hf] at h'; cases h'
            · rw [ho] at h'; simp at h'
        have hseq := (hsim hl).seq
        have hs := (hreq hl).serving n hn
        rw [hf] at hseq hs
        simp only [Flusher.inflight, List.append_nil, List.length_nil, Nat.add_zero] at hseq hs
        refine ⟨hs, ?_, ?_⟩
        · rw [← hseq]; simp; omega
        · rw [← hseq, List.take_append_of_le_length hs]

end HatEvent
