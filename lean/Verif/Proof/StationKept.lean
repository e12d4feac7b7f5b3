import Verif.Proof.StationCalls

/-!
# What the backend of an event server goes on showing
-/

namespace HatEvent
open Spec

/-- Actions that do not open the backend, which is open afterwards. -/
theorem kept_more {conf : Conf} {ops : List BackendOp} (hl : LookupLaws ops) {w : World} (h : Reached conf ops w)
    (more : List BackendOp) (hno : ∀ c, .reopen c ∉ more) (hopen : ((Backend.new conf).run (ops ++ more)).mem ≠ none) :
    ∃ w', Reached conf (ops ++ more) w' ∧ w'.conf = w.conf ∧ w'.partitions = w.partitions ∧ ∀ x, KeepsAt w x → KeepsAt w' x := by
  induction more using List.reverseRecOn with
  | nil => exact ⟨w, by simpa using h, rfl, rfl, fun _ h => h⟩
  | append_singleton more op ih =>
    rw [← List.append_assoc] at hopen ⊢
    have hop : ∀ c, op ≠ .reopen c := fun c hc => hno c (by simp [hc])
    have hno' : ∀ c, .reopen c ∉ more := fun c hc => hno c (by simp [hc])
    obtain ⟨w1, h1, h2, h3, h4⟩ := ih hno' (open_before hop hopen)
    obtain ⟨w2, h5, h6⟩ := reached_step h1 op (by
      intro c hc
      rcases List.mem_append.1 hc with hc | hc
      · exact hl c hc
      · exact absurd hc (hno' c))
    have hw : w2.isOpen = true := by rw [h6.rel.isOpen, Option.isSome_iff_ne_none]; exact hopen
    obtain ⟨h7, h8, h9⟩ := keeps_step h1 h5 hop hw
    exact ⟨w2, h6, h7.trans h2, h8.trans h3, fun x hx => h9 x (h4 x hx)⟩

theorem open_earlier {conf : Conf} {ops more : List BackendOp} (hno : ∀ c, .reopen c ∉ more)
    (hopen : ((Backend.new conf).run (ops ++ more)).mem ≠ none) : ((Backend.new conf).run ops).mem ≠ none := by
  induction more using List.reverseRecOn with
  | nil => simpa using hopen
  | append_singleton more op ih =>
    rw [← List.append_assoc] at hopen
    exact ih (fun c hc => hno c (by simp [hc])) (open_before (fun c hc => hno c (by simp [hc])) hopen)

/-! ### Several processes -/

/-- The configurations the backend is opened with. -/
def openedWith (ops : List BackendOp) : List Conf := ops.filterMap fun op => match op with | .reopen c => some c | _ => none

/-- An event or one that is not older is stored as the latest of its type, and the configurations accept it. -/
def StoredFor (confs : List Conf) (st : Store) (x : Event) : Prop :=
  ∃ s, st.slot x.type = some s ∧ TimeLe x.timestamp s.timestamp ∧ ∀ c ∈ confs, c.latestSub.matches x.type = true → c.conditions s = true

/-- What the first configuration shows the others accept. -/
def Accepting (confs : List Conf) : Prop :=
  confs.Pairwise fun c c' => ∀ e, Visible c e → c'.latestSub.matches e.type = true → c'.conditions e = true

theorem storedFor_offer {c : Conf} {confs : List Conf} (ha : Accepting (c :: confs)) {parts : Dict Int Partition} {st : Store} (hs : StoreOk st)
    {x : Event} (h : StoredFor (c :: confs) st x) (y : Event) : StoredFor (c :: confs) (st.offer c parts y) x := by
  unfold Store.offer
  split
  swap
  · exact h
  next hc =>
  obtain ⟨s, h1, h2, h3⟩ := h
  by_cases hl : x.type = y.type ∧ ToLatest c st y
  · have hm : c.latestSub.matches x.type = true := by rw [hl.1]; exact hl.2.1
    have hsv : Visible c s := ⟨h3 c (by simp) hm, by rw [(hs.slotType _ _ h1).1]; exact hm⟩
    have hyv : Visible c y := ⟨hc.1.2.2, hl.2.1⟩
    have ht : TimeLe s.timestamp y.timestamp := by
      have := hl.2.2 s (by rw [← hl.1]; exact h1) hsv
      unfold Newer at this
      split at this
      · next hsrv => exact (admissible_new hs hc.1 (hs.slotType _ _ h1).2 hsrv).2
      · exact not_timeLt.1 this
    refine ⟨y, by simp only [if_pos hl], h2.trans ht, fun c' hc' hm' => ?_⟩
    rcases List.mem_cons.1 hc' with rfl | hc'
    · exact hyv.1
    · exact List.rel_of_pairwise_cons ha hc' y hyv (by rw [← hl.1]; exact hm')
  · exact ⟨s, by simp only [if_neg hl]; exact h1, h2, h3⟩

theorem storedFor_offers {c : Conf} {confs : List Conf} (ha : Accepting (c :: confs)) {parts : Dict Int Partition} (es : List Event) {st : Store}
    (hs : StoreOk st) {x : Event} (h : StoredFor (c :: confs) st x) : StoredFor (c :: confs) (es.foldl (Store.offer c parts) st) x := by
  induction es generalizing st with
  | nil => exact h
  | cons y es ih => exact ih (storeOk_offer hs y) (storedFor_offer ha hs h y)

theorem StoredFor.tail {c : Conf} {confs : List Conf} {st : Store} {x : Event} (h : StoredFor (c :: confs) st x) : StoredFor confs st x := by
  obtain ⟨s, h1, h2, h3⟩ := h
  exact ⟨s, h1, h2, fun c' hc' => h3 c' (List.mem_cons_of_mem _ hc')⟩

/-- What is permanent remains so, whatever happens. -/
theorem stored_more {conf : Conf} (rest : List BackendOp) : ∀ {ops : List BackendOp}, LookupLaws (ops ++ rest) → ∀ {w : World}, Reached conf ops w →
    ∀ {x : Event}, Accepting (w.conf :: openedWith rest) → StoredFor (w.conf :: openedWith rest) w.cur x →
    StoredFor (w.conf :: openedWith rest) w.flushed x → ∃ w', Reached conf (ops ++ rest) w' ∧ StoredFor [w'.conf] w'.cur x := by
  induction rest with
  | nil => intro ops _ w h x _ h2 _; exact ⟨w, by simpa using h, h2⟩
  | cons op rest ih =>
    intro ops hl w h x ha h2 h3
    have hl' : LookupLaws ops := fun c hc => hl c (List.mem_append_left _ hc)
    obtain ⟨w', h4, h5⟩ := reached_step h op hl'
    rw [show ops ++ op :: rest = (ops ++ [op]) ++ rest by simp] at hl ⊢
    cases h4 with
    | closed a b =>
      have he : openedWith (op :: rest) = openedWith rest := by cases op <;> first | rfl | exact absurd rfl (b _)
      rw [he] at ha h2 h3
      exact ih hl h5 ha h2 h3
    | @register es a => exact ih hl h5 ha (storedFor_offers ha es h.rel.okC h2) h3
    | touch a => exact ih hl h5 ha h2 h3
    | flush a => exact ih hl h5 ha h2 h2
    | flushFail a => exact ih hl h5 ha h3 h3
    | cleanup r a b => exact ih hl h5 ha h2 h3
    | cleanupFail a => exact ih hl h5 ha h3 h3
    | reopen a => exact ih hl h5 (List.Pairwise.of_cons ha) h3.tail h3.tail
    | reopenFail => exact ih hl h5 (List.Pairwise.of_cons ha) h3.tail h3.tail

theorem openedWith_append (a b : List BackendOp) : openedWith (a ++ b) = openedWith a ++ openedWith b := List.filterMap_append

theorem mem_openedWith {c : Conf} {ops : List BackendOp} : c ∈ openedWith ops ↔ .reopen c ∈ ops := by
  unfold openedWith
  rw [List.mem_filterMap]
  constructor
  · rintro ⟨op, h1, h2⟩
    split at h2
    · cases h2; exact h1
    · cases h2
  · intro h; exact ⟨_, h, rfl⟩

/-- After a flush: an event that is shown is shown later, if it is to be shown then. -/
theorem shown_later {conf : Conf} {ops rest : List BackendOp} (hl : LookupLaws (ops ++ [.flush] ++ rest)) (hk : KeepsAccepted (ops ++ [.flush] ++ rest))
    (hopen : ((Backend.new conf).run (ops ++ [.flush])).mem ≠ none) {w : World} (h : Reached conf (ops ++ [.flush]) w) {x : Event}
    (hx : ShowsAt w.conf w.cur x) :
    ∃ w', Reached conf (ops ++ [.flush] ++ rest) w' ∧ (Visible w'.conf x → ShowsAt w'.conf w'.cur x) := by
  have hall : Accepting (openedWith (ops ++ [.flush]) ++ openedWith rest) := by rw [← openedWith_append]; exact hk
  have hmem : w.conf ∈ openedWith (ops ++ [.flush]) := by
    rw [mem_openedWith, ← h.rel.conf]; exact run_conf conf _ hopen
  have hacc : Accepting (w.conf :: openedWith rest) := by
    have := List.pairwise_append.1 hall
    exact List.pairwise_cons.2 ⟨fun c hc => this.2.2 _ hmem c hc, this.2.1⟩
  have hflush : w.flushed = w.cur := by
    have hlw : LookupLaws ops := fun c hc => hl c (by simp [hc])
    obtain ⟨w0, h0⟩ := reached conf ops hlw
    have hw : w.isOpen = true := by rw [h.rel.isOpen, Option.isSome_iff_ne_none]; exact hopen
    have hr := h.run
    generalize hops : ops ++ [.flush] = ops' at hr
    cases hr with
    | nil => simp at hops
    | @snoc ops0 w1 op w2 a b c =>
      obtain ⟨rfl, h1⟩ := List.append_inj' hops rfl
      cases h1
      cases b with
      | closed a b => rw [hw] at a; cases a
      | flush => rfl
      | flushFail => cases hw
  obtain ⟨s, s1, s2, s3⟩ := hx
  have hty := (h.rel.okC.slotType _ _ s1).1
  have hst : StoredFor (w.conf :: openedWith rest) w.cur x := by
    refine ⟨s, s1, s3, fun c hc hm => ?_⟩
    rcases List.mem_cons.1 hc with rfl | hc
    · exact s2.1
    · exact List.rel_of_pairwise_cons hacc hc s s2 (by rw [hty]; exact hm)
  obtain ⟨w', h1, t, t1, t2, t3⟩ := stored_more rest hl h hacc hst (by rw [hflush]; exact hst)
  refine ⟨w', h1, fun hv => ⟨t, t1, ⟨t3 _ (by simp) hv.2, ?_⟩, t2⟩⟩
  rw [(h1.rel.okC.slotType _ _ t1).1]; exact hv.2

namespace Station

/-- What happens to the database in a process; the backend is not opened again. -/
theorem past_more_step (cf : StationConf) (s : Station) (a : StationAct) :
    ∃ more, (s.step cf a).past = s.past ++ more ∧ ∀ c, .reopen c ∉ more := by
  have hsame : ∀ s' : Station, s'.past = s.past → ∃ more, s'.past = s.past ++ more ∧ ∀ c, .reopen c ∉ more :=
    fun s' h => ⟨[], by simp [h], by simp⟩
  cases a with
  | host act =>
    simp only [step]
    split
    · exact hsame _ (past_hostStep cf s _)
    · exact hsame _ rfl
  | arrive i =>
    simp only [step, arrive]
    split
    · split
      · exact hsame _ (past_hostStep cf s _)
      · exact hsame _ rfl
    · exact hsame _ rfl
  | connect i => simp only [step, connect]; split <;> exact hsame _ rfl
  | client i act => cases act <;> exact hsame _ rfl
  | deliver i =>
    simp only [step, deliver]
    split
    · split <;> exact hsame _ rfl
    · exact hsame _ rfl
  | answered i =>
    simp only [step, answered]
    split
    · split
      · exact hsame _ (past_hostStep cf s _)
      · exact hsame _ rfl
    · exact hsame _ rfl
  | queried i =>
    simp only [step, queried]
    split
    · exact hsame _ (past_hostStep cf s _)
    · exact hsame _ rfl
  | start modules =>
    simp only [step, start]
    split
    · split <;> exact hsame _ rfl
    · split <;> exact hsame _ rfl
    · exact hsame _ rfl
  | engine e act =>
    simp only [step, engineStep]
    split
    · refine ⟨_, rfl, fun c hc => ?_⟩
      obtain ⟨es, _, h⟩ := List.mem_map.1 hc
      cases h
    · exact hsame _ rfl
  | keep op =>
    cases op with
    | register es => exact hsame _ rfl
    | reopen c => exact hsame _ rfl
    | _ => exact ⟨_, rfl, by simp⟩
  | remote events => exact ⟨_, rfl, by simp⟩

theorem past_more (cf : StationConf) (s : Station) (acts : List StationAct) :
    ∃ more, (s.run cf acts).past = s.past ++ more ∧ ∀ c, .reopen c ∉ more := by
  induction acts using List.reverseRecOn with
  | nil => exact ⟨[], by simp [run], by simp⟩
  | append_singleton acts a ih =>
    obtain ⟨m1, h1, h2⟩ := ih
    obtain ⟨m2, h3, h4⟩ := past_more_step cf (s.run cf acts) a
    refine ⟨m1 ++ m2, by rw [run_snoc, h3, h1, List.append_assoc], fun c hc => ?_⟩
    rcases List.mem_append.1 hc with hc | hc
    · exact h2 c hc
    · exact h4 c hc

/-- A registration was answered with events: they were passed to the backend. -/
theorem answered_registered {cf : StationConf} {pre : List BackendOp} (hl : LookupLaws pre) {a : Nat} (ha : cf.foreign a = false)
    {before : List StationAct} {evs : List RegisterEvent} {between : List StationAct} {c c' : ReqClient} {es : List Event}
    (hc : ((init cf pre).run cf before).clients a = some c)
    (hc' : ((((init cf pre).run cf before).step cf (.client a (.register evs true))).run cf between).clients a = some c')
    (hx : c'.calls c.nextCall = .finished (.answered (.events (some es))))
    (hf : ClockForward cf.serverId pre ((((init cf pre).run cf before).step cf (.client a (.register evs true))).run cf between).past) :
    DataOk cf pre ((((init cf pre).run cf before).step cf (.client a (.register evs true))).run cf between).engines
        ((((init cf pre).run cf before).step cf (.client a (.register evs true))).run cf between).past ∧
      ∀ x ∈ es, x ∈ offeredBy cf.serverId
        (((((init cf pre).run cf before).step cf (.client a (.register evs true))).run cf between).past.drop pre.length) := by
  have hs1 : (((init cf pre).run cf before).step cf (.client a (.register evs true))).run cf between =
      (init cf pre).run cf (before ++ .client a (.register evs true) :: between) := by rw [run_append]; rfl
  have hd : DataOk cf pre ((((init cf pre).run cf before).step cf (.client a (.register evs true))).run cf between).engines
      ((((init cf pre).run cf before).step cf (.client a (.register evs true))).run cf between).past := by
    rw [hs1] at hf ⊢
    exact dataOk_run hl _ hf
  refine ⟨hd, registered_offered hd (id := a) (evs := evs) ?_⟩
  have hlk : Linked (fun _ _ _ => True) a ((((init cf pre).run cf before).step cf (.client a (.register evs true))).run cf between) := by
    rw [hs1]; exact linked_any ha _
  exact answered_call (cf := cf) hc (act := .register evs true) (req := fun conv => .register conv evs false) rfl (fun _ => nofun)
    (fun _ => rfl) between hlk hc' hx

/-- A query was answered: the backend has returned the result since the call. -/
theorem answered_query {cf : StationConf} {b : Nat} (hb : cf.foreign b = false) {s : Station} (hs : Linked (fun _ _ _ => True) b s)
    (P : QueryResult → Prop) {params : QueryParams} {after : List StationAct}
    (hP : ∀ first r, first <+: .client b (.query params) :: after → ((s.run cf first).backend cf).query params = .ok r → P r)
    {c c' : ReqClient} {r : QueryResult}
    (hc : s.clients b = some c) (hc' : ((s.step cf (.client b (.query params))).run cf after).clients b = some c')
    (hx : c'.calls c.nextCall = .finished (.answered (.result r))) : P r := by
  let V : Nat → QueryParams → QueryResult → Prop := fun conv p r => c.nextConv ≤ conv → p = params → P r
  have hlk : Linked V b s := by
    refine ⟨hs.engine, hs.conn.mono (fun _ hm => hm) ?_, hs.waits, hs.client⟩
    rintro m x ⟨c1, hc1, hm⟩ hx
    rw [hc] at hc1
    cases hc1
    have hlt := (hs.client c hc).1.2 m hm
    unfold Fair at hx ⊢
    split at hx
    · exact hx
    · trivial
    · next conv params r => exact fun hle => absurd (hlt conv rfl) (by omega)
    · exact hx.elim
  have hlk2 : Linked V b ((s.step cf (.client b (.query params))).run cf after) := by
    refine linked_run (s := s) hb hlk (.client b (.query params) :: after) fun first more conv p r he hq _ hp => ?_
    subst hp
    exact hP first r ⟨more, he.symm⟩ hq
  have hfin := answered_call (cf := cf) hc (act := .query params) (req := fun conv => .query conv params) rfl (fun _ => nofun)
    (fun _ => rfl) after hlk2 hc' hx
  exact hfin (Nat.le_refl _) rfl

end Station
end HatEvent
