import Verif.Spec.Duo
import Verif.Proof.ReadWrites
import Verif.Props.LmdbServer
import Verif.Proof.Sync

/-!
# Backends of a server and its standby
-/

namespace HatEvent
open Spec

/-- What is assumed of events and configurations besides what C84 assumes, and the events `taken` that each configuration
takes into a partition. -/
structure Terms where
  taken : Event → Prop
  events : Event → Prop
  confs : Conf → Prop

/-- Nothing more. -/
def Terms.none : Terms := ⟨fun _ => False, fun _ => True, fun _ => True⟩

variable {T : Terms}

theorem foldlM_keeps {α : Type} {f : Mem → Event → Except PyErr Mem} {g : Mem → α}
    (hf : ∀ m e m', f m e = .ok m' → g m' = g m) (es : List Event) {m m' : Mem} (h : es.foldlM f m = .ok m') :
    g m' = g m := by
  induction es generalizing m with
  | nil =>
    simp only [List.foldlM_nil] at h
    cases h; rfl
  | cons e es ih =>
    rw [List.foldlM_cons] at h
    obtain ⟨m1, h1, h2⟩ := bind_ok h
    rw [ih h2, hf _ _ _ h1]

theorem registerEvent_keeps {conf : Conf} {m m' : Mem} {e : Event} (h : registerEvent conf m e = .ok m') :
    m'.registered = m.registered := by
  unfold registerEvent at h
  split at h
  · cases h; rfl
  split at h
  · cases h; rfl
  split at h
  · cases h; rfl
  unfold storeEvent at h
  simp only at h
  split at h
  · cases h; rfl
  · obtain ⟨r, _, h2⟩ := bind_ok h
    cases h2; rfl

theorem register_registered {conf : Conf} {m m' : Mem} {es : List Event} (h : m.register conf es = .ok m') :
    m'.registered = m.registered ++ [es] := by
  unfold Mem.register at h
  obtain ⟨m1, h1, h2⟩ := bind_ok h
  cases h2
  simp only
  rw [foldlM_keeps (g := Mem.registered) (fun _ _ _ => registerEvent_keeps) es h1]

theorem createDbs_registered {conf : Conf} {d d' : Disk} {m : Mem} (h : createDbs conf d = .ok (d', m)) :
    m.registered = [] := by
  unfold createDbs at h
  obtain ⟨s, _, h⟩ := bind_ok h
  obtain ⟨p, _, h⟩ := bind_ok h
  cases h; rfl

/-- Calls of `register` that are not flushed. -/
def pending (b : Backend) : List Event := ((b.mem.map Mem.registered).getD []).flatten

theorem told_eq (b : Backend) : told b = b.flushedCb.flatten ++ pending b := rfl

theorem Spec.Orderly.prefix {server : Int} {l l' : List Event} (h : Orderly server (l ++ l')) : Orderly server l :=
  ⟨(List.pairwise_append.1 h.sorted).1, fun e he => h.owner e (List.mem_append_left _ he),
    fun e he => h.pos e (List.mem_append_left _ he)⟩

theorem Spec.Orderly.increasing {server : Int} {l : List Event} (h : Orderly server l) : Increasing l :=
  h.sorted.imp fun hh => hh.1

theorem Spec.Orderly.onward {server : Int} {l : List Event} (h : Orderly server l) : Onward server [] l :=
  ⟨h.sorted, h.owner, h.pos, by simp⟩

/-- Two of the events: the one with the smaller id is not newer. -/
theorem Spec.Orderly.le {server : Int} {l : List Event} (h : Orderly server l) {a b : Event} (ha : a ∈ l) (hb : b ∈ l)
    (hlt : IdLt a.id b.id) : TimeLe a.timestamp b.timestamp := by
  induction l with
  | nil => simp at ha
  | cons x l ih =>
    have h1 := List.pairwise_cons.1 h.sorted
    rcases List.mem_cons.1 ha with ha' | ha' <;> rcases List.mem_cons.1 hb with hb' | hb'
    · rw [ha', hb']; exact .inr rfl
    · subst ha'; exact (h1.1 b hb').2
    · subst hb'; exact absurd hlt (h1.1 a ha').1.asymm
    · exact ih ⟨h1.2, fun e he => h.owner e (List.mem_cons_of_mem _ he), fun e he => h.pos e (List.mem_cons_of_mem _ he)⟩
        ha' hb'

theorem Spec.Orderly.same {server : Int} {l : List Event} (h : Orderly server l) {a b : Event} (ha : a ∈ l) (hb : b ∈ l)
    (h1 : ¬ IdLt a.id b.id) (h2 : ¬ IdLt b.id a.id) : a = b := by
  induction l with
  | nil => simp at ha
  | cons x l ih =>
    have hp := List.pairwise_cons.1 h.sorted
    rcases List.mem_cons.1 ha with ha' | ha' <;> rcases List.mem_cons.1 hb with hb' | hb'
    · rw [ha', hb']
    · subst ha'; exact absurd (hp.1 b hb').1 h1
    · subst hb'; exact absurd (hp.1 a ha').1 h2
    · exact ih ⟨hp.2, fun e he => h.owner e (List.mem_cons_of_mem _ he), fun e he => h.pos e (List.mem_cons_of_mem _ he)⟩
        ha' hb'

theorem mem_ofServer {server : Int} {l : List Event} {e : Event} :
    e ∈ ofServer server l ↔ e ∈ l ∧ e.id.server = server := by
  simp [ofServer]

theorem ofServer_append (server : Int) (l l' : List Event) :
    ofServer server (l ++ l') = ofServer server l ++ ofServer server l' := List.filter_append ..

/-! ## The primary -/

/-- The event is stored with an entry in a partition, if its id and timestamp allow it. -/
def TakenBy (conf : Conf) (parts : Dict Int Partition) (e : Event) : Prop :=
  conf.conditions e = true ∧ ∃ k, InSeries parts e k

/-- What is known of the backend of the primary. -/
structure Primary (conf : Conf) (T : Terms) (server : Int) (b : Backend) (w : World) : Prop where
  logC : ∀ x ∈ w.cur.log, x ∈ told b
  logF : ∀ x ∈ w.flushed.log, x ∈ b.flushedCb.flatten
  shownC : ∀ x ∈ ofServer server (told b), Visible conf x → Shows conf w.cur x
  shownF : ∀ x ∈ ofServer server b.flushedCb.flatten, Visible conf x → Shows conf w.flushed x
  takenC : ∀ x ∈ ofServer server (told b), T.taken x → x ∈ w.cur.log
  takenF : ∀ x ∈ ofServer server b.flushedCb.flatten, T.taken x → x ∈ w.flushed.log
  slot : ∀ t e, w.cur.slot t = some e → w.flushed.slot t = some e ∨ e ∈ pending b
  entry : ∀ k e, w.cur.entry k = some e → w.flushed.entry k = some e ∨ e ∈ pending b
  fresh : ∃ l, w.cur.log = w.flushed.log ++ l ∧ ∀ x ∈ l, x ∈ pending b

theorem primary_new (conf : Conf) (T : Terms) (server : Int) : Primary conf T server (.new conf) (.new conf) := by
  constructor <;> simp [World.new, Store.empty, told, Backend.new, ofServer]

theorem offers_new {conf : Conf} {parts : Dict Int Partition} (es : List Event) (st : Store) :
    (∀ t e, (es.foldl (Store.offer conf parts) st).slot t = some e → st.slot t = some e ∨ e ∈ es) ∧
    (∀ k e, (es.foldl (Store.offer conf parts) st).entry k = some e → st.entry k = some e ∨ e ∈ es) := by
  induction es generalizing st with
  | nil => exact ⟨fun _ _ h => .inl h, fun _ _ h => .inl h⟩
  | cons x es ih =>
    obtain ⟨h1, h2⟩ := ih (st.offer conf parts x)
    have o1 : ∀ t e, (st.offer conf parts x).slot t = some e → st.slot t = some e ∨ e = x := by
      intro t e he
      unfold Store.offer at he
      split at he
      · simp only at he
        split at he
        · exact .inr (by simpa using he.symm)
        · exact .inl he
      · exact .inl he
    have o2 : ∀ k e, (st.offer conf parts x).entry k = some e → st.entry k = some e ∨ e = x := by
      intro k e he
      unfold Store.offer at he
      split at he
      · simp only at he
        split at he
        · exact .inr (by simpa using he.symm)
        · exact .inl he
      · exact .inl he
    constructor
    · intro t e he
      rcases h1 t e he with h | h
      · rcases o1 t e h with h | h
        · exact .inl h
        · exact .inr (by simp [h])
      · exact .inr (List.mem_cons_of_mem _ h)
    · intro t e he
      rcases h2 t e he with h | h
      · rcases o2 t e h with h | h
        · exact .inl h
        · exact .inr (by simp [h])
      · exact .inr (List.mem_cons_of_mem _ h)

theorem offers_suffix {conf : Conf} {parts : Dict Int Partition} (es : List Event) (st : Store) :
    ∃ l, (es.foldl (Store.offer conf parts) st).log = st.log ++ l ∧ ∀ x ∈ l, x ∈ es := by
  induction es generalizing st with
  | nil => exact ⟨[], by simp⟩
  | cons x es ih =>
    obtain ⟨l, h1, h2⟩ := ih (st.offer conf parts x)
    rcases log_offer (conf := conf) (parts := parts) st x with hl | hl
    · exact ⟨l, by rw [List.foldl_cons, h1, hl], fun y hy => List.mem_cons_of_mem _ (h2 y hy)⟩
    · refine ⟨x :: l, by rw [List.foldl_cons, h1, hl]; simp, fun y hy => ?_⟩
      rcases List.mem_cons.1 hy with rfl | hy
      · simp
      · exact List.mem_cons_of_mem _ (h2 y hy)

theorem shows_congr {conf conf' : Conf} (hv : ∀ e, Visible conf e ↔ Visible conf' e) {st : Store} {e : Event} :
    Shows conf st e ↔ Shows conf' st e := by
  unfold Shows
  simp only [hv]

/-- Events of a server in order that are to be stored. -/
theorem taken_offers {conf : Conf} {parts : Dict Int Partition} {server : Int} (ht : ∀ e, T.taken e → TakenBy conf parts e)
    (es : List Event) {done : List Event} {st : Store} (ho : Orderly server (done ++ ofServer server es))
    (hok : StoreOk st) (hlog : ∀ x ∈ st.log, x.id.server = server → x ∈ done) (hd : ∀ x ∈ done, T.taken x → x ∈ st.log) :
    StoreOk (es.foldl (Store.offer conf parts) st) ∧
    (∀ x ∈ (es.foldl (Store.offer conf parts) st).log, x.id.server = server → x ∈ done ++ ofServer server es) ∧
    ∀ x ∈ done ++ ofServer server es, T.taken x → x ∈ (es.foldl (Store.offer conf parts) st).log := by
  induction es generalizing done st with
  | nil => exact ⟨hok, by simpa [ofServer] using hlog, by simpa [ofServer] using hd⟩
  | cons x es ih =>
    have hkeep : ∀ y ∈ st.log, y ∈ (st.offer conf parts x).log := by
      intro y hy
      rcases log_offer (conf := conf) (parts := parts) st x with hl | hl
      · rw [hl]; exact hy
      · rw [hl]; exact List.mem_append_left _ hy
    have hnew : ∀ y ∈ (st.offer conf parts x).log, y ∈ st.log ∨ y = x := by
      intro y hy
      rcases log_offer (conf := conf) (parts := parts) st x with hl | hl
      · rw [hl] at hy; exact .inl hy
      · rw [hl] at hy; simpa using hy
    have hsplit : ofServer server (x :: es) = ofServer server [x] ++ ofServer server es := ofServer_append server [x] es
    rw [hsplit, ← List.append_assoc] at ho ⊢
    refine ih ho (storeOk_offer hok x) ?_ ?_
    · intro y hy hys
      rcases hnew y hy with hy | rfl
      · exact List.mem_append_left _ (hlog y hy hys)
      · exact List.mem_append_right _ (mem_ofServer.2 ⟨by simp, hys⟩)
    · intro y hy hty
      rcases List.mem_append.1 hy with hy | hy
      · exact hkeep y (hd y hy hty)
      · obtain ⟨h1, h2⟩ := mem_ofServer.1 hy
        obtain rfl : y = x := by simpa using h1
        have hp := ho.prefix.pos y (List.mem_append_right _ hy)
        have hadm : Admissible conf st y := by
          unfold Admissible Store.lastId
          cases hl : st.last y.id.server with
          | none => exact ⟨by rw [h2]; exact hp.1, hp.2, (ht y hty).1⟩
          | some l =>
            obtain ⟨l1, l2⟩ := last_mem hl
            have := (List.pairwise_append.1 ho.prefix.sorted).2.2 l (hlog l l1 (l2.trans h2)) y hy
            exact ⟨this.1, this.2, (ht y hty).1⟩
        unfold Store.offer
        rw [if_pos ⟨hadm, .inr (ht y hty).2⟩]
        simp

/-- What the step of a backend does to the events told. -/
theorem primary_step {conf : Conf} {server : Int} {b : Backend} {w w' : World} {op : BackendOp}
    (h : Primary conf T server b w) (hrel : WorldRel b w) (hrel' : WorldRel (b.step op) w') (hs : Step w op w')
    (hv : ∀ e, Visible w.conf e ↔ Visible conf e) (ht : w.isOpen = true → ∀ e, T.taken e → TakenBy w.conf w.partitions e)
    (ho : Orderly server (ofServer server (told (b.step op)))) :
    Primary conf T server (b.step op) w' ∧
      ∃ fresh, (b.step op).flushedCb = b.flushedCb ++ fresh ∧
        ∀ e, w'.flushed.Held e → w.flushed.Held e ∨ e ∈ fresh.flatten := by
  have hst := stepTo b op
  generalize b.step op = b' at hst hrel' ho
  have closedStep : b'.flushedCb = b.flushedCb → pending b' = [] → w'.cur = w.flushed → w'.flushed = w.flushed →
      Primary conf T server b' w' ∧ ∃ fresh, b'.flushedCb = b.flushedCb ++ fresh ∧
        ∀ e, w'.flushed.Held e → w.flushed.Held e ∨ e ∈ fresh.flatten := by
    intro h1 h2 h3 h4
    refine ⟨⟨?_, ?_, ?_, ?_, ?_, ?_, ?_, ?_, ?_⟩, [], by simpa using h1, fun e he => .inl (h4 ▸ he)⟩
    · rw [told_eq, h1, h2, h3, List.append_nil]; exact h.logF
    · rw [h1, h4]; exact h.logF
    · rw [told_eq, h1, h2, h3, List.append_nil]; exact h.shownF
    · rw [h1, h4]; exact h.shownF
    · rw [told_eq, h1, h2, h3, List.append_nil]; exact h.takenF
    · rw [h1, h4]; exact h.takenF
    · rw [h3, h4]; exact fun _ _ h => .inl h
    · rw [h3, h4]; exact fun _ _ h => .inl h
    · rw [h3, h4]; exact ⟨[], by simp⟩
  cases hst with
  | closed h1 h2 =>
    have hcl := hrel.closed h1
    have hno : w.isOpen ≠ true := by rw [hcl.1]; simp
    cases hs with
    | closed => exact ⟨h, [], by simp, fun e he => .inl he⟩
    | register a => exact absurd a hno
    | touch a => exact absurd a hno
    | flush a => exact absurd a hno
    | flushFail a => exact absurd a hno
    | cleanup r a => exact absurd a hno
    | cleanupFail a => exact absurd a hno
    | reopen a => exact absurd rfl (h2 _)
    | reopenFail => exact absurd rfl (h2 _)
  | @register es m m' h1 h2 =>
    have hop := (hrel.opened m h1).1
    cases hs with
    | closed a => rw [hop] at a; cases a
    | register a =>
      have hp : pending { b with mem := some m' } = pending b ++ es := by
        simp [pending, h1, register_registered h2]
      have htold : told { b with mem := some m' } = told b ++ es := by
        rw [told_eq, told_eq, hp, List.append_assoc]
      rw [htold, ofServer_append] at ho
      have hserved : Served w.conf server [] w.cur (ofServer server (told b)) :=
        ⟨hrel.okC, fun x hx hxs => .inr (mem_ofServer.2 ⟨h.logC x hx, hxs⟩), fun e he hve =>
          (shows_congr hv).2 (h.shownC e he ((hv e).1 hve))⟩
      have hserved' := hserved.offers (parts := w.partitions) es ho.onward
      obtain ⟨n1, n2⟩ := offers_new (conf := w.conf) (parts := w.partitions) es w.cur
      have htaken := (taken_offers (conf := w.conf) (parts := w.partitions) (ht hop) es ho hrel.okC
        (fun x hx hxs => mem_ofServer.2 ⟨h.logC x hx, hxs⟩) h.takenC).2.2
      refine ⟨⟨?_, h.logF, ?_, h.shownF, ?_, h.takenF, ?_, ?_, ?_⟩, [], by simp, fun e he => .inl he⟩
      · intro x hx
        rw [htold]
        rcases (log_offers es w.cur).2 x hx with hx | hx
        · exact List.mem_append_left _ (h.logC x hx)
        · exact List.mem_append_right _ hx
      · intro x hx hvx
        rw [htold, ofServer_append] at hx
        exact (shows_congr hv).1 (hserved'.shown x hx ((hv x).2 hvx))
      · rw [htold, ofServer_append]; exact htaken
      · intro t e he
        rw [hp]
        rcases n1 t e he with h3 | h3
        · exact (h.slot t e h3).imp_right (List.mem_append_left _)
        · exact .inr (List.mem_append_right _ h3)
      · intro t e he
        rw [hp]
        rcases n2 t e he with h3 | h3
        · exact (h.entry t e h3).imp_right (List.mem_append_left _)
        · exact .inr (List.mem_append_right _ h3)
      · obtain ⟨l, l1, l2⟩ := h.fresh
        obtain ⟨l', l3, l4⟩ := offers_suffix (conf := w.conf) (parts := w.partitions) es w.cur
        refine ⟨l ++ l', by simp only [l3, l1, List.append_assoc], fun x hx => ?_⟩
        rw [hp]
        rcases List.mem_append.1 hx with hx | hx
        · exact List.mem_append_left _ (l2 x hx)
        · exact List.mem_append_right _ (l4 x hx)
  | @registerFail es m err h1 h2 =>
    have hop := (hrel.opened m h1).1
    have hcl := (hrel'.closed rfl).1
    cases hs with
    | closed a => rw [hop] at a; cases a
    | register a => rw [show _ = w.isOpen from rfl, hop] at hcl; cases hcl
  | @touch p m h1 =>
    have hop := (hrel.opened m h1).1
    have hp : ∀ c, pending { b with mem := some { m with timeseries := { m.timeseries with changes := c } } } = pending b := by
      simp [pending, h1]
    cases hs with
    | closed a => rw [hop] at a; cases a
    | touch a =>
      refine ⟨⟨?_, h.logF, ?_, h.shownF, ?_, h.takenF, ?_, ?_, ?_⟩, [], by simp, fun e he => .inl he⟩
      · rw [told_eq, hp]; exact h.logC
      · rw [told_eq, hp]; exact h.shownC
      · rw [told_eq, hp]; exact h.takenC
      · rw [hp]; exact h.slot
      · rw [hp]; exact h.entry
      · rw [hp]; exact h.fresh
  | @flush m d h1 h2 =>
    have hop := (hrel.opened m h1).1
    have hcl := (hrel'.opened _ rfl).1
    have hpb : pending b = m.registered.flatten := by simp [pending, h1]
    have hcb : (b.flushedCb ++ m.registered).flatten = told b := by
      rw [told_eq, hpb, List.flatten_append]
    have htold : told ⟨d, b.conf, some { m.createChanges.2 with registered := [] }, b.flushedCb ++ m.registered⟩ = told b := by
      rw [told_eq]
      simp only [hcb]
      simp [pending]
    cases hs with
    | closed a => rw [hop] at a; cases a
    | flush a =>
      refine ⟨⟨?_, ?_, ?_, ?_, ?_, ?_, fun _ _ h => .inl h, fun _ _ h => .inl h, [], by simp⟩,
        m.registered, rfl, ?_⟩
      · rw [htold]; exact h.logC
      · simp only [hcb]; exact h.logC
      · rw [htold]; exact h.shownC
      · simp only [hcb]; exact h.shownC
      · rw [htold]; exact h.takenC
      · simp only [hcb]; exact h.takenC
      · intro e he
        rw [← hpb]
        rcases he with he | ⟨k, he⟩
        · exact (h.slot _ e he).imp_left .inl
        · exact (h.entry k e he).imp_left fun hh => .inr ⟨k, hh⟩
    | flushFail a => cases hcl
  | @flushFail m err h1 h2 =>
    have hop := (hrel.opened m h1).1
    have hcl := (hrel'.closed rfl).1
    cases hs with
    | closed a => rw [hop] at a; cases a
    | flush a => rw [show _ = w.isOpen from rfl, hop] at hcl; cases hcl
    | flushFail a => exact closedStep rfl (by simp [pending]) rfl rfl
  | @cleanup fl se now m d r h1 h2 =>
    have hop := (hrel.opened m h1).1
    have hcl := (hrel'.opened m h1).1
    have hp : pending { b with disk := d } = pending b := rfl
    cases hs with
    | closed a => rw [hop] at a; cases a
    | cleanup removed a c =>
      have hdrop : ∀ (st : Store) k e, (st.drop removed).entry k = some e ↔ ¬ removed k ∧ st.entry k = some e := by
        intro st k e
        unfold Store.drop
        by_cases hk : removed k <;> simp [hk]
      refine ⟨⟨h.logC, h.logF, h.shownC, h.shownF, h.takenC, h.takenF, h.slot, ?_, h.fresh⟩, [], by simp, ?_⟩
      · intro k e he
        obtain ⟨r1, r2⟩ := (hdrop _ _ _).1 he
        exact (h.entry k e r2).imp_left fun hh => (hdrop _ _ _).2 ⟨r1, hh⟩
      · intro e he
        left
        rcases he with he | ⟨k, he⟩
        · exact .inl he
        · exact .inr ⟨k, ((hdrop _ _ _).1 he).2⟩
    | cleanupFail a => cases hcl
  | @cleanupFail fl se now m err h1 h2 =>
    have hop := (hrel.opened m h1).1
    have hcl := (hrel'.closed rfl).1
    cases hs with
    | closed a => rw [hop] at a; cases a
    | cleanup removed a c => rw [show _ = w.isOpen from rfl, hop] at hcl; cases hcl
    | cleanupFail a => exact closedStep rfl (by simp [pending]) rfl rfl
  | @reopen c d m h1 =>
    have hreg := createDbs_registered h1
    have hcl := (hrel'.opened m rfl).1
    cases hs with
    | closed a c => exact absurd rfl (c _)
    | reopen a => exact closedStep rfl (by simp [pending, hreg]) rfl rfl
    | reopenFail => cases hcl
  | @reopenFail c err h1 =>
    have hcl := (hrel'.closed rfl).1
    cases hs with
    | closed a c => exact absurd rfl (c _)
    | reopen a => cases hcl
    | reopenFail => exact closedStep rfl (by simp [pending]) rfl rfl

/-! ## The standby -/

/-- The event was stored, or was not because a later one of another server is shown. -/
def Got (conf : Conf) (st : Store) (e : Event) : Prop :=
  e ∈ st.log ∨ ∃ s, st.slot e.type = some s ∧ Visible conf s ∧ TimeLt e.timestamp s.timestamp

theorem Got.same {conf : Conf} {st st' : Store} {e : Event} (h : Got conf st e) (hl : st'.log = st.log)
    (hs : st'.slot = st.slot) : Got conf st' e := by
  unfold Got at h ⊢
  rw [hl, hs]; exact h

theorem Got.offer {conf conf' : Conf} {parts : Dict Int Partition} {st : Store} {e : Event} (hok : StoreOk st)
    (hv : ∀ e, Visible conf' e ↔ Visible conf e) (h : Got conf st e) (x : Event) :
    Got conf (st.offer conf' parts x) e := by
  rcases h with h | ⟨s, h1, h2, h3⟩
  · left
    rcases log_offer (conf := conf') (parts := parts) st x with hl | hl
    · rw [hl]; exact h
    · rw [hl]; exact List.mem_append_left _ h
  · right
    unfold Store.offer
    split
    swap
    · exact ⟨s, h1, h2, h3⟩
    next hc =>
    by_cases hl : e.type = x.type ∧ ToLatest conf' st x
    · have ht : TimeLe s.timestamp x.timestamp := by
        have := hl.2.2 s (by rw [← hl.1]; exact h1) ((hv s).2 h2)
        unfold Newer at this
        split at this
        · next hsrv => exact (admissible_new hok hc.1 (hok.slotType _ _ h1).2 hsrv).2
        · exact not_timeLt.1 this
      exact ⟨x, by simp only [if_pos hl], (hv x).1 ⟨hc.1.2.2, hl.2.1⟩, h3.trans_le ht⟩
    · exact ⟨s, by simp only [if_neg hl]; exact h1, h2, h3⟩

theorem Got.offers {conf conf' : Conf} {parts : Dict Int Partition} {e : Event}
    (hv : ∀ e, Visible conf' e ↔ Visible conf e) (es : List Event) {st : Store} (hok : StoreOk st)
    (h : Got conf st e) : Got conf (es.foldl (Store.offer conf' parts) st) e := by
  induction es generalizing st with
  | nil => exact h
  | cons x es ih => exact ih (storeOk_offer hok x) (h.offer hok hv x)

/-- What is to be kept of an event. -/
def Has (conf : Conf) (T : Terms) (st : Store) (e : Event) : Prop :=
  (Visible conf e → Got conf st e) ∧ (T.taken e → e ∈ st.log)

theorem Has.same {conf : Conf} {st st' : Store} {e : Event} (h : Has conf T st e) (hl : st'.log = st.log)
    (hs : st'.slot = st.slot) : Has conf T st' e :=
  ⟨fun hv => (h.1 hv).same hl hs, by rw [hl]; exact h.2⟩

theorem Has.offer {conf conf' : Conf} {parts : Dict Int Partition} {st : Store} {e : Event} (hok : StoreOk st)
    (hv : ∀ e, Visible conf' e ↔ Visible conf e) (h : Has conf T st e) (x : Event) :
    Has conf T (st.offer conf' parts x) e := by
  refine ⟨fun hve => (h.1 hve).offer hok hv x, fun ht => ?_⟩
  rcases log_offer (conf := conf') (parts := parts) st x with hl | hl
  · rw [hl]; exact h.2 ht
  · rw [hl]; exact List.mem_append_left _ (h.2 ht)

theorem Has.offers {conf conf' : Conf} {parts : Dict Int Partition} {e : Event}
    (hv : ∀ e, Visible conf' e ↔ Visible conf e) (es : List Event) {st : Store} (hok : StoreOk st)
    (h : Has conf T st e) : Has conf T (es.foldl (Store.offer conf' parts) st) e := by
  induction es generalizing st with
  | nil => exact h
  | cons x es ih => exact ih (storeOk_offer hok x) (h.offer hok hv x)

theorem has_log {conf : Conf} {st : Store} {e : Event} (h : e ∈ st.log) : Has conf T st e :=
  ⟨fun _ => .inl h, fun _ => h⟩

/-- What a store has of the calls `prev` since it had the last id `last`; `all` are the events of the server. -/
structure Received (conf : Conf) (T : Terms) (server : Int) (all : List Event) (last : EventId) (prev : List Event) (st : Store) :
    Prop where
  ok : StoreOk st
  known : ∀ x ∈ st.log, x.id.server = server → x ∈ all
  got : ∀ e ∈ accept last prev, Has conf T st e
  only : ∀ x ∈ st.log, x.id.server = server → IdLt last x.id → x ∈ prev

theorem mem_log_offer {conf : Conf} {parts : Dict Int Partition} {st : Store} {x y : Event}
    (hy : y ∈ (st.offer conf parts x).log) : y ∈ st.log ∨ y = x := by
  rcases log_offer (conf := conf) (parts := parts) st x with hl | hl
  · rw [hl] at hy; exact .inl hy
  · rw [hl] at hy; simpa using hy

theorem Received.offer {conf conf' : Conf} {parts : Dict Int Partition} {server : Int} {all : List Event}
    {last : EventId} {prev : List Event} {st : Store} (ha : Orderly server all)
    (h : Received conf T server all last prev st)
    (hv : ∀ e, Visible conf' e ↔ Visible conf e) (ht : ∀ e, T.taken e → TakenBy conf' parts e) (x : Event) (hx : x ∈ all) :
    Received conf T server all last (prev ++ [x]) (st.offer conf' parts x) := by
  refine ⟨storeOk_offer h.ok x, ?_, ?_, ?_⟩
  · intro y hy hs
    rcases mem_log_offer hy with hy | rfl
    · exact h.known y hy hs
    · exact hx
  · intro e he
    rw [accept_append] at he
    rcases List.mem_append.1 he with he | he
    · exact (h.got e he).offer h.ok hv x
    · simp only [accept] at he
      split at he
      swap
      · simp at he
      next hlt =>
      obtain rfl : e = x := by simpa using he
      have hsrv := ha.owner e hx
      have hle : ∀ y ∈ st.log, y.id.server = server → IdLt y.id e.id := by
        intro y hy hs
        by_cases hl : IdLt last y.id
        · exact (mem_le_lastAfter last prev (h.only y hy hs hl)).trans_lt hlt
        · exact ((not_idLt.1 hl).trans (le_lastAfter last prev)).trans_lt hlt
      have hadm : conf'.conditions e = true → Admissible conf' st e := by
        intro hcond
        unfold Admissible Store.lastId
        cases hl : st.last e.id.server with
        | none =>
          refine ⟨?_, (ha.pos e hx).2, hcond⟩
          simp only
          rw [hsrv]; exact (ha.pos e hx).1
        | some l =>
          obtain ⟨l1, l2⟩ := last_mem hl
          have l3 := l2.trans hsrv
          exact ⟨hle l l1 l3, ha.le (h.known l l1 l3) hx (hle l l1 l3), hcond⟩
      refine ⟨fun hve => ?_, fun hte => ?_⟩
      swap
      · unfold Store.offer
        rw [if_pos ⟨hadm (ht e hte).1, .inr (ht e hte).2⟩]
        simp
      have hvis := (hv e).2 hve
      by_cases hto : ToLatest conf' st e
      · left
        unfold Store.offer
        rw [if_pos ⟨hadm hvis.1, .inl hto⟩]
        simp
      · right
        have : ∃ p, st.slot e.type = some p ∧ Visible conf' p ∧ Newer p e := by
          by_contra hno
          exact hto ⟨hvis.2, fun p hp hvp hnp => hno ⟨p, hp, hvp, hnp⟩⟩
        obtain ⟨p, p1, p2, p3⟩ := this
        have hn : ¬ p.id.server = e.id.server := by
          intro hs
          unfold Newer at p3
          rw [if_pos hs] at p3
          exact (hle p (h.ok.slotType _ _ p1).2 (hs.trans hsrv)).asymm p3
        unfold Newer at p3
        rw [if_neg hn] at p3
        refine ⟨p, ?_, (hv p).1 p2, p3⟩
        unfold Store.offer
        split
        · simp only [if_neg (fun hh : e.type = e.type ∧ ToLatest conf' st e => hto hh.2)]; exact p1
        · exact p1
  · intro y hy hs hl
    rcases mem_log_offer hy with hy | rfl
    · exact List.mem_append_left _ (h.only y hy hs hl)
    · simp

theorem Received.offers {conf conf' : Conf} {parts : Dict Int Partition} {server : Int} {all : List Event}
    {last : EventId} (ha : Orderly server all) (hv : ∀ e, Visible conf' e ↔ Visible conf e)
    (ht : ∀ e, T.taken e → TakenBy conf' parts e) (es : List Event) (hx : ∀ x ∈ es, x ∈ all) {prev : List Event} {st : Store} (h : Received conf T server all last prev st) :
    Received conf T server all last (prev ++ es) (es.foldl (Store.offer conf' parts) st) := by
  induction es generalizing prev st with
  | nil => simpa using h
  | cons x es ih =>
    have := ih (fun y hy => hx y (List.mem_cons_of_mem _ hy)) (h.offer (parts := parts) ha hv ht x (hx x List.mem_cons_self))
    simpa using this

/-- Events of other servers. -/
theorem Received.others {conf conf' : Conf} {parts : Dict Int Partition} {server : Int} {all : List Event}
    {last : EventId} (hv : ∀ e, Visible conf' e ↔ Visible conf e) (es : List Event)
    (hx : ∀ x ∈ es, x.id.server ≠ server) {prev : List Event} {st : Store}
    (h : Received conf T server all last prev st) :
    Received conf T server all last prev (es.foldl (Store.offer conf' parts) st) := by
  induction es generalizing st with
  | nil => exact h
  | cons x es ih =>
    have hxs := hx x List.mem_cons_self
    refine ih (fun y hy => hx y (List.mem_cons_of_mem _ hy)) ⟨storeOk_offer h.ok x, ?_, ?_, ?_⟩
    · intro y hy hs
      rcases mem_log_offer hy with hy | rfl
      · exact h.known y hy hs
      · exact absurd hs hxs
    · exact fun e he => (h.got e he).offer h.ok hv x
    · intro y hy hs hl
      rcases mem_log_offer hy with hy | rfl
      · exact h.only y hy hs hl
      · exact absurd hs hxs

/-- The log and the latest events have not changed. -/
theorem Received.same {conf : Conf} {server : Int} {all : List Event} {last : EventId} {prev : List Event}
    {st st' : Store} (h : Received conf T server all last prev st) (hs : StoreOk st') (hl : st'.log = st.log)
    (hsl : st'.slot = st.slot) : Received conf T server all last prev st' :=
  ⟨hs, by rw [hl]; exact h.known, fun e he => (h.got e he).same hl hsl, by rw [hl]; exact h.only⟩

end HatEvent
