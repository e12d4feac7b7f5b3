import Verif.Spec.Station
import Verif.Proof.EngineTimes
import Verif.Proof.ReadSeries
import Verif.Props.Engine

/-!
# What the backend of an event server shows
-/

namespace HatEvent
open Spec

/-- The event or one that is not older is kept as the latest of its type. -/
def ShowsAt (conf : Conf) (st : Store) (e : Event) : Prop :=
  ∃ s, st.slot e.type = some s ∧ Visible conf s ∧ TimeLe e.timestamp s.timestamp

theorem Shows.at {conf : Conf} {st : Store} {e : Event} (h : Shows conf st e) : ShowsAt conf st e := by
  obtain ⟨s, h1, h2, _, h4⟩ := h
  exact ⟨s, h1, h2, h4⟩

theorem showsAt_offer {conf : Conf} {parts : Dict Int Partition} {st : Store} (hs : StoreOk st) {e : Event}
    (h : ShowsAt conf st e) (x : Event) : ShowsAt conf (st.offer conf parts x) e := by
  unfold Store.offer
  split
  swap
  · exact h
  next hc =>
  obtain ⟨s, h1, h2, h4⟩ := h
  by_cases hl : e.type = x.type ∧ ToLatest conf st x
  · have ht : TimeLe s.timestamp x.timestamp := by
      have := hl.2.2 s (by rw [← hl.1]; exact h1) h2
      unfold Newer at this
      split at this
      · next hsrv => exact (admissible_new hs hc.1 (hs.slotType _ _ h1).2 hsrv).2
      · exact not_timeLt.1 this
    exact ⟨x, by simp only [if_pos hl], ⟨hc.1.2.2, hl.2.1⟩, h4.trans ht⟩
  · exact ⟨s, by simp only [if_neg hl]; exact h1, h2, h4⟩

theorem showsAt_offers {conf : Conf} {parts : Dict Int Partition} (es : List Event) {st : Store} (hs : StoreOk st) {e : Event}
    (h : ShowsAt conf st e) : ShowsAt conf (es.foldl (Store.offer conf parts) st) e := by
  induction es generalizing st with
  | nil => exact h
  | cons x es ih => exact ih (storeOk_offer hs x) (showsAt_offer hs h x)

theorem entry_offer {conf : Conf} {parts : Dict Int Partition} {st : Store} (hs : StoreOk st) {e : Event} {k : TimeseriesKey}
    (h : st.entry k = some e) (x : Event) : (st.offer conf parts x).entry k = some e := by
  unfold Store.offer
  split
  swap
  · exact h
  next hc =>
  dsimp only
  rw [if_neg]
  · exact h
  · intro hx
    obtain ⟨h1, h2, _⟩ := hs.entryId k e h
    exact admissible_fresh hs hc.1 h2 (h1.symm.trans hx.1)

theorem entry_offers {conf : Conf} {parts : Dict Int Partition} (es : List Event) {st : Store} (hs : StoreOk st) {e : Event} {k : TimeseriesKey}
    (h : st.entry k = some e) : (es.foldl (Store.offer conf parts) st).entry k = some e := by
  induction es generalizing st with
  | nil => exact h
  | cons x es ih => exact ih (storeOk_offer hs x) (entry_offer hs h x)

/-- An event is kept wherever it is to be kept: as the latest of its type, or one that is not older; and in partitions without limit. -/
structure KeepsAt (w : World) (x : Event) : Prop where
  latest : Visible w.conf x → ShowsAt w.conf w.cur x
  series : w.conf.conditions x = true → ∀ k, KeptSeries w.partitions x k → w.cur.entry k = some x

theorem entry_drop {parts : Dict Int Partition} {st : Store} {x : Event} {k : TimeseriesKey} (hk : KeptSeries parts x k) (h : st.entry k = some x)
    {r : TimeseriesKey → Prop} (hr : ∀ k, r k → ∃ part limit, Dict.get parts k.partition = some part ∧ part.limit = some limit) :
    (st.drop r).entry k = some x := by
  unfold Store.drop
  dsimp only
  rw [if_neg]
  · exact h
  · intro hrk
    obtain ⟨part, limit, h1, h2⟩ := hr k hrk
    rw [hk.2 part h1] at h2
    cases h2

/-- One action that does not open the backend, which is open afterwards. -/
theorem keeps_step {conf : Conf} {ops : List BackendOp} {w w' : World} (h : Reached conf ops w) {op : BackendOp} (hst : Step w op w')
    (hno : ∀ c, op ≠ .reopen c) (hw : w'.isOpen = true) :
    w'.conf = w.conf ∧ w'.partitions = w.partitions ∧ ∀ x, KeepsAt w x → KeepsAt w' x := by
  cases hst with
  | closed a b => rw [hw] at a; cases a
  | @register es a =>
    exact ⟨rfl, rfl, fun x hx => ⟨fun hv => showsAt_offers es h.rel.okC (hx.latest hv), fun hv k hk => entry_offers es h.rel.okC (hx.series hv k hk)⟩⟩
  | touch a => exact ⟨rfl, rfl, fun _ h => h⟩
  | flush a => exact ⟨rfl, rfl, fun x hx => ⟨hx.latest, hx.series⟩⟩
  | flushFail a => cases hw
  | cleanup r a b =>
    exact ⟨rfl, rfl, fun x hx => ⟨fun hv => hx.latest hv, fun hv k hk => entry_drop hk (hx.series hv k hk) fun k hk => (b k hk).2⟩⟩
  | cleanupFail a => cases hw
  | reopen a => exact absurd rfl (hno _)
  | reopenFail => exact absurd rfl (hno _)

/-- One action on a backend that is open afterwards. -/
theorem offered_step {conf : Conf} {ops : List BackendOp} (hl : LookupLaws ops) (server : Int) {w : World}
    (h : Reached conf ops w) (op : BackendOp) (hno : ∀ c, op ≠ .reopen c)
    (ho : Onward server w.cur.log (offeredBy server [op]))
    (hopen : ((Backend.new conf).run (ops ++ [op])).mem ≠ none) :
    ∃ w', Reached conf (ops ++ [op]) w' ∧
      (∀ x ∈ w'.cur.log, x.id.server = server → x ∈ w.cur.log ∨ x ∈ offeredBy server [op]) ∧
      (∀ x ∈ offeredBy server [op], KeepsAt w' x) ∧ ∀ x, KeepsAt w x → KeepsAt w' x := by
  obtain ⟨w', h4, h5⟩ := reached_step h op hl
  have hw : w'.isOpen = true := by
    rw [h5.rel.isOpen, Option.isSome_iff_ne_none]; exact hopen
  obtain ⟨-, -, hk⟩ := keeps_step h h4 hno hw
  refine ⟨w', h5, ?_, ?_, hk⟩
  · cases h4 with
    | closed a b => rw [hw] at a; cases a
    | @register es a =>
      have hes : offeredBy server [.register es] = es.filter fun e => e.id.server = server := by simp [offeredBy]
      rw [hes] at ho ⊢
      have h0 : Served w.conf server w.cur.log w.cur [] := ⟨h.rel.okC, fun x hx _ => .inl hx, by simp⟩
      simpa using (h0.offers (parts := w.partitions) es (by simpa using ho)).log
    | touch a => exact fun x hx _ => .inl hx
    | flush a => exact fun x hx _ => .inl hx
    | flushFail a => cases hw
    | cleanup r a b => exact fun x hx _ => .inl hx
    | cleanupFail a => cases hw
    | reopen a => exact absurd rfl (hno _)
    | reopenFail => exact absurd rfl (hno _)
  · cases h4 with
    | closed a b => rw [hw] at a; cases a
    | @register es a =>
      have hes : offeredBy server [.register es] = es.filter fun e => e.id.server = server := by simp [offeredBy]
      rw [hes] at ho ⊢
      have h0 : Served w.conf server w.cur.log w.cur [] := ⟨h.rel.okC, fun x hx _ => .inl hx, by simp⟩
      have h0' : Series w.conf w.partitions server w.cur.log w.cur [] := ⟨h.rel.okC, fun x hx _ => .inl hx, by simp⟩
      have h1 := h0.offers (parts := w.partitions) es (by simpa using ho)
      have h2 := h0'.offers es (by simpa using ho)
      rw [List.nil_append] at h1 h2
      exact fun x hx => ⟨fun hv => (h1.shown x hx hv).at, fun hv k hk => h2.kept x hx hv k hk⟩
    | touch a => simp [offeredBy]
    | flush a => simp [offeredBy]
    | flushFail a => cases hw
    | cleanup r a b => simp [offeredBy]
    | cleanupFail a => cases hw
    | reopen a => exact absurd rfl (hno _)
    | reopenFail => exact absurd rfl (hno _)

/-- A closed engine passes nothing to the backend any more. -/
theorem closed_engine (s : Engine) (a : EngineAct) (h : s.phase = .closed) :
    (s.step a).phase = .closed ∧ (s.step a).sent = s.sent := by
  cases a with
  | spawn => simp only [Engine.step, h]; exact ⟨trivial, trivial⟩
  | register source events =>
    simp only [Engine.step, Engine.register]
    split
    · exact ⟨(resolve_core _ _ _).2.2.2.1.trans h, (resolve_core _ _ _).1.sent⟩
    · exact ⟨(put_core _ _).2.1.trans h, (put_core _ _).1.sent⟩
  | wake i =>
    simp only [Engine.step, Engine.wake]
    split
    · exact ⟨h, rfl⟩
    · exact ⟨(put_core _ _).2.1.trans h, (put_core _ _).1.sent⟩
  | cancel i =>
    simp only [Engine.step, Engine.cancel]
    split
    · exact ⟨(resolve_core _ _ _).2.2.2.1.trans h, (resolve_core _ _ _).1.sent⟩
    · exact ⟨h, rfl⟩
  | take now => simp only [Engine.step, Engine.take, h]; exact ⟨trivial, trivial⟩
  | told => simp only [Engine.step, Engine.told, h]; exact ⟨trivial, trivial⟩
  | processed outs => simp only [Engine.step, Engine.processedAct, h]; exact ⟨trivial, trivial⟩
  | next => simp only [Engine.step, Engine.next, h]; exact ⟨trivial, trivial⟩
  | registered reply now => simp only [Engine.step, Engine.registered, h]; exact ⟨trivial, trivial⟩
  | raise outs now => simp only [Engine.step, Engine.raise, h]; exact ⟨trivial, trivial⟩
  | close now => simp only [Engine.step, Engine.close, h]; exact ⟨trivial, trivial⟩
  | finished => simp only [Engine.step, h]; exact ⟨trivial, trivial⟩

/-- What an engine has recorded of calls of `register` stays. -/
structure EngineGrows (s s' : Engine) : Prop where
  requests : s.requests <+: s'.requests
  outcomes : s.outcomes <+: s'.outcomes

theorem EngineGrows.refl (s : Engine) : EngineGrows s s := ⟨List.prefix_rfl, List.prefix_rfl⟩

theorem EngineGrows.trans {a b c : Engine} (h : EngineGrows a b) (h' : EngineGrows b c) : EngineGrows a c :=
  ⟨h.requests.trans h'.requests, h.outcomes.trans h'.outcomes⟩

theorem EngineGrows.of_eq {s s' : Engine} (h1 : s'.requests = s.requests) (h2 : s'.outcomes = s.outcomes) : EngineGrows s s' :=
  ⟨by rw [h1]; exact List.prefix_rfl, by rw [h2]; exact List.prefix_rfl⟩

theorem records_resolve (s : Engine) (f : Option Nat) (o : EngineOutcome) : EngineGrows s (s.resolve f o) := by
  rcases resolve_cases s f o with ⟨h, _⟩ | ⟨i, _, _, h⟩
  · rw [h]; exact .refl s
  · rw [h]; exact ⟨List.prefix_rfl, List.prefix_append _ _⟩

theorem records_put (s : Engine) (r : EngineRequest) : EngineGrows s (s.put r) := by
  unfold Engine.put
  split
  · exact records_resolve _ _ _
  · split <;> exact .of_eq rfl rfl

theorem records_finalize (s : Engine) (now : Timestamp) : EngineGrows s (s.finalize now) := by
  have hfold : ∀ (l : List EngineRequest) (t : Engine), EngineGrows t (l.foldl (fun s r => s.resolve r.future .closed) t) := by
    intro l
    induction l with
    | nil => exact fun t => .refl t
    | cons r l ih => exact fun t => (records_resolve t _ _).trans (ih _)
  unfold Engine.finalize
  exact (hfold (s.phase.current.toList ++ s.queue) s).trans (.of_eq rfl rfl)

theorem records_step (s : Engine) (a : EngineAct) : EngineGrows s (s.step a) := by
  cases a with
  | spawn => simp only [Engine.step]; split <;> exact .of_eq rfl rfl
  | register source events =>
    simp only [Engine.step, Engine.register]
    have h0 : EngineGrows s { s with requests := s.requests ++ [(source, events)] } := ⟨List.prefix_append _ _, List.prefix_rfl⟩
    split
    · exact h0.trans (records_resolve _ _ _)
    · exact h0.trans (records_put _ _)
  | wake i =>
    simp only [Engine.step, Engine.wake]
    split
    · exact .refl s
    · exact EngineGrows.trans (b := { s with putters := s.putters.eraseIdx i }) (.of_eq rfl rfl) (records_put _ _)
  | cancel i =>
    simp only [Engine.step, Engine.cancel]
    split
    · exact (records_resolve s _ _).trans (.of_eq rfl rfl)
    · exact .refl s
  | take now => simp only [Engine.step, Engine.take]; split <;> exact .of_eq rfl rfl
  | told => simp only [Engine.step, Engine.told]; split <;> exact .of_eq rfl rfl
  | processed outs =>
    simp only [Engine.step, Engine.processedAct]
    split
    · exact .of_eq (by simp only [Engine.processed, createEvents_eq]) (by simp only [Engine.processed, createEvents_eq])
    · exact .refl s
  | next =>
    simp only [Engine.step, Engine.next]
    split
    · exact .of_eq (by simp only [createEvents_eq]) (by simp only [createEvents_eq])
    all_goals exact .of_eq rfl rfl
  | registered reply now =>
    simp only [Engine.step, Engine.registered]
    split
    · split
      · exact records_finalize s now
      · exact (records_resolve s _ _).trans (.of_eq rfl rfl)
      · exact (records_resolve s _ _).trans (.of_eq rfl rfl)
    · exact .of_eq rfl rfl
    · exact .refl s
  | raise outs now =>
    simp only [Engine.step, Engine.raise]
    split
    · exact records_finalize s now
    · exact EngineGrows.trans (.of_eq (by simp only [Engine.processed, createEvents_eq]) (by simp only [Engine.processed, createEvents_eq]))
        (records_finalize _ now)
    · exact records_finalize s now
    · exact .refl s
  | close now =>
    simp only [Engine.step, Engine.close]
    split
    · exact .of_eq rfl rfl
    · exact .of_eq rfl rfl
    · exact .refl s
    · exact records_finalize s now
  | finished => simp only [Engine.step]; split <;> exact .of_eq rfl rfl

/-- A call of `register` with events is recorded with its number. -/
theorem register_requests (s : Engine) (source : Source) (events : List RegisterEvent) :
    (s.step (.register source events)).requests = s.requests ++ [(source, events)] := by
  simp only [Engine.step, Engine.register]
  split
  · exact (resolve_core _ _ _).2.2.2.2.2
  · unfold Engine.put
    split
    · exact (resolve_core _ _ _).2.2.2.2.2
    · split <;> rfl

/-! ### The database of a server -/

/-- The engine was created after the event id `last` of the database. -/
def EngineFrom (cf : StationConf) (engine : Engine) (last : EventId) : Prop :=
  ∃ modules acts, engine = (Engine.create ⟨cf.serverId, modules, 1024⟩ last).run acts ∧ last.server = cf.serverId ∧
    IdLe ⟨cf.serverId, 0, 0⟩ last

theorem EngineFrom.step {cf : StationConf} {engine : Engine} {last : EventId} (h : EngineFrom cf engine last) (a : EngineAct) :
    EngineFrom cf (engine.step a) last := by
  obtain ⟨modules, acts, rfl, h2⟩ := h
  exact ⟨modules, acts ++ [a], (engine_snoc _ _ _).symm, h2⟩

/-- The last id of a server in a database. -/
theorem last_from {conf : Conf} {ops : List BackendOp} {w : World} (h : Reached conf ops w) {server : Int} {last : EventId}
    (hlast : ((Backend.new conf).run ops).getLastEventId server = .ok last) :
    last.server = server ∧ IdLe ⟨server, 0, 0⟩ last ∧ ∀ x ∈ w.cur.log, x.id.server = server → IdLe x.id last := by
  have hlastId : w.cur.lastId server = last := by
    unfold Backend.getLastEventId at hlast
    cases hm : ((Backend.new conf).run ops).mem with
    | none => rw [hm] at hlast; simp at hlast
    | some m =>
      rw [hm] at hlast
      rw [← getLastEventId_eq (h.rel.opened m hm).2.sys]
      simpa using hlast
  subst hlastId
  unfold Store.lastId
  refine ⟨?_, ?_, fun x hx hs => ?_⟩
  · cases hl : w.cur.last server with
    | none => rfl
    | some l => exact (last_mem hl).2
  · cases hl : w.cur.last server with
    | none => exact .inr rfl
    | some l =>
      obtain ⟨h1, h2⟩ := last_mem hl
      have := h.rel.okC.pos l h1
      rw [h2] at this
      exact .inl this
  · obtain ⟨l, h1, h2, h3⟩ := le_last h.rel.okC hx
    rw [← hs, h1]
    exact h2

/-- What is known of the engines and the database of a process that began with `pre`. -/
structure DataOk (cf : StationConf) (pre : List BackendOp) (engines : List Engine) (past : List BackendOp) : Prop where
  begun : pre <+: past
  laws : LookupLaws past
  made : ∀ (e : Nat) (engine : Engine), engines[e]? = some engine → ∃ last, EngineFrom cf engine last
  over : ∀ (e : Nat) (engine : Engine), engines[e]? = some engine → e + 1 < engines.length → engine.phase = .closed
  passed : ∀ engine ∈ engines, ∀ x ∈ engine.sent.flatten, x ∈ offeredBy cf.serverId (past.drop pre.length)
  shown : ((Backend.new cf.db).run past).mem ≠ none → ∃ w, Reached cf.db past w ∧
    (∀ x ∈ offeredBy cf.serverId (past.drop pre.length), KeepsAt w x) ∧
    ∀ engine, engines.getLast? = some engine → ∃ last, EngineFrom cf engine last ∧
      ∀ x ∈ w.cur.log, x.id.server = cf.serverId → IdLe x.id last ∨ x ∈ engine.sent.flatten

theorem drop_more {pre past more : List BackendOp} (h : pre <+: past) : (past ++ more).drop pre.length = past.drop pre.length ++ more :=
  List.drop_append_of_le_length h.length_le

theorem offeredBy_append (server : Int) (a b : List BackendOp) : offeredBy server (a ++ b) = offeredBy server a ++ offeredBy server b := by
  unfold offeredBy; rw [List.flatMap_append]

theorem ClockForward.prefix {server : Int} {pre past more : List BackendOp} (hb : pre <+: past) (h : ClockForward server pre (past ++ more)) :
    ClockForward server pre past := by
  constructor
  · have := h.sorted
    rw [offeredBy_append, List.pairwise_append, drop_more hb, offeredBy_append] at this
    exact this.1.imp fun hab hm => hab (List.mem_append_left _ hm)
  · intro e he
    refine h.valid e ?_
    rw [drop_more hb, offeredBy_append]
    exact List.mem_append_left _ he

theorem dataOk_init (cf : StationConf) (pre : List BackendOp) (hl : LookupLaws pre) : DataOk cf pre [] pre := by
  refine ⟨List.prefix_rfl, hl, by simp, by simp, by simp, fun _ => ?_⟩
  obtain ⟨w, hw⟩ := reached cf.db pre hl
  exact ⟨w, hw, by simp [offeredBy], by simp⟩

/-- The backend was open before, if it is open after actions that do not open it. -/
theorem open_before {conf : Conf} {ops : List BackendOp} {op : BackendOp} (hno : ∀ c, op ≠ .reopen c)
    (h : ((Backend.new conf).run (ops ++ [op])).mem ≠ none) : ((Backend.new conf).run ops).mem ≠ none := by
  intro hnone
  apply h
  rw [run_snoc]
  generalize (Backend.new conf).run ops = b at hnone
  cases op <;> simp_all [Backend.step]

/-- Something happens to the backend that is nothing of the engine. -/
theorem DataOk.kept {cf : StationConf} {pre : List BackendOp} {engines : List Engine} {past : List BackendOp}
    (h : DataOk cf pre engines past) (op : BackendOp) (hno : ∀ c, op ≠ .reopen c) (ho : offeredBy cf.serverId [op] = []) :
    DataOk cf pre engines (past ++ [op]) := by
  have hd : offeredBy cf.serverId ((past ++ [op]).drop pre.length) = offeredBy cf.serverId (past.drop pre.length) := by
    rw [drop_more h.begun, offeredBy_append, ho, List.append_nil]
  refine ⟨h.begun.trans (List.prefix_append _ _), ?_, h.made, h.over, by rw [hd]; exact h.passed, fun hopen => ?_⟩
  · intro c hc
    rcases List.mem_append.1 hc with hc | hc
    · exact h.laws c hc
    · exact absurd (List.mem_singleton.1 hc).symm (hno c)
  obtain ⟨w, h1, h2, h3⟩ := h.shown (open_before hno hopen)
  obtain ⟨w', g1, g3, _, g4⟩ := offered_step h.laws cf.serverId h1 op hno (by rw [ho]; exact ⟨.nil, by simp, by simp, by simp⟩) hopen
  refine ⟨w', g1, ?_, fun engine he => ?_⟩
  · rw [hd]
    exact fun x hx => g4 x (h2 x hx)
  · obtain ⟨last, h4, h5⟩ := h3 engine he
    refine ⟨last, h4, fun x hx hs => ?_⟩
    rcases g3 x hx hs with hx | hx
    · exact h5 x hx hs
    · rw [ho] at hx; cases hx

/-- A new engine. -/
theorem DataOk.started {cf : StationConf} {pre : List BackendOp} {engines : List Engine} {past : List BackendOp}
    (h : DataOk cf pre engines past) (hc : ∀ engine, engines.getLast? = some engine → engine.phase = .closed) {last : EventId}
    (hlast : ((Backend.new cf.db).run past).getLastEventId cf.serverId = .ok last) (modules : List Sub) :
    DataOk cf pre (engines ++ [.create ⟨cf.serverId, modules, 1024⟩ last]) past := by
  have hopen : ((Backend.new cf.db).run past).mem ≠ none := by
    intro hn
    unfold Backend.getLastEventId at hlast
    rw [hn] at hlast
    simp at hlast
  obtain ⟨w, h1, h2, h3⟩ := h.shown hopen
  obtain ⟨l1, l2, l3⟩ := last_from h1 hlast
  have hnew : EngineFrom cf (.create ⟨cf.serverId, modules, 1024⟩ last) last := ⟨modules, [], rfl, l1, l2⟩
  have hget : ∀ {e : Nat} {engine : Engine}, (engines ++ [Engine.create ⟨cf.serverId, modules, 1024⟩ last])[e]? = some engine →
      engines[e]? = some engine ∨ (e = engines.length ∧ engine = .create ⟨cf.serverId, modules, 1024⟩ last) := by
    intro e engine he
    rw [List.getElem?_append] at he
    split at he
    · exact .inl he
    · obtain ⟨h0, h0'⟩ := List.getElem?_eq_some_iff.1 he
      have he0 : e = engines.length := by simp at h0; omega
      subst he0
      simp at he
      exact .inr ⟨rfl, he.symm⟩
  refine ⟨h.begun, h.laws, fun e engine he => ?_, fun e engine he hlt => ?_, fun engine he x hx => ?_, fun _ => ⟨w, h1, h2, fun engine he => ?_⟩⟩
  · rcases hget he with he | ⟨_, rfl⟩
    · exact h.made e engine he
    · exact ⟨last, hnew⟩
  · rcases hget he with he | ⟨rfl, _⟩
    · by_cases hl : e + 1 < engines.length
      · exact h.over e engine he hl
      · refine hc engine ?_
        have := (List.getElem?_eq_some_iff.1 he).1
        rw [List.getLast?_eq_getElem?, ← he]
        congr 1
        omega
    · simp at hlt
  · rcases List.mem_append.1 he with he | he
    · exact h.passed engine he x hx
    · rw [List.mem_singleton.1 he] at hx
      simp [Engine.create] at hx
  · rw [List.getLast?_append] at he
    simp at he
    subst he
    exact ⟨last, hnew, fun x hx hs => .inl (l3 x hx hs)⟩

theorem mem_set_engine {l : List Engine} {e : Nat} {x y : Engine} (h : y ∈ l.set e x) : y ∈ l ∨ y = x := List.mem_or_eq_of_mem_set h

/-- An action of an engine. -/
theorem DataOk.acted {cf : StationConf} {pre : List BackendOp} {engines : List Engine} {past : List BackendOp}
    (h : DataOk cf pre engines past) {e : Nat} {engine : Engine} (he : engines[e]? = some engine) (a : EngineAct)
    (hf : ClockForward cf.serverId pre (past ++ ((engine.step a).sent.drop engine.sent.length).map .register)) :
    DataOk cf pre (engines.set e (engine.step a)) (past ++ ((engine.step a).sent.drop engine.sent.length).map .register) := by
  have hlen : e < engines.length := (List.getElem?_eq_some_iff.1 he).1
  have hget : ∀ {i : Nat} {x : Engine}, (engines.set e (engine.step a))[i]? = some x →
      (i ≠ e ∧ engines[i]? = some x) ∨ (i = e ∧ x = engine.step a) := by
    intro i x hx
    by_cases hie : i = e
    · subst hie
      rw [List.getElem?_set_self hlen] at hx
      exact .inr ⟨rfl, (Option.some.inj hx).symm⟩
    · rw [List.getElem?_set_ne (fun h => hie h.symm)] at hx
      exact .inl ⟨hie, hx⟩
  have hmade : ∀ (i : Nat) (x : Engine), (engines.set e (engine.step a))[i]? = some x → ∃ last, EngineFrom cf x last := by
    intro i x hx
    rcases hget hx with ⟨_, hx⟩ | ⟨_, rfl⟩
    · exact h.made i x hx
    · obtain ⟨last, hl⟩ := h.made e engine he
      exact ⟨last, hl.step a⟩
  have hover : ∀ (i : Nat) (x : Engine), (engines.set e (engine.step a))[i]? = some x →
      i + 1 < (engines.set e (engine.step a)).length → x.phase = .closed := by
    intro i x hx hi
    rw [List.length_set] at hi
    rcases hget hx with ⟨_, hx⟩ | ⟨rfl, rfl⟩
    · exact h.over i x hx hi
    · exact (closed_engine engine a (h.over i engine he hi)).1
  have hlast : ∀ x, (engines.set e (engine.step a)).getLast? = some x →
      (engines.getLast? = some x ∧ e + 1 ≠ engines.length) ∨ (e + 1 = engines.length ∧ engines.getLast? = some engine ∧ x = engine.step a) := by
    intro x hx
    rw [List.getLast?_eq_getElem?, List.length_set] at hx
    rcases hget hx with ⟨h1, h2⟩ | ⟨h1, h2⟩
    · exact .inl ⟨by rw [List.getLast?_eq_getElem?]; exact h2, by omega⟩
    · exact .inr ⟨by omega, by rw [List.getLast?_eq_getElem?, h1]; exact he, h2⟩
  rcases sent_step engine a with hs | ⟨es, hs⟩
  · have hd : (engine.step a).sent.drop engine.sent.length = [] := by rw [hs]; simp
    rw [hd, List.map_nil, List.append_nil]
    refine ⟨h.begun, h.laws, hmade, hover, fun x hx => ?_, fun hopen => ?_⟩
    · rcases mem_set_engine hx with hx | rfl
      · exact h.passed x hx
      · rw [hs]; exact h.passed engine (List.mem_of_getElem? he)
    · obtain ⟨w, h1, h2, h3⟩ := h.shown hopen
      refine ⟨w, h1, h2, fun x hx => ?_⟩
      rcases hlast x hx with ⟨hx, _⟩ | ⟨_, hx', rfl⟩
      · exact h3 x hx
      · obtain ⟨last, h4, h5⟩ := h3 engine hx'
        exact ⟨last, h4.step a, by rw [hs]; exact h5⟩
  · have hd : (engine.step a).sent.drop engine.sent.length = [es] := by rw [hs]; simp
    rw [hd] at hf ⊢
    simp only [List.map_cons, List.map_nil] at hf ⊢
    -- the engine is the last one
    have hcur : e + 1 = engines.length := by
      by_contra hne
      have := (closed_engine engine a (h.over e engine he (by omega))).2
      rw [hs] at this
      simp at this
    have hl : engines.getLast? = some engine := by
      rw [List.getLast?_eq_getElem?, ← he]; congr 1; omega
    have hnew : ∀ x ∈ es, x.id.server = cf.serverId := by
      obtain ⟨last, modules, acts, h1, h2, h3⟩ := h.made e engine he
      have hrun : engine.step a = (Engine.create ⟨cf.serverId, modules, 1024⟩ last).run (acts ++ [a]) := by rw [engine_snoc, ← h1]
      have hids := ids_run ⟨cf.serverId, modules, 1024⟩ last (acts ++ [a])
      have hlist := listed_run ⟨cf.serverId, modules, 1024⟩ last (acts ++ [a])
      rw [← hrun] at hids hlist
      intro x hx
      refine (hids.servers x (hlist.subset (List.mem_append_left _ ?_))).trans h2
      rw [hs, List.flatten_append]
      exact List.mem_append_right _ (by simpa using hx)
    have hes : offeredBy cf.serverId [.register es] = es := by
      simp only [offeredBy, List.flatMap_cons, List.flatMap_nil, List.append_nil]
      exact List.filter_eq_self.2 fun x hx => by simpa using hnew x hx
    have hoff : offeredBy cf.serverId ((past ++ [BackendOp.register es]).drop pre.length) = offeredBy cf.serverId (past.drop pre.length) ++ es := by
      rw [drop_more h.begun, offeredBy_append, hes]
    have hno : ∀ c, BackendOp.register es ≠ .reopen c := fun _ => BackendOp.noConfusion
    refine ⟨h.begun.trans (List.prefix_append _ _), ?_, hmade, hover, fun x hx y hy => ?_, fun hopen => ?_⟩
    · intro c hc
      rcases List.mem_append.1 hc with hc | hc
      · exact h.laws c hc
      · exact absurd (List.mem_singleton.1 hc).symm (hno c)
    · rw [hoff]
      rcases mem_set_engine hx with hx | rfl
      · exact List.mem_append_left _ (h.passed x hx y hy)
      · rw [hs, List.flatten_append] at hy
        rcases List.mem_append.1 hy with hy | hy
        · exact List.mem_append_left _ (h.passed engine (List.mem_of_getElem? he) y hy)
        · exact List.mem_append_right _ (by simpa using hy)
    · obtain ⟨w, h1, h2, h3⟩ := h.shown (open_before hno hopen)
      obtain ⟨last, hfrom, hlog⟩ := h3 engine hl
      obtain ⟨modules, acts, e1, e2, e3⟩ := id hfrom
      have hrun : engine.step a = (Engine.create ⟨cf.serverId, modules, 1024⟩ last).run (acts ++ [a]) := by rw [engine_snoc, ← e1]
      have hids := ids_run ⟨cf.serverId, modules, 1024⟩ last (acts ++ [a])
      have hlist := listed_run ⟨cf.serverId, modules, 1024⟩ last (acts ++ [a])
      rw [← hrun] at hids hlist
      have hsub : (engine.sent.flatten ++ es).Sublist (engine.step a).created := by
        have := (List.sublist_append_left (engine.step a).sent.flatten (engine.step a).phase.events).trans hlist
        rw [hs, List.flatten_append] at this
        simpa using this
      have hsorted := List.Pairwise.sublist hsub hids.sorted
      have hin : ∀ x ∈ es, x ∈ (engine.step a).created := fun x hx => hsub.subset (List.mem_append_right _ hx)
      have hclock := hf.sorted
      rw [offeredBy_append, hes, hoff, List.pairwise_append] at hclock
      have hvalid := hf.valid
      rw [hoff] at hvalid
      have ho : Onward cf.serverId w.cur.log es := by
        refine ⟨?_, hnew, fun x hx => ⟨e3.trans_lt (hids.created x (hin x hx)).1, hvalid x (List.mem_append_right _ hx)⟩, fun x hx y hy hys => ⟨?_, ?_⟩⟩
        · refine List.Pairwise.and (List.pairwise_append.1 hsorted).2.1 ?_
          exact hclock.2.1.imp_of_mem fun _ hb hab => hab (List.mem_append_right _ hb)
        · rcases hlog y hy hys with hle | hy
          · exact hle.trans_lt (hids.created x (hin x hx)).1
          · exact (List.pairwise_append.1 hsorted).2.2 y hy x hx
        · obtain ⟨l, l1, l2⟩ := (run_ok h1.run).logC y hy
          exact hclock.2.2 y (mem_offeredBy.2 ⟨l, l1, l2, hys⟩) x hx (List.mem_append_right _ hx)
      obtain ⟨w', g1, g3, g2, g4⟩ := offered_step h.laws cf.serverId h1 (.register es) hno (by rw [hes]; exact ho) hopen
      rw [hes] at g3 g2
      refine ⟨w', g1, ?_, fun x hx => ?_⟩
      · rw [hoff]
        intro x hx
        rcases List.mem_append.1 hx with hx | hx
        · exact g4 x (h2 x hx)
        · exact g2 x hx
      · rcases hlast x hx with ⟨_, hne⟩ | ⟨_, _, rfl⟩
        · exact absurd hcur hne
        · refine ⟨last, hfrom.step a, fun y hy hys => ?_⟩
          rw [hs, List.flatten_append]
          rcases g3 y hy hys with hy | hy
          · exact (hlog y hy hys).imp_right (List.mem_append_left _)
          · exact .inr (List.mem_append_right _ (by simpa using hy))

/-- What a latest query returns if an event is shown. -/
theorem latest_shown {conf : Conf} {past : List BackendOp} (hl : LookupLaws past) {w : World} (h1 : Reached conf past w)
    {types : Option (List EventType)} (hu : Usable ((Backend.new conf).run past).conf types) {r : QueryResult}
    (hq : ((Backend.new conf).run past).query (.latest types) = .ok r) {x : Event} (hx : ShowsAt w.conf w.cur x) (ha : AskedFor types x.type) :
    ∃ s ∈ r.events, s.type = x.type ∧ TimeLe x.timestamp s.timestamp := by
  have hopen : ((Backend.new conf).run past).mem ≠ none := by
    intro hn
    unfold Backend.query at hq
    rw [hn] at hq
    simp at hq
  have hrel := h1.rel
  obtain ⟨s, s1, s2, s3⟩ := hx
  cases hm : ((Backend.new conf).run past).mem with
  | none => exact absurd hm hopen
  | some m =>
    obtain ⟨_, hr⟩ := hrel.opened m hm
    have hg := (hr.latest.events x.type s).2 ⟨s1, s2⟩
    have hty := (hrel.okC.slotType _ _ s1).1
    have hall : ((Backend.new conf).run past).query (.latest none) = .ok ⟨m.latest.events.map Prod.snd, false⟩ := by
      unfold Backend.query; rw [hm]; rfl
    have hmem : s ∈ m.latest.events.map Prod.snd := List.mem_map.2 ⟨_, Dict.mem_of_get hg, rfl⟩
    refine ⟨s, ?_, hty, s3⟩
    cases types with
    | none =>
      rw [hall] at hq
      cases hq
      exact hmem
    | some l =>
      obtain ⟨all, c1, c2⟩ := C25_filter conf past hl hopen
      obtain ⟨events, c3, _, c4⟩ := c2 l (hu l rfl).1 (hu l rfl).2
      rw [hall] at c1
      cases c1
      rw [c3] at hq
      cases hq
      exact (c4 s).2 ⟨hmem, by rw [hty]; exact ha l rfl⟩

end HatEvent
