import Verif.Proof.EngineTimes
import Verif.Props.Engine
import Verif.Props.DuoSeries

/-!
# Engines keep the order of the events of their servers
-/

namespace HatEvent
open Spec

/-- What is known of a server: `own` are the events of the server its backend was told, `ts` the times read from its
clock. -/
structure SiteOk (server : Int) (own : List Event) (engine : Option Engine) (ts : List Timestamp) : Prop where
  order : Orderly server own
  times : ∀ x ∈ own, x.timestamp ∈ ts
  engine : ∀ s, engine = some s → ∃ econf last acts pre, s = (Engine.create econf last).run acts ∧
    last.server = server ∧ IdLe ⟨server, 0, 0⟩ last ∧ ts = pre ++ acts.filterMap readsClock ∧
    ∀ x ∈ own, x ∈ s.sent.flatten ∨ (IdLe x.id last ∧ x.timestamp ∈ pre)

theorem siteOk_new (server : Int) : SiteOk server [] none [] :=
  ⟨⟨.nil, by simp, by simp⟩, by simp, by simp⟩

theorem SiteOk.less {server : Int} {own own' : List Event} {engine : Option Engine} {ts : List Timestamp}
    (h : SiteOk server own engine ts) (hp : own' <+: own) : SiteOk server own' engine ts := by
  obtain ⟨l, rfl⟩ := hp
  refine ⟨h.order.prefix, fun x hx => h.times x (List.mem_append_left _ hx), fun s hs => ?_⟩
  obtain ⟨econf, last, acts, pre, h1, h2, h3, h4, h5⟩ := h.engine s hs
  exact ⟨econf, last, acts, pre, h1, h2, h3, h4, fun x hx => h5 x (List.mem_append_left _ hx)⟩

theorem SiteOk.stopped {server : Int} {own : List Event} {engine : Option Engine} {ts : List Timestamp}
    (h : SiteOk server own engine ts) : SiteOk server own none ts :=
  ⟨h.order, h.times, by simp⟩

/-- A new engine. -/
theorem SiteOk.started {server : Int} {own : List Event} {engine : Option Engine} {ts : List Timestamp}
    (h : SiteOk server own engine ts) {econf : EngineConf} {last : EventId} (h1 : last.server = server)
    (h2 : IdLe ⟨server, 0, 0⟩ last) (h3 : ∀ x ∈ own, IdLe x.id last) :
    SiteOk server own (some (.create econf last)) ts := by
  refine ⟨h.order, h.times, fun s hs => ?_⟩
  cases hs
  exact ⟨econf, last, [], ts, rfl, h1, h2, by simp, fun x hx => .inr ⟨h3 x hx, h.times x hx⟩⟩

theorem filterMap_snoc {α β : Type} (f : α → Option β) (l : List α) (a : α) :
    (l ++ [a]).filterMap f = l.filterMap f ++ (f a).toList := by
  rw [List.filterMap_append]
  cases h : f a <;> simp [h]

theorem sent_grows (s : Engine) (a : EngineAct) {e : Event} (h : e ∈ s.sent.flatten) : e ∈ (s.step a).sent.flatten := by
  rcases sent_step s a with h1 | ⟨es, h1⟩
  · rw [h1]; exact h
  · rw [h1, List.flatten_append]; exact List.mem_append_left _ h

/-- An action of the engine, with or without the effect of a call. -/
theorem SiteOk.acted {server : Int} {own : List Event} {s : Engine} {ts : List Timestamp}
    (h : SiteOk server own (some s) ts) (a : EngineAct) : SiteOk server own (some (s.step a)) (ts ++ (readsClock a).toList) := by
  refine ⟨h.order, fun x hx => List.mem_append_left _ (h.times x hx), fun s' hs => ?_⟩
  cases hs
  obtain ⟨econf, last, acts, pre, h1, h2, h3, h4, h5⟩ := h.engine s rfl
  refine ⟨econf, last, acts ++ [a], pre, by rw [engine_snoc, ← h1], h2, h3, by rw [h4, filterMap_snoc, List.append_assoc], ?_⟩
  exact fun x hx => (h5 x hx).imp_left (sent_grows s a)

theorem SiteOk.sends {server : Int} {own : List Event} {s : Engine} {ts : List Timestamp}
    (h : SiteOk server own (some s) ts) (a : EngineAct) {es : List Event} (hs : (s.step a).sent = s.sent ++ [es])
    (hts : (ts ++ (readsClock a).toList).Pairwise TimeLe)
    (hv : ∀ t ∈ ts ++ (readsClock a).toList, TimeLe minTimestamp t) :
    SiteOk server (own ++ es) (some (s.step a)) (ts ++ (readsClock a).toList) ∧ ∀ e ∈ es, e.id.server = server := by
  obtain ⟨econf, last, acts, pre, h1, h2, h3, h4, h5⟩ := h.engine s rfl
  have hrun : s.step a = (Engine.create econf last).run (acts ++ [a]) := by rw [engine_snoc, ← h1]
  have hids := ids_run econf last (acts ++ [a])
  have hlist := listed_run econf last (acts ++ [a])
  have hts' : ts ++ (readsClock a).toList = pre ++ (acts ++ [a]).filterMap readsClock := by
    rw [h4, filterMap_snoc, List.append_assoc]
  rw [hts'] at hts hv ⊢
  have htimes := times_run econf last (acts ++ [a]) (List.pairwise_append.1 hts).2.1
  rw [← hrun] at hids hlist htimes
  have hsub : (s.sent.flatten ++ es).Sublist (s.step a).created := by
    have := (List.sublist_append_left (s.step a).sent.flatten (s.step a).phase.events).trans hlist
    rw [hs, List.flatten_append] at this
    simpa using this
  have hsorted := List.Pairwise.sublist hsub (hids.sorted.and htimes.sorted)
  have hin : ∀ e ∈ es, e ∈ (s.step a).created := fun e he => hsub.subset (List.mem_append_right _ he)
  have hown : ∀ e ∈ es, e.id.server = server := fun e he => (hids.servers e (hin e he)).trans h2
  have hpos : ∀ e ∈ es, IdLt ⟨server, 0, 0⟩ e.id := fun e he => h3.trans_lt (hids.created e (hin e he)).1
  have hnew : ∀ e ∈ es, e.timestamp ∈ (acts ++ [a]).filterMap readsClock := fun e he => htimes.within e (hin e he)
  refine ⟨⟨⟨?_, ?_, ?_⟩, ?_, ?_⟩, hown⟩
  · rw [List.pairwise_append]
    refine ⟨h.order.sorted, (List.pairwise_append.1 hsorted).2.1, fun x hx e he => ?_⟩
    rcases h5 x hx with hx | ⟨hx1, hx2⟩
    · exact (List.pairwise_append.1 hsorted).2.2 x hx e he
    · exact ⟨hx1.trans_lt (hids.created e (hin e he)).1, (List.pairwise_append.1 hts).2.2 _ hx2 _ (hnew e he)⟩
  · exact fun x hx => (List.mem_append.1 hx).elim (h.order.owner x) (hown x)
  · exact fun x hx => (List.mem_append.1 hx).elim (h.order.pos x) fun he =>
      ⟨hpos x he, hv _ (List.mem_append_right _ (hnew x he))⟩
  · intro x hx
    rcases List.mem_append.1 hx with hx | hx
    · rw [← hts']; exact List.mem_append_left _ (h.times x hx)
    · exact List.mem_append_right _ (hnew x hx)
  · intro s' hs'
    cases hs'
    refine ⟨econf, last, acts ++ [a], pre, hrun, h2, h3, rfl, fun x hx => ?_⟩
    rcases List.mem_append.1 hx with hx | hx
    · exact (h5 x hx).imp_left (sent_grows s a)
    · rw [hs, List.flatten_append]
      exact .inl (List.mem_append_right _ (by simpa using hx))

/-! ### Backends -/

/-- A backend never forgets more than the events since the last flush. -/
theorem own_step (server : Int) (b : Backend) (op : BackendOp) :
    ofServer server (told (b.step op)) <+: ofServer server (told b) ∨
      ∃ es, op = .register es ∧ ofServer server (told (b.step op)) = ofServer server (told b) ++ ofServer server es := by
  rcases told_backend b op with h | h | ⟨es, h1, h2⟩
  · left; rw [h]
  · left; rw [h, told_eq, ofServer_append]; exact List.prefix_append _ _
  · right; exact ⟨es, h1, by rw [h2, ofServer_append]⟩

theorem ofServer_nil {server : Int} {l : List Event} (h : ∀ x ∈ l, x.id.server ≠ server) : ofServer server l = [] := by
  simp only [ofServer, List.filter_eq_nil_iff, decide_eq_true_eq]
  exact h

theorem ofServer_all {server : Int} {l : List Event} (h : ∀ x ∈ l, x.id.server = server) : ofServer server l = l := by
  simp only [ofServer, List.filter_eq_self, decide_eq_true_eq]
  exact h

/-- Events of other servers. -/
theorem own_registers {server : Int} (calls : List (List Event)) (h : ∀ x ∈ calls.flatten, x.id.server ≠ server)
    (b : Backend) :
    ofServer server (told (calls.foldl (fun b es => b.step (.register es)) b)) <+: ofServer server (told b) := by
  induction calls generalizing b with
  | nil => exact List.prefix_rfl
  | cons es calls ih =>
    rw [List.flatten_cons] at h
    refine (ih (fun x hx => h x (List.mem_append_right _ hx)) (b.step (.register es))).trans ?_
    rcases own_step server b (.register es) with h1 | ⟨es', h1, h2⟩
    · exact h1
    · cases h1
      rw [h2, ofServer_nil fun x hx => h x (List.mem_append_left _ hx), List.append_nil]

/-- An action on a server. -/
theorem site_step {conf : Conf} {server : Int} {b : Backend} {engine : Option Engine} {ts : List Timestamp}
    (h : SiteOk server (ofServer server (told b)) engine ts) (act : SiteAct)
    (hlast : ∀ last, b.getLastEventId server = .ok last →
      last.server = server ∧ IdLe ⟨server, 0, 0⟩ last ∧ ∀ x ∈ ofServer server (told b), IdLe x.id last)
    (hts : (ts ++ (siteClock act).toList).Pairwise TimeLe)
    (hv : ∀ t ∈ ts ++ (siteClock act).toList, TimeLe minTimestamp t) :
    SiteOk server (ofServer server (told ((siteOps conf engine act).foldl Backend.step b)))
        (siteEngine server b engine act) (ts ++ (siteClock act).toList) ∧
      ((siteOps conf engine act).length ≤ 1) ∧
      (∀ es, .register es ∈ siteOps conf engine act → ∀ e ∈ es, e.id.server = server) ∧
      ∀ c, .reopen c ∈ siteOps conf engine act → c = conf := by
  have quiet : ∀ op : BackendOp, (∀ es, op ≠ .register es) →
      ofServer server (told (b.step op)) <+: ofServer server (told b) := by
    intro op hop
    rcases own_step server b op with h1 | ⟨es, h1, _⟩
    · exact h1
    · exact absurd h1 (hop es)
  cases act with
  | touch i => exact ⟨by simpa [siteClock, siteOps, siteEngine] using h.less (quiet (.touch i) (by simp)),
      by simp [siteOps], by simp [siteOps], by simp [siteOps]⟩
  | flush => exact ⟨by simpa [siteClock, siteOps, siteEngine] using h.less (quiet .flush (by simp)),
      by simp [siteOps], by simp [siteOps], by simp [siteOps]⟩
  | cleanup fl se now =>
    exact ⟨by simpa [siteClock, siteOps, siteEngine] using h.less (quiet (.cleanup fl se now) (by simp)),
      by simp [siteOps], by simp [siteOps], by simp [siteOps]⟩
  | restart =>
    exact ⟨by simpa [siteClock, siteOps, siteEngine] using (h.less (quiet (.reopen conf) (by simp))).stopped,
      by simp [siteOps], by simp [siteOps], by simp [siteOps]⟩
  | start modules =>
    refine ⟨?_, by simp [siteOps], by simp [siteOps], by simp [siteOps]⟩
    simp only [siteOps, List.foldl_nil, siteEngine, siteClock, Option.toList_none, List.append_nil]
    unfold startEngine
    split
    · split
      · next last hl => obtain ⟨h1, h2, h3⟩ := hlast last hl; exact h.started h1 h2 h3
      · exact h
    · split
      · next last hl => obtain ⟨h1, h2, h3⟩ := hlast last hl; exact h.started h1 h2 h3
      · exact h
    · exact h
  | engine a =>
    simp only [siteOps, siteEngine, siteClock] at hts hv ⊢
    cases engine with
    | none => exact ⟨⟨h.order, fun x hx => List.mem_append_left _ (h.times x hx), by simp⟩, by simp [newCalls],
        by simp [newCalls], by simp [newCalls]⟩
    | some s =>
      simp only [newCalls, Option.map_some]
      rcases sent_step s a with h1 | ⟨es, h1⟩
      · rw [h1]
        simpa using h.acted a
      · obtain ⟨h2, h3⟩ := h.sends a h1 hts hv
        rw [h1]
        simp only [List.drop_left, List.map_cons, List.map_nil, List.foldl_cons, List.foldl_nil, List.mem_singleton,
          BackendOp.register.injEq, forall_eq, reduceCtorEq, false_imp_iff, implies_true, and_true, List.length_cons,
          List.length_nil, Nat.zero_add, Nat.le_refl, true_and]
        refine ⟨?_, h3⟩
        rcases own_step server b (.register es) with h4 | ⟨es', h4, h5⟩
        · exact (h.acted a).less h4
        · cases h4
          rw [h5, ofServer_all h3]
          exact h2

/-! ### Both servers -/

/-- What is assumed of the events: partitions take all of them. -/
def allWanted (conf : Conf) : Terms := ⟨Wanted conf, fun e => Ordinary e ∧ Wanted conf e, fun c => c = conf⟩

/-- The last event id of the backend is not before the events it was told. -/
theorem reached_last {conf : Conf} {server : Int} {d : Duo} (h : DuoReached conf (allWanted conf) server d)
    {last : EventId} (hl : d.primary.getLastEventId server = .ok last) :
    last.server = server ∧ IdLe ⟨server, 0, 0⟩ last ∧ ∀ x ∈ ofServer server (told d.primary), IdLe x.id last := by
  obtain ⟨pops, sops, wp, ws, stored, h⟩ := h
  have hrel : WorldRel d.primary wp := by rw [h.primary]; exact h.reachedP.rel
  have hid : last = wp.cur.lastId server := by
    unfold Backend.getLastEventId at hl
    cases hm : d.primary.mem with
    | none => rw [hm] at hl; simp at hl
    | some m =>
      rw [hm] at hl
      rw [← getLastEventId_eq (hrel.opened m hm).2.sys]
      simpa using hl.symm
  subst hid
  refine ⟨?_, lastId_pos hrel.okC server, fun x hx => ?_⟩
  · rcases lastId_cases wp.cur server with h1 | ⟨x, _, h2, h3⟩
    · rw [h1]
    · rw [h3, h2]
  · obtain ⟨hx1, hx2⟩ := mem_ofServer.1 hx
    obtain ⟨es, h1, h2⟩ := told_run (conf := conf) (ops := pops) (e := x) (by rw [← h.primary]; exact hx1)
    have := le_lastId hrel.okC (h.facts.takenC x hx (h.eventsP es h1 x h2).2)
    rwa [hx2] at this

theorem run_lefts (p : Pair) (ops : List BackendOp) :
    (p.run (ops.map .left)).left = ops.foldl Backend.step p.left ∧ (p.run (ops.map .left)).right = p.right := by
  induction ops generalizing p with
  | nil => exact ⟨rfl, rfl⟩
  | cons op ops ih => exact ih (p.stepLeft op)

theorem run_rights (p : Pair) (ops : List BackendOp) :
    (p.run (ops.map .right)).right = ops.foldl Backend.step p.right ∧ (p.run (ops.map .right)).left = p.left := by
  induction ops generalizing p with
  | nil => exact ⟨rfl, rfl⟩
  | cons op ops ih => exact ih (p.mirror.stepLeft op).mirror

theorem fore_right {T : Terms} {conf : Conf} {left right : Int} {p : Pair} (hd : left ≠ right)
    (h : PairOk conf T left right p) (act : SideAct) :
    ofServer right (told (p.stepFore act).right) <+: ofServer right (told p.right) := by
  obtain ⟨_, _, h3, h4⟩ := duo_link h.fore act
  have hr : (p.stepFore act).right = ((p.foreward.step act.toDuo).link.calls.drop p.fore.calls.length).foldl
      (fun b es => b.step (.register es)) p.right := h3
  rw [hr]
  exact own_registers _ (fun x hx heq => hd ((h4 x hx).1.symm.trans heq)) p.right

theorem Spec.BothInOrder.more {conf : Conf} {left right : Int} {acts new : List PairAct}
    (h : BothInOrder conf left right acts) (hn : new.length ≤ 1)
    (hl : Orderly left (ofServer left (told ((Pair.new conf left right).run (acts ++ new)).left)))
    (hr : Orderly right (ofServer right (told ((Pair.new conf left right).run (acts ++ new)).right))) :
    BothInOrder conf left right (acts ++ new) := by
  intro pre hpre
  by_cases heq : pre = acts ++ new
  · rw [heq]; exact ⟨hl, hr⟩
  · refine h pre ?_
    rcases new with _ | ⟨a, _ | ⟨b, l⟩⟩
    · simpa using hpre
    · rcases List.prefix_concat_iff.1 hpre with h1 | h1
      · exact absurd h1 heq
      · exact h1
    · simp at hn

theorem Spec.Matched.more {conf : Conf} {left right : Int} {acts new : List PairAct} (hl : LookupLaw conf)
    (h : Matched conf left right acts) (c1 : ∀ c, .left (.reopen c) ∈ new → c = conf)
    (c2 : ∀ c, .right (.reopen c) ∈ new → c = conf)
    (e1 : ∀ es, .left (.register es) ∈ new → ∀ e ∈ es, e.id.server = left)
    (e2 : ∀ es, .right (.register es) ∈ new → ∀ e ∈ es, e.id.server = right) :
    Matched conf left right (acts ++ new) := by
  refine ⟨h.different, fun c hc => ?_, fun c hc => ?_, fun es he => ?_, fun es he => ?_⟩
  · rcases List.mem_append.1 hc with hc | hc
    · exact h.confL c hc
    · rw [c1 c hc]; exact ⟨hl, fun _ => Iff.rfl⟩
  · rcases List.mem_append.1 hc with hc | hc
    · exact h.confR c hc
    · rw [c2 c hc]; exact ⟨hl, fun _ => Iff.rfl⟩
  · exact (List.mem_append.1 he).elim (h.ownL es) (e1 es)
  · exact (List.mem_append.1 he).elim (h.ownR es) (e2 es)

theorem plant_snoc (conf : Conf) (left right : Int) (acts : List PlantAct) (a : PlantAct) :
    Plant.run conf left right (acts ++ [a]) = (Plant.run conf left right acts).step conf left right a := by
  simp [Plant.run]

/-- Two servers with engines: always one configuration with acceptable partitions, clocks that are not set back, and
events that some partition takes. -/
structure Spec.Running (conf : Conf) (left right : Int) (acts : List PlantAct) : Prop where
  different : left ≠ right
  law : LookupLaw conf
  series : TsConfs [.reopen conf]
  clockL : Clock (leftActs acts)
  clockR : Clock (rightActs acts)
  stored : ∀ es, (.left (.register es) ∈ (Plant.run conf left right acts).past ∨
    .right (.register es) ∈ (Plant.run conf left right acts).past) → ∀ e ∈ es, Ordinary e ∧ Wanted conf e

theorem Spec.Clock.prefix {l l' : List SiteAct} (h : Clock (l ++ l')) : Clock l := by
  obtain ⟨h1, h2⟩ := h
  rw [List.filterMap_append] at h1 h2
  exact ⟨(List.pairwise_append.1 h1).1, fun t ht => h2 t (List.mem_append_left _ ht)⟩

theorem Spec.Running.prefix {conf : Conf} {left right : Int} {acts : List PlantAct} {a : PlantAct}
    (h : Running conf left right (acts ++ [a])) : Running conf left right acts := by
  obtain ⟨h1, h2, h3, h4, h5, h6⟩ := h
  unfold leftActs at h4
  unfold rightActs at h5
  rw [List.filterMap_append] at h4 h5
  refine ⟨h1, h2, h3, h4.prefix, h5.prefix, fun es he => h6 es ?_⟩
  rw [plant_snoc]
  exact he.imp (List.mem_append_left _) (List.mem_append_left _)

/-- What is known of both servers. -/
structure PlantOk (conf : Conf) (left right : Int) (acts : List PlantAct) (p : Plant) : Prop where
  pair : p.pair = (Pair.new conf left right).run p.past
  matched : Matched conf left right p.past
  confs : ∀ c, (.left (.reopen c) ∈ p.past ∨ .right (.reopen c) ∈ p.past) → c = conf
  order : BothInOrder conf left right p.past
  left : SiteOk left (ofServer left (told p.pair.left)) p.left ((leftActs acts).filterMap siteClock)
  right : SiteOk right (ofServer right (told p.pair.right)) p.right ((rightActs acts).filterMap siteClock)

theorem PlantOk.pairOk {conf : Conf} {left right : Int} {acts : List PlantAct}
    (h : PlantOk conf left right acts (Plant.run conf left right acts)) (hr : Running conf left right acts) :
    PairOk conf (allWanted conf) left right (Plant.run conf left right acts).pair := by
  rw [h.pair]
  refine pairOk_run conf left right _ h.matched (fun c hc => ?_) hr.stored h.order
  rw [h.confs c hc]
  exact ⟨fun e he => takes_wanted hr.series he, rfl⟩

theorem plant_ok {conf : Conf} {left right : Int} (acts : List PlantAct) (hr : Running conf left right acts) :
    PlantOk conf left right acts (Plant.run conf left right acts) := by
  induction acts using List.reverseRecOn with
  | nil =>
    refine ⟨rfl, ⟨hr.different, ?_, ?_, ?_, ?_⟩, ?_, ?_, siteOk_new left, siteOk_new right⟩
    · intro c hc; simp [Plant.run, Plant.new] at hc
    · intro c hc; simp [Plant.run, Plant.new] at hc
    · intro c hc; simp [Plant.run, Plant.new] at hc
    · intro c hc; simp [Plant.run, Plant.new] at hc
    · intro c hc; simp [Plant.run, Plant.new] at hc
    · intro pre hpre
      obtain rfl := List.prefix_nil.1 hpre
      exact ⟨(siteOk_new left).order, (siteOk_new right).order⟩
  | append_singleton acts a ih =>
    have ok := ih hr.prefix
    have pok := ok.pairOk hr.prefix
    have hcl := hr.clockL
    have hcr := hr.clockR
    have hlaw := hr.law
    have hd := hr.different
    rw [plant_snoc]
    clear ih hr
    generalize Plant.run conf left right acts = p at ok pok ⊢
    have finish : ∀ (new : List PairAct) (el er : Option Engine),
        p.step conf left right a = ⟨p.pair.run new, el, er, p.past ++ new⟩ → new.length ≤ 1 →
        (∀ c, .left (.reopen c) ∈ new → c = conf) → (∀ c, .right (.reopen c) ∈ new → c = conf) →
        (∀ es, .left (.register es) ∈ new → ∀ e ∈ es, e.id.server = left) →
        (∀ es, .right (.register es) ∈ new → ∀ e ∈ es, e.id.server = right) →
        SiteOk left (ofServer left (told (p.pair.run new).left)) el ((leftActs (acts ++ [a])).filterMap siteClock) →
        SiteOk right (ofServer right (told (p.pair.run new).right)) er ((rightActs (acts ++ [a])).filterMap siteClock) →
        PlantOk conf left right (acts ++ [a]) (p.step conf left right a) := by
      intro new el er heq hn c1 c2 e1 e2 hl hr
      rw [heq]
      have hpair : p.pair.run new = (Pair.new conf left right).run (p.past ++ new) := by
        rw [ok.pair]; simp [Pair.run]
      refine ⟨hpair, ok.matched.more hlaw c1 c2 e1 e2, ?_, ok.order.more hn ?_ ?_, hl, hr⟩
      · intro c hc
        rcases hc with hc | hc <;> rcases List.mem_append.1 hc with hc | hc
        · exact ok.confs c (.inl hc)
        · exact c1 c hc
        · exact ok.confs c (.inr hc)
        · exact c2 c hc
      · rw [← hpair]; exact hl.order
      · rw [← hpair]; exact hr.order
    cases a with
    | left act =>
      have hL : leftActs (acts ++ [PlantAct.left act]) = leftActs acts ++ [act] := by simp [leftActs]
      have hR : rightActs (acts ++ [PlantAct.left act]) = rightActs acts := by simp [rightActs]
      have hw : (leftActs (acts ++ [PlantAct.left act])).filterMap siteClock =
          (leftActs acts).filterMap siteClock ++ (siteClock act).toList := by rw [hL, filterMap_snoc]
      obtain ⟨h1, h2⟩ := hcl
      rw [hw] at h1 h2
      obtain ⟨s1, s2, s3, s4⟩ := site_step (conf := conf) ok.left act
        (fun last hl => reached_last pok.fore hl) h1 h2
      obtain ⟨r1, r2⟩ := run_lefts p.pair (siteOps conf p.left act)
      refine finish ((siteOps conf p.left act).map .left) (siteEngine left p.pair.left p.left act) p.right rfl
        (by simpa using s2) (fun c hc => s4 c (by simpa using hc)) (by simp) (fun es he => s3 es (by simpa using he)) (by simp) ?_ ?_
      · rw [r1, hw]; exact s1
      · rw [r2, hR]; exact ok.right
    | right act =>
      have hL : leftActs (acts ++ [PlantAct.right act]) = leftActs acts := by simp [leftActs]
      have hR : rightActs (acts ++ [PlantAct.right act]) = rightActs acts ++ [act] := by simp [rightActs]
      have hw : (rightActs (acts ++ [PlantAct.right act])).filterMap siteClock =
          (rightActs acts).filterMap siteClock ++ (siteClock act).toList := by rw [hR, filterMap_snoc]
      obtain ⟨h1, h2⟩ := hcr
      rw [hw] at h1 h2
      obtain ⟨s1, s2, s3, s4⟩ := site_step (conf := conf) ok.right act
        (fun last hl => reached_last pok.back hl) h1 h2
      obtain ⟨r1, r2⟩ := run_rights p.pair (siteOps conf p.right act)
      refine finish ((siteOps conf p.right act).map .right) p.left (siteEngine right p.pair.right p.right act) rfl
        (by simpa using s2) (by simp) (fun c hc => s4 c (by simpa using hc)) (by simp) (fun es he => s3 es (by simpa using he)) ?_ ?_
      · rw [r2, hL]; exact ok.left
      · rw [r1, hw]; exact s1
    | fore act =>
      have hL : leftActs (acts ++ [PlantAct.fore act]) = leftActs acts := by simp [leftActs]
      have hR : rightActs (acts ++ [PlantAct.fore act]) = rightActs acts := by simp [rightActs]
      refine finish [.fore act] p.left p.right rfl (by simp) (by simp) (by simp) (by simp) (by simp) ?_ ?_
      · rw [hL]; exact ok.left
      · rw [hR]; exact ok.right.less (fore_right hd pok act)
    | back act =>
      have hL : leftActs (acts ++ [PlantAct.back act]) = leftActs acts := by simp [leftActs]
      have hR : rightActs (acts ++ [PlantAct.back act]) = rightActs acts := by simp [rightActs]
      refine finish [.back act] p.left p.right rfl (by simp) (by simp) (by simp) (by simp) (by simp) ?_ ?_
      · rw [hL]; exact ok.left.less (fore_right hd.symm pok.mirror act)
      · rw [hR]; exact ok.right

end HatEvent
