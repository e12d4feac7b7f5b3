import Verif.Proof.Plant
import Verif.Props.SyncLive

/-!
# C89: servers with engines settle on the same events
-/

namespace HatEvent
open Spec

/-- **C89** The engines of two servers, restarted any number of times with and without loss of events that were not
flushed, register the events of their servers in order: what C84, C87 and C88 assume. -/
theorem C89_order (conf : Conf) (left right : Int) (acts : List PlantAct) (hr : Running conf left right acts) :
    let p := Plant.run conf left right acts
    p.pair = (Pair.new conf left right).run p.past ∧ Matched conf left right p.past ∧ OnePlan conf p.past ∧
      BothInOrder conf left right p.past :=
  have h := plant_ok acts hr
  ⟨h.pair, h.matched, ⟨h.confs, hr.series, fun es he e hes => (hr.stored es he e hes).1⟩, h.order⟩

/-- **C89** When everything is flushed and received, both servers answer latest queries alike, if none of their events
tie. -/
theorem C89_latest (conf : Conf) (left right : Int) (acts : List PlantAct) (hr : Running conf left right acts)
    (hs : Settled (Plant.run conf left right acts).pair) (hn : NoTies left right (Plant.run conf left right acts).pair) :
    ∃ events events', (Plant.run conf left right acts).pair.left.query (.latest none) = .ok ⟨events, false⟩ ∧
      (Plant.run conf left right acts).pair.right.query (.latest none) = .ok ⟨events', false⟩ ∧ events.Perm events' := by
  obtain ⟨h1, h2, h3, h4⟩ := C89_order conf left right acts hr
  rw [h1] at hs hn ⊢
  exact C84_latest_partial conf left right _ h2 h4 hs hn

/-- **C89** Then both servers return the same timeseries, with python subscriptions and partitions without a limit. -/
theorem C89_lists (conf : Conf) (left right : Int) (acts : List PlantAct) (hr : Running conf left right acts)
    (hs : Settled (Plant.run conf left right acts).pair) (hu : conf.useC = false) (q : QueryTimeseriesParams)
    (hq : TsParamsOk conf q) (hlim : ∀ part ∈ conf.partitions, Related q part → part.limit = none)
    (hpos : 0 < tsPage conf q.maxResults) :
    let p := (Plant.run conf left right acts).pair
    let query := fun (b : Backend) i => b.query (.timeseries { q with lastEventId := i })
    ∃ full full', (Pages (query p.left) none full ∧ ∀ r, Pages (query p.left) none r → r = full) ∧
      (Pages (query p.right) none full' ∧ ∀ r, Pages (query p.right) none r → r = full') ∧ full.Perm full' := by
  obtain ⟨h1, h2, h3, h4⟩ := C89_order conf left right acts hr
  rw [h1] at hs ⊢
  exact C87_lists conf left right _ h2 h3 h4 hs hu q hq hlim hpos

/-! ## Endless schedules -/

/-- From a time on the engines register nothing, both connections stay, and each part goes on. -/
structure Spec.KeepOn (conf : Conf) (left right : Int) (acts : Nat → PlantAct) (N : Nat) : Prop where
  openF : ∀ n, N ≤ n → (Plant.run conf left right (upTo acts n)).pair.fore.closed = false
  openB : ∀ n, N ≤ n → (Plant.run conf left right (upTo acts n)).pair.back.closed = false
  none : ∀ n, N ≤ n → ∀ es,
    .left (.register es) ∉ (Plant.run conf left right (upTo acts n)).doings conf (acts n) ∧
    .right (.register es) ∉ (Plant.run conf left right (upTo acts n)).doings conf (acts n)
  fore : ∀ act, act ∈ [SideAct.notify, .serve, .deliver, .advance] → Often acts (.fore act)
  back : ∀ act, act ∈ [SideAct.notify, .serve, .deliver, .advance] → Often acts (.back act)
  flushL : Often acts (.left .flush)
  flushR : Often acts (.right .flush)

/-- Lists that grow by at most one element at a time, and never stop growing, are those of an endless schedule. -/
theorem endless {α : Type} (l : Nat → List α) (new : Nat → List α) (h0 : l 0 = []) (hs : ∀ n, l (n + 1) = l n ++ new n)
    (h1 : ∀ n, (new n).length ≤ 1) (hmore : ∀ n, ∃ m, n ≤ m ∧ new m ≠ []) :
    ∃ f : Nat → α, (∀ n, l n = upTo f (l n).length) ∧ (∀ k n, (l n).length ≤ k → ∃ m, n ≤ m ∧ (l m).length = k ∧
      new m = [f k]) ∧ (∀ k, ∃ m, k ≤ (l m).length) ∧ ∀ n, (l n).length ≤ (l (n + 1)).length := by
  have mono : ∀ m n, m ≤ n → l m <+: l n := by
    intro m n h
    induction n, h using Nat.le_induction with
    | base => exact List.prefix_rfl
    | succ n _ ih => rw [hs]; exact ih.trans (List.prefix_append _ _)
  have hlen : ∀ n, (l (n + 1)).length = (l n).length + (new n).length := fun n => by rw [hs, List.length_append]
  have next : ∀ n, ∃ m, n ≤ m ∧ (l m).length = (l n).length ∧ (new m).length = 1 := by
    intro n
    obtain ⟨m, h2, h3⟩ := hmore n
    obtain ⟨k, rfl⟩ := Nat.exists_eq_add_of_le h2
    clear h2
    induction k generalizing n with
    | zero =>
      refine ⟨n, Nat.le_refl _, rfl, ?_⟩
      have := h1 n
      have := List.length_pos_of_ne_nil h3
      simp only [Nat.add_zero] at *
      omega
    | succ k ih =>
      by_cases hn : new n = []
      · obtain ⟨m, g1, g2, g3⟩ := ih (n + 1) (by rwa [show n + 1 + k = n + (k + 1) by omega])
        refine ⟨m, by omega, ?_, g3⟩
        rw [g2, hlen, hn]; rfl
      · have := h1 n
        have := List.length_pos_of_ne_nil hn
        exact ⟨n, Nat.le_refl _, rfl, by omega⟩
  have reach : ∀ n j, ∃ m, n ≤ m ∧ (l m).length = (l n).length + j ∧ (new m).length = 1 := by
    intro n j
    induction j with
    | zero => exact next n
    | succ j ih =>
      obtain ⟨m, g1, g2, g3⟩ := ih
      obtain ⟨m', g4, g5, g6⟩ := next (m + 1)
      exact ⟨m', by omega, by rw [g5, hlen]; omega, g6⟩
  have at0 : ∀ k, ∃ m, (l m).length = k ∧ ∃ a, new m = [a] := by
    intro k
    obtain ⟨m, _, g2, g3⟩ := reach 0 k
    exact ⟨m, by rw [g2, h0]; simp, List.length_eq_one_iff.1 g3⟩
  choose at_ hat using at0
  choose f hf using fun k => (hat k).2
  have hget : ∀ k n, k < (l n).length → (l n)[k]? = some (f k) := by
    intro k n hk
    have g : (l (at_ k + 1))[k]? = some (f k) := by
      rw [hs, hf k]
      have := (hat k).1
      rw [List.getElem?_append_right (by omega)]
      simp [this]
    rcases Nat.le_total n (at_ k + 1) with h | h
    · rw [← g]
      have := List.prefix_iff_eq_append.1 (mono _ _ h)
      rw [← this, List.getElem?_append_left hk]
    · obtain ⟨more, hm⟩ := mono _ _ h
      rw [← hm, List.getElem?_append_left, g]
      rw [hlen, (hat k).1, hf k]; simp
  refine ⟨f, ?_, ?_, ?_, fun n => by rw [hlen]; omega⟩
  · intro n
    refine List.ext_getElem? fun k => ?_
    rcases Nat.lt_or_ge k (l n).length with h | h
    · rw [hget k n h]
      simp [upTo, h]
    · rw [List.getElem?_eq_none h, List.getElem?_eq_none (by simpa [upTo] using h)]
  · intro k n hk
    obtain ⟨m, g1, g2, g3⟩ := reach n (k - (l n).length)
    obtain ⟨a, ha⟩ := List.length_eq_one_iff.1 g3
    refine ⟨m, g1, by omega, ?_⟩
    have := hget k (m + 1) (by rw [hlen]; omega)
    rw [hs, ha, List.getElem?_append_right (by omega)] at this
    simp only [show k - (l m).length = 0 by omega, List.getElem?_cons_zero, Option.some.injEq] at this
    rw [ha, this]
  · intro k
    obtain ⟨m, _, g2, _⟩ := reach 0 k
    exact ⟨m, by rw [g2]; omega⟩

theorem doings_one (conf : Conf) (p : Plant) (a : PlantAct) : (p.doings conf a).length ≤ 1 := by
  have site : ∀ engine act, (siteOps conf engine act).length ≤ 1 := by
    intro engine act
    cases act with
    | engine a =>
      cases engine with
      | none => simp [siteOps, newCalls]
      | some s =>
        simp only [siteOps, newCalls]
        rcases sent_step s a with h | ⟨es, h⟩ <;> simp [h]
    | _ => simp [siteOps]
  cases a with
  | left act => simpa [Plant.doings] using site p.left act
  | right act => simpa [Plant.doings] using site p.right act
  | fore act => simp [Plant.doings]
  | back act => simp [Plant.doings]

/-- The backends and connections of servers with engines, as an endless schedule. -/
theorem plant_goOn {conf : Conf} {left right : Int} {acts : Nat → PlantAct}
    (hr : ∀ n, Running conf left right (upTo acts n)) {N : Nat} (h : KeepOn conf left right acts N) :
    ∃ f : Nat → PairAct, (∀ k, Matched conf left right (upTo f k)) ∧ (∀ k, OnePlan conf (upTo f k)) ∧
      (∀ k, BothInOrder conf left right (upTo f k)) ∧
      GoOn conf left right f (Plant.run conf left right (upTo acts N)).past.length ∧
      (∀ n, (Plant.run conf left right (upTo acts n)).pair =
        (Pair.new conf left right).run (upTo f (Plant.run conf left right (upTo acts n)).past.length)) ∧
      ∀ k, ∃ m, N ≤ m ∧ ∀ n, m ≤ n → k ≤ (Plant.run conf left right (upTo acts n)).past.length := by
  have hstep : ∀ n, Plant.run conf left right (upTo acts (n + 1)) =
      (Plant.run conf left right (upTo acts n)).step conf left right (acts n) := by
    intro n
    rw [upTo_succ, plant_snoc]
  have hnew : ∀ n a, acts n = a → ∀ x, (Plant.run conf left right (upTo acts n)).doings conf a = [x] →
      (Plant.run conf left right (upTo acts n)).doings conf (acts n) = [x] := fun n a h x hx => by rw [h, hx]
  obtain ⟨f, f1, f2, f3, f4⟩ := endless (fun n => (Plant.run conf left right (upTo acts n)).past)
    (fun n => (Plant.run conf left right (upTo acts n)).doings conf (acts n)) rfl
    (fun n => by simp only [hstep]; rfl) (fun n => doings_one conf _ _) (fun n => by
      obtain ⟨m, h1, h2⟩ := h.flushL n
      exact ⟨m, h1, by rw [h2]; simp [Plant.doings, siteOps]⟩)
  have f4 : ∀ m n, m ≤ n → (Plant.run conf left right (upTo acts m)).past.length ≤
      (Plant.run conf left right (upTo acts n)).past.length := by
    intro m n h
    induction n, h using Nat.le_induction with
    | base => exact Nat.le_refl _
    | succ n _ ih => exact Nat.le_trans ih (f4 n)
  have hat : ∀ k, ∃ n, upTo f k = (Plant.run conf left right (upTo acts n)).past := by
    intro k
    obtain ⟨m, _, g2, _⟩ := f2 k 0 (by simp [upTo, Plant.run, Plant.new])
    exact ⟨m, by rw [f1 m, g2]⟩
  have ok := fun n => C89_order conf left right _ (hr n)
  have hpair : ∀ n, (Plant.run conf left right (upTo acts n)).pair =
        (Pair.new conf left right).run (upTo f (Plant.run conf left right (upTo acts n)).past.length) := by
    intro n
    rw [← f1 n]; exact (ok n).1
  have often : ∀ a x, Often acts a → (∀ p : Plant, p.doings conf a = [x]) → Often f x := by
    intro a x hoft hd k
    obtain ⟨m, hm⟩ := f3 k
    obtain ⟨n, h1, h2⟩ := hoft m
    refine ⟨(Plant.run conf left right (upTo acts n)).past.length, Nat.le_trans hm (f4 m n h1), ?_⟩
    have hx := hnew n a h2 x (hd _)
    have h3 := f1 (n + 1)
    have h4 : (Plant.run conf left right (upTo acts (n + 1))).past =
        (Plant.run conf left right (upTo acts n)).past ++ [x] := by rw [hstep, ← hx]; rfl
    simp only [h4] at h3
    rw [List.length_append, List.length_singleton, upTo_succ] at h3
    exact (List.singleton_inj.1 (List.append_inj_right h3 (by simp [upTo]))).symm
  have later : ∀ k, (Plant.run conf left right (upTo acts N)).past.length ≤ k → ∃ n, N ≤ n ∧
      (Plant.run conf left right (upTo acts n)).past.length = k ∧
      (Plant.run conf left right (upTo acts n)).doings conf (acts n) = [f k] := fun k hk => f2 k N hk
  refine ⟨f, fun k => ?_, fun k => ?_, fun k => ?_, ⟨fun k hk => ?_, fun k hk => ?_, fun k hk es heq => ?_,
    fun k hk es heq => ?_, fun act ha => often _ _ (h.fore act ha) fun p => rfl,
    fun act ha => often _ _ (h.back act ha) fun p => rfl, often _ _ h.flushL fun p => rfl,
    often _ _ h.flushR fun p => rfl⟩, hpair, fun k => ?_⟩
  · obtain ⟨n, hn⟩ := hat k; rw [hn]; exact (ok n).2.1
  · obtain ⟨n, hn⟩ := hat k; rw [hn]; exact (ok n).2.2.1
  · obtain ⟨n, hn⟩ := hat k; rw [hn]; exact (ok n).2.2.2
  · obtain ⟨n, g1, g2, _⟩ := later k hk
    rw [← g2, ← hpair]; exact h.openF n g1
  · obtain ⟨n, g1, g2, _⟩ := later k hk
    rw [← g2, ← hpair]; exact h.openB n g1
  · obtain ⟨n, g1, _, g3⟩ := later k hk
    exact (h.none n g1 es).1 (by rw [g3, heq]; simp)
  · obtain ⟨n, g1, _, g3⟩ := later k hk
    exact (h.none n g1 es).2 (by rw [g3, heq]; simp)
  · obtain ⟨m, hm⟩ := f3 k
    exact ⟨max m N, Nat.le_max_right _ _, fun n hn => Nat.le_trans hm (f4 m n (by omega))⟩

/-- **C89** Servers whose engines register nothing more, with connections that stay, will have flushed everything and
received everything of each other, for good. -/
theorem C89_settles (conf : Conf) (left right : Int) (acts : Nat → PlantAct)
    (hr : ∀ n, Running conf left right (upTo acts n)) (N : Nat) (h : KeepOn conf left right acts N) :
    ∃ m, N ≤ m ∧ ∀ n, m ≤ n → Settled (Plant.run conf left right (upTo acts n)).pair := by
  obtain ⟨f, f1, f2, f3, f4, f5, f6⟩ := plant_goOn hr h
  obtain ⟨k, _, hk⟩ := C88_settled conf left right f f1 f3 _ f4
  obtain ⟨m, h1, h2⟩ := f6 k
  exact ⟨m, h1, fun n hn => by rw [f5]; exact hk _ (h2 n hn)⟩

/-- **C89** From some time on they answer latest queries alike, if none of their events tie. -/
theorem C89_settles_latest (conf : Conf) (left right : Int) (acts : Nat → PlantAct)
    (hr : ∀ n, Running conf left right (upTo acts n)) (N : Nat) (h : KeepOn conf left right acts N)
    (hn : NoTies left right (Plant.run conf left right (upTo acts N)).pair) :
    ∃ m, ∀ n, m ≤ n → ∃ events events',
      (Plant.run conf left right (upTo acts n)).pair.left.query (.latest none) = .ok ⟨events, false⟩ ∧
      (Plant.run conf left right (upTo acts n)).pair.right.query (.latest none) = .ok ⟨events', false⟩ ∧
      events.Perm events' := by
  obtain ⟨f, f1, f2, f3, f4, f5, f6⟩ := plant_goOn hr h
  rw [f5] at hn
  obtain ⟨k, hk⟩ := C88_latest conf left right f f1 f3 _ f4 hn
  obtain ⟨m, _, h2⟩ := f6 k
  exact ⟨m, fun n hn => by rw [f5]; exact hk _ (h2 n hn)⟩

/-- **C89** From some time on they return the same timeseries, with python subscriptions and partitions without a
limit. -/
theorem C89_settles_lists (conf : Conf) (left right : Int) (acts : Nat → PlantAct)
    (hr : ∀ n, Running conf left right (upTo acts n)) (N : Nat) (h : KeepOn conf left right acts N)
    (hu : conf.useC = false) :
    ∃ m, ∀ n, m ≤ n → ∀ q, TsParamsOk conf q → (∀ part ∈ conf.partitions, Related q part → part.limit = none) →
      0 < tsPage conf q.maxResults →
      let p := (Plant.run conf left right (upTo acts n)).pair
      let query := fun (b : Backend) i => b.query (.timeseries { q with lastEventId := i })
      ∃ full full', (Pages (query p.left) none full ∧ ∀ r, Pages (query p.left) none r → r = full) ∧
        (Pages (query p.right) none full' ∧ ∀ r, Pages (query p.right) none r → r = full') ∧ full.Perm full' := by
  obtain ⟨f, f1, f2, f3, f4, f5, f6⟩ := plant_goOn hr h
  obtain ⟨k, hk⟩ := C88_lists conf left right f f1 f2 f3 _ f4 hu
  obtain ⟨m, _, h2⟩ := f6 k
  exact ⟨m, fun n hn => by rw [f5]; exact hk _ (h2 n hn)⟩

/-! ## Examples -/

/-- An engine without modules handles a request. -/
def exHandle (site : SiteAct → PlantAct) (t : Int) : List PlantAct :=
  [site (.engine (.take (exAt t))), site (.engine .next), site (.engine .next), site (.engine .next),
    site (.engine (.registered .same (exAt t)))]

/-- A new engine. -/
def exBegin (site : SiteAct → PlantAct) (t : Int) : List PlantAct :=
  [site (.start []), site (.engine .spawn)] ++ exHandle site t

/-- A client connects, asks and receives the answer. -/
def exMeet (link : SideAct → PlantAct) : List PlantAct :=
  [link .connect, link .notify, link .advance, link .serve, link .deliver, link .deliver, link .advance, link .advance,
    link .advance, link .advance, link .advance]

/-- The left server has an engine and ends with an event that is not flushed; the right server has received what was
flushed and gets an engine; the left server comes back, catches up and has an engine again, with ids it used before. -/
def exPlant : List PlantAct :=
  [.left .restart, .right .restart] ++ exBegin .left 1 ++ [.left .flush] ++ exMeet .fore ++
    [.left (.engine (.register ⟨.eventer, 3⟩ [⟨["a"], none, none⟩]))] ++ exHandle .left 2 ++
    [.left .flush, .fore .notify, .fore .deliver, .left (.engine (.register ⟨.eventer, 3⟩ [⟨["c"], none, none⟩]))] ++
    exHandle .left 3 ++ [.left .restart] ++ exBegin .right 3 ++ [.right .flush, .back .notify, .back .notify,
      .back .notify] ++ exMeet .back ++ exMeet .fore ++
    exBegin .left 5 ++ [.left .flush, .fore .notify, .fore .notify, .fore .deliver, .right .flush, .back .notify]

set_option maxRecDepth 100000 in
theorem exPlant_settled : Settled (Plant.run exSeries 7 8 exPlant).pair :=
  ⟨rfl, rfl, ⟨rfl, rfl, rfl⟩, ⟨rfl, rfl, rfl⟩, rfl, rfl⟩

/-- Calls of `register` in a history. -/
def exCalls (acts : List PairAct) : List (List Event) :=
  acts.filterMap fun a => match a with
    | .left (.register es) => some es
    | .right (.register es) => some es
    | _ => none

set_option maxRecDepth 100000 in
theorem exPlant_calls : exCalls (Plant.run exSeries 7 8 exPlant).past =
    [[⟨⟨7, 1, 1⟩, ["event", "7", "engine"], exAt 1, none, some (.json (.str "STARTED"))⟩],
      [⟨⟨7, 2, 1⟩, ["a"], exAt 2, none, none⟩], [⟨⟨7, 3, 1⟩, ["c"], exAt 3, none, none⟩],
      [⟨⟨8, 1, 1⟩, ["event", "8", "engine"], exAt 3, none, some (.json (.str "STARTED"))⟩],
      [⟨⟨7, 3, 1⟩, ["event", "7", "engine"], exAt 5, none, some (.json (.str "STARTED"))⟩]] := rfl

theorem exCalls_mem {acts : List PairAct} {es : List Event}
    (h : .left (.register es) ∈ acts ∨ .right (.register es) ∈ acts) : es ∈ exCalls acts := by
  unfold exCalls
  rw [List.mem_filterMap]
  rcases h with h | h
  · exact ⟨_, h, rfl⟩
  · exact ⟨_, h, rfl⟩

theorem exWanted (e : Event) : Wanted exSeries e := by
  refine ⟨rfl, _, List.mem_cons_self, ?_, e.timestamp, rfl⟩
  show nodeMatches e.type _ = true
  cases e.type <;> rfl

set_option maxRecDepth 100000 in
theorem exPlant_running : Running exSeries 7 8 exPlant := by
  have hl : (leftActs exPlant).filterMap siteClock =
    [exAt 1, exAt 1, exAt 2, exAt 2, exAt 3, exAt 3, exAt 5, exAt 5] := rfl
  have hr : (rightActs exPlant).filterMap siteClock = [exAt 3, exAt 3] := rfl
  refine ⟨by decide, exSeries_laws.1 _ (by simp), exSeries_laws.2, ⟨?_, ?_⟩, ⟨?_, ?_⟩, fun es he e hes => ⟨?_, exWanted e⟩⟩
  · rw [hl]; simp [TimeLe, TimeLt, exAt]
  · rw [hl]; simp [TimeLe, TimeLt, exAt, minTimestamp]
  · rw [hr]; simp [TimeLe]
  · rw [hr]; simp [TimeLe, TimeLt, exAt, minTimestamp]
  · have := exCalls_mem he
    rw [exPlant_calls] at this
    simp only [List.mem_cons, List.not_mem_nil, or_false] at this
    rcases this with rfl | rfl | rfl | rfl | rfl <;>
      (simp only [List.mem_singleton] at hes; subst hes
       simp [Ordinary, TimeLe, TimeLt, maxTimestamp, maxId, exAt])

/-- The assumptions of `C89_order` hold for it; ids were used twice. -/
example : BothInOrder exSeries 7 8 (Plant.run exSeries 7 8 exPlant).past :=
  (C89_order exSeries 7 8 exPlant exPlant_running).2.2.2

set_option maxRecDepth 100000 in
/-- The assumptions of `C89_latest` hold for it. -/
example : ∃ events events',
    (Plant.run exSeries 7 8 exPlant).pair.left.query (.latest none) = .ok ⟨events, false⟩ ∧
      (Plant.run exSeries 7 8 exPlant).pair.right.query (.latest none) = .ok ⟨events', false⟩ ∧ events.Perm events' := by
  refine C89_latest exSeries 7 8 exPlant exPlant_running exPlant_settled ?_
  have h1 : ofServer 7 (told (Plant.run exSeries 7 8 exPlant).pair.left) =
    [⟨⟨7, 1, 1⟩, ["event", "7", "engine"], exAt 1, none, some (.json (.str "STARTED"))⟩,
      ⟨⟨7, 2, 1⟩, ["a"], exAt 2, none, none⟩,
      ⟨⟨7, 3, 1⟩, ["event", "7", "engine"], exAt 5, none, some (.json (.str "STARTED"))⟩] := rfl
  have h2 : ofServer 8 (told (Plant.run exSeries 7 8 exPlant).pair.right) =
    [⟨⟨8, 1, 1⟩, ["event", "8", "engine"], exAt 3, none, some (.json (.str "STARTED"))⟩] := rfl
  intro x hx y hy
  rw [h1] at hx
  rw [h2] at hy
  simp only [List.mem_cons, List.not_mem_nil, or_false] at hx hy
  subst hy
  rcases hx with rfl | rfl | rfl <;> simp

/-- The assumptions of `C89_lists` hold for it. -/
example : ∃ full full', Pages (fun i => (Plant.run exSeries 7 8 exPlant).pair.left.query
      (.timeseries { exSince with lastEventId := i })) none full ∧
    Pages (fun i => (Plant.run exSeries 7 8 exPlant).pair.right.query
      (.timeseries { exSince with lastEventId := i })) none full' ∧ full.Perm full' := by
  obtain ⟨full, full', ⟨h1, _⟩, ⟨h2, _⟩, h3⟩ := C89_lists exSeries 7 8 exPlant exPlant_running exPlant_settled rfl exSince
    exSince_ok
    (by
      intro part hp _
      simp only [exSeries, exConf, List.mem_cons, List.not_mem_nil, or_false] at hp
      rcases hp with rfl | rfl <;> rfl) (by decide)
  exact ⟨full, full', h1, h2, h3⟩

/-- Everything but the engines goes on. -/
def exPlantRounds : List PlantAct :=
  [.left .flush, .right .flush, .fore .notify, .fore .serve, .fore .deliver, .fore .advance, .back .notify, .back .serve,
    .back .deliver, .back .advance]

/-- As `exPlant`, and everything but the engines goes on for ever. -/
def exPlantForever : Nat → PlantAct := exForever exPlant exPlantRounds (by simp [exPlantRounds])

theorem exPlantRounds_doings (p : Plant) {a : PlantAct} (h : a ∈ exPlantRounds) :
    (∃ x ∈ exRounds, p.doings exSeries a = [x]) ∧ (leftActs [a] = [] ∨ leftActs [a] = [.flush]) ∧
      (rightActs [a] = [] ∨ rightActs [a] = [.flush]) := by
  simp only [exPlantRounds, List.mem_cons, List.not_mem_nil, or_false] at h
  rcases h with rfl | rfl | rfl | rfl | rfl | rfl | rfl | rfl | rfl | rfl <;>
    exact ⟨⟨_, by simp [exRounds], rfl⟩, by simp [leftActs], by simp [rightActs]⟩

theorem clock_more {l new : List SiteAct} (h : Clock l) (hn : new = [] ∨ new = [.flush]) : Clock (l ++ new) := by
  have : (l ++ new).filterMap siteClock = l.filterMap siteClock := by
    rw [List.filterMap_append]
    rcases hn with rfl | rfl <;> simp [siteClock]
  exact ⟨by rw [this]; exact h.onward, by rw [this]; exact h.valid⟩

theorem running_rounds {acts : List PlantAct} (h : Running exSeries 7 8 acts) {a : PlantAct} (ha : a ∈ exPlantRounds) :
    Running exSeries 7 8 (acts ++ [a]) := by
  obtain ⟨⟨x, hx, hd⟩, h1, h2⟩ := exPlantRounds_doings (Plant.run exSeries 7 8 acts) ha
  refine ⟨h.different, h.law, h.series, ?_, ?_, ?_⟩
  · unfold leftActs at h1 ⊢
    rw [List.filterMap_append]
    exact clock_more h.clockL h1
  · unfold rightActs at h2 ⊢
    rw [List.filterMap_append]
    exact clock_more h.clockR h2
  · rw [plant_snoc]
    show ∀ es, (_ ∈ (Plant.run exSeries 7 8 acts).past ++ (Plant.run exSeries 7 8 acts).doings exSeries a ∨
      _ ∈ (Plant.run exSeries 7 8 acts).past ++ (Plant.run exSeries 7 8 acts).doings exSeries a) → _
    rw [hd]
    intro es he
    refine h.stored es (he.imp ?_ ?_) <;> intro hm <;> rcases List.mem_append.1 hm with hm | hm
    · exact hm
    · simp [exRounds, ← List.mem_singleton.1 hm] at hx
    · exact hm
    · simp [exRounds, ← List.mem_singleton.1 hm] at hx

set_option maxRecDepth 100000 in
theorem exPlant_rests {more : List PlantAct} (h : ∀ a ∈ more, a ∈ exPlantRounds) :
    (Plant.run exSeries 7 8 (exPlant ++ more)).pair = (Plant.run exSeries 7 8 exPlant).pair ∧
      Running exSeries 7 8 (exPlant ++ more) := by
  induction more using List.reverseRecOn with
  | nil => rw [List.append_nil]; exact ⟨rfl, exPlant_running⟩
  | append_singleton more a ih =>
    obtain ⟨h1, h2⟩ := ih fun b hb => h b (by simp [hb])
    rw [← List.append_assoc]
    refine ⟨?_, running_rounds h2 (h a (by simp))⟩
    obtain ⟨⟨x, hx, hd⟩, _⟩ := exPlantRounds_doings (Plant.run exSeries 7 8 (exPlant ++ more)) (h a (by simp))
    rw [plant_snoc]
    show (Plant.run exSeries 7 8 (exPlant ++ more)).pair.run
      ((Plant.run exSeries 7 8 (exPlant ++ more)).doings exSeries a) = _
    rw [hd, h1]
    exact pair_rests (p := (Plant.run exSeries 7 8 exPlant).pair) rfl rfl ⟨rfl, rfl, rfl, rfl, rfl⟩
      ⟨rfl, rfl, rfl, rfl, rfl⟩ ⟨⟨rfl, rfl, rfl⟩, rfl⟩ ⟨⟨rfl, rfl, rfl⟩, rfl⟩ x hx

theorem Spec.Running.of_prefix {conf : Conf} {left right : Int} {acts more : List PlantAct}
    (h : Running conf left right (acts ++ more)) : Running conf left right acts := by
  induction more using List.reverseRecOn with
  | nil => rwa [List.append_nil] at h
  | append_singleton more a ih => exact ih (by rw [← List.append_assoc] at h; exact h.prefix)

theorem exPlant_length : exPlant.length = 83 := rfl

theorem exPlantForever_running (n : Nat) : Running exSeries 7 8 (upTo exPlantForever n) := by
  rcases Nat.le_total n exPlant.length with h | h
  · rw [show upTo exPlantForever n = exPlant.take n from exForever_upTo h]
    refine Running.of_prefix (more := exPlant.drop n) ?_
    rw [List.take_append_drop]
    exact exPlant_running
  · obtain ⟨k, rfl⟩ := Nat.exists_eq_add_of_le h
    obtain ⟨more, h1, h2⟩ := exForever_more (pre := exPlant) (cycle := exPlantRounds) (hc := by simp [exPlantRounds]) k
    rw [show upTo exPlantForever (exPlant.length + k) = exPlant ++ more from h1]
    exact (exPlant_rests h2).2

set_option maxRecDepth 100000 in
/-- The engines register nothing after the last restart of the left one. -/
theorem exPlantForever_keepOn : KeepOn exSeries 7 8 exPlantForever 77 := by
  have later : ∀ {P : Pair → Prop}, (∀ i, 77 ≤ i → i ≤ 83 → P (Plant.run exSeries 7 8 (exPlant.take i)).pair) →
      ∀ n, 77 ≤ n → P (Plant.run exSeries 7 8 (upTo exPlantForever n)).pair := by
    intro P h n hn
    rcases Nat.le_total n exPlant.length with hl | hl
    · rw [show upTo exPlantForever n = exPlant.take n from exForever_upTo hl]
      exact h n hn (by rw [exPlant_length] at hl; exact hl)
    · obtain ⟨k, rfl⟩ := Nat.exists_eq_add_of_le hl
      obtain ⟨more, h1, h2⟩ := exForever_more (pre := exPlant) (cycle := exPlantRounds) (hc := by simp [exPlantRounds]) k
      rw [show upTo exPlantForever (exPlant.length + k) = exPlant ++ more from h1, (exPlant_rests h2).1]
      have := h 83 (by omega) (by omega)
      rwa [List.take_of_length_le (by rw [exPlant_length])] at this
  have none : ∀ n, 77 ≤ n → exPlantForever n ∈ exPlantRounds := by
    intro n hn
    rcases Nat.lt_or_ge n 83 with h | h
    · interval_cases n <;> simp [exPlantForever, exForever, exPlant, exMeet, exBegin, exHandle, exPlantRounds]
    · obtain ⟨k, rfl⟩ := Nat.exists_eq_add_of_le h
      exact exForever_after (pre := exPlant) k
  refine ⟨later (P := fun p => p.fore.closed = false) fun i h1 h2 => ?_,
    later (P := fun p => p.back.closed = false) fun i h1 h2 => ?_, fun n hn es => ?_, fun act ha => exForever_often ?_,
    fun act ha => exForever_often ?_, exForever_often (by simp [exPlantRounds]), exForever_often (by simp [exPlantRounds])⟩
  · interval_cases i <;> rfl
  · interval_cases i <;> rfl
  · obtain ⟨⟨x, hx, hd⟩, _⟩ := exPlantRounds_doings (Plant.run exSeries 7 8 (upTo exPlantForever n)) (none n hn)
    rw [hd]
    constructor <;> (intro hm; rw [← List.mem_singleton.1 hm] at hx; simp [exRounds] at hx)
  · simp only [List.mem_cons, List.not_mem_nil, or_false] at ha
    rcases ha with rfl | rfl | rfl | rfl <;> simp [exPlantRounds]
  · simp only [List.mem_cons, List.not_mem_nil, or_false] at ha
    rcases ha with rfl | rfl | rfl | rfl <;> simp [exPlantRounds]

/-- The assumptions of `C89_settles` hold for it; at that time it is not settled. -/
example : ∃ m, 77 ≤ m ∧ ∀ n, m ≤ n → Settled (Plant.run exSeries 7 8 (upTo exPlantForever n)).pair :=
  C89_settles _ _ _ _ exPlantForever_running 77 exPlantForever_keepOn

set_option maxRecDepth 100000 in
example : ¬ Settled (Plant.run exSeries 7 8 (upTo exPlantForever 77)).pair := by
  have h1 : (told (Plant.run exSeries 7 8 (upTo exPlantForever 77)).pair.left).length = 4 := rfl
  have h2 : (Plant.run exSeries 7 8 (upTo exPlantForever 77)).pair.left.flushedCb.flatten.length = 2 := rfl
  intro h
  rw [h.flushedL] at h1
  omega

set_option maxRecDepth 100000 in
/-- The assumptions of `C89_settles_latest` hold for it. -/
example : ∃ m, ∀ n, m ≤ n → ∃ events events',
    (Plant.run exSeries 7 8 (upTo exPlantForever n)).pair.left.query (.latest none) = .ok ⟨events, false⟩ ∧
      (Plant.run exSeries 7 8 (upTo exPlantForever n)).pair.right.query (.latest none) = .ok ⟨events', false⟩ ∧
      events.Perm events' := by
  refine C89_settles_latest _ _ _ _ exPlantForever_running 77 exPlantForever_keepOn ?_
  have h1 : ofServer 7 (told (Plant.run exSeries 7 8 (upTo exPlantForever 77)).pair.left) =
    [⟨⟨7, 1, 1⟩, ["event", "7", "engine"], exAt 1, none, some (.json (.str "STARTED"))⟩,
      ⟨⟨7, 2, 1⟩, ["a"], exAt 2, none, none⟩,
      ⟨⟨7, 3, 1⟩, ["event", "7", "engine"], exAt 5, none, some (.json (.str "STARTED"))⟩] := rfl
  have h2 : ofServer 8 (told (Plant.run exSeries 7 8 (upTo exPlantForever 77)).pair.right) =
    [⟨⟨8, 1, 1⟩, ["event", "8", "engine"], exAt 3, none, some (.json (.str "STARTED"))⟩] := rfl
  intro x hx y hy
  rw [h1] at hx
  rw [h2] at hy
  simp only [List.mem_cons, List.not_mem_nil, or_false] at hx hy
  subst hy
  rcases hx with rfl | rfl | rfl <;> simp

/-- The assumptions of `C89_settles_lists` hold for it. -/
example : ∃ m, ∀ n, m ≤ n → ∃ full full', Pages (fun i => (Plant.run exSeries 7 8 (upTo exPlantForever n)).pair.left.query
      (.timeseries { exSince with lastEventId := i })) none full ∧
    Pages (fun i => (Plant.run exSeries 7 8 (upTo exPlantForever n)).pair.right.query
      (.timeseries { exSince with lastEventId := i })) none full' ∧ full.Perm full' := by
  obtain ⟨m, hm⟩ := C89_settles_lists _ _ _ _ exPlantForever_running 77 exPlantForever_keepOn rfl
  refine ⟨m, fun n hn => ?_⟩
  obtain ⟨full, full', ⟨h1, _⟩, ⟨h2, _⟩, h3⟩ := hm n hn exSince exSince_ok
    (by
      intro part hp _
      simp only [exSeries, exConf, List.mem_cons, List.not_mem_nil, or_false] at hp
      rcases hp with rfl | rfl <;> rfl) (by decide)
  exact ⟨full, full', h1, h2, h3⟩

end HatEvent
