import Verif.Props.Duo
import Verif.Props.ReadSeries

/-!
# C87: servers that have caught up with each other have the same timeseries
-/

namespace HatEvent
open Spec

/-- The servers always use one configuration, which has acceptable partitions, and register ordinary events. -/
structure Spec.OnePlan (conf : Conf) (acts : List PairAct) : Prop where
  confs : ∀ c, (.left (.reopen c) ∈ acts ∨ .right (.reopen c) ∈ acts) → c = conf
  series : TsConfs [.reopen conf]
  events : ∀ es, (.left (.register es) ∈ acts ∨ .right (.register es) ∈ acts) → ∀ e ∈ es, Ordinary e

/-- Some partition takes the event. -/
def Wanted (conf : Conf) (e : Event) : Prop :=
  conf.conditions e = true ∧ ∃ part ∈ conf.partitions, part.subscription.matches e.type = true ∧
    ∃ t, orderTimestamp part.orderBy e = some t

/-- What is assumed. -/
def plan (conf : Conf) : Terms := ⟨Wanted conf, Ordinary, fun c => c = conf⟩

theorem part_valid {conf : Conf} (h : TsConfs [.reopen conf]) {x : Partition} (hx : x ∈ conf.partitions) :
    x.subscription.Valid := by
  obtain ⟨i, qs, a1, a2⟩ := (h conf (by simp)).2 x hx
  exact (Obtainable.create a1 a2).valid

theorem takes_wanted {conf : Conf} (h : TsConfs [.reopen conf]) {e : Event} (he : Wanted conf e) : Takes conf e := by
  intro parts hp
  obtain ⟨h1, part, h2, h3, t, h4⟩ := he
  obtain ⟨i, q, q1, q2, q3⟩ := hp.2.2 part h2
  refine ⟨h1, ⟨i, t, e.id⟩, rfl, q, q1, ?_, ?_⟩
  · rw [Sub.matches_iff_queryTypes (part_valid h h2)] at h3
    rw [Sub.matches_iff_queryTypes (part_valid h (hp.2.1 i q q1))]
    obtain ⟨y, y1, y2⟩ := h3
    exact ⟨y, q3.mem_iff.2 y1, y2⟩
  · rw [← q2] at h4
    cases hob : q.orderBy with
    | timestamp => rw [hob] at h4; exact .inl ⟨rfl, (Option.some.inj h4).symm⟩
    | sourceTimestamp => rw [hob] at h4; exact .inr ⟨rfl, h4⟩

/-- Two descriptions of one open backend have the same entries. -/
theorem same_entry {b : Backend} {w w' : World} (h : WorldRel b w) (h' : WorldRel b w') {m : Mem} (hm : b.mem = some m)
    (k : TimeseriesKey) : w.cur.entry k = w'.cur.entry k := by
  rw [(h.opened m hm).2.ts.entry, (h'.opened m hm).2.ts.entry]

/-- A backend with all its events flushed. -/
theorem flushed_in_order {T : Terms} {conf : Conf} {server : Int} {b : Backend} {w : World}
    (h : Primary conf T server b w) (hf : told b = b.flushedCb.flatten) (o : OrderBy) :
    PendingInOrder w.flushed w.cur o := by
  have hpend : pending b = [] := by
    rw [told_eq] at hf
    simpa using hf
  obtain ⟨l, l1, l2⟩ := h.fresh
  have hl : l = [] := by
    rw [List.eq_nil_iff_forall_not_mem]
    intro x hx
    have := l2 x hx
    rw [hpend] at this
    simp at this
  rw [hl, List.append_nil] at l1
  intro pre p post h1 h2
  rw [← l1, h1] at h2
  simp at h2

/-- An event in a timeseries of one server is stored by the other one. -/
theorem pair_kept {conf : Conf} {left right : Int} {p : Pair} {popsF sopsF popsB sopsB : List BackendOp}
    {wf wf' wb wb' : World} {sf sb : List Event}
    (h : PairOk conf (plan conf) left right p) (hs : Settled p)
    (hf : DuoOk conf (plan conf) left p.foreward popsF sopsF wf wf' sf)
    (hb : DuoOk conf (plan conf) right p.backward popsB sopsB wb wb' sb) {k : TimeseriesKey} {e : Event}
    (he : wf.cur.entry k = some e) (hw : Wanted conf e) {ps : List Partition} {s : InitPartitions}
    (hpsF : ∀ c, .reopen c ∈ sopsF → c.partitions = ps) (hpsB : ∀ c, .reopen c ∈ popsB → c.partitions = ps)
    (hi : initPartitions [] ps = .ok s) {k' : TimeseriesKey} (hk : KeptSeries s.result e k') :
    wb.cur.entry k' = some e := by
  obtain ⟨ml, hml⟩ := Option.ne_none_iff_exists'.1 (hf.live hs.openF).pmem
  obtain ⟨mr, hmr⟩ := Option.ne_none_iff_exists'.1 (hf.live hs.openF).smem
  have hrelL : WorldRel p.left wf := by rw [show p.left = _ from hf.primary]; exact hf.reachedP.rel
  have hrelR' : WorldRel p.right wf' := by rw [show p.right = _ from hf.standby]; exact hf.reachedS.rel
  have hrelR : WorldRel p.right wb := by rw [show p.right = _ from hb.primary]; exact hb.reachedP.rel
  have hrelL' : WorldRel p.left wb' := by rw [show p.left = _ from hb.standby]; exact hb.reachedS.rel
  have hlog := (hrelL.okC.entryId _ _ he).2.1
  rcases h.toldL e (hf.facts.logC e hlog) with hsrv | hsrv
  · have hpend : pending p.left = [] := by
      have := hs.flushedL
      rw [told_eq] at this
      simpa using this
    have hmem : e ∈ sf := by
      rw [hf.held]
      rcases hf.facts.entry k e he with h1 | h1
      · exact ⟨.inr ⟨k, h1⟩, hsrv⟩
      · rw [show pending p.foreward.primary = [] from hpend] at h1; simp at h1
    have live := hf.live hs.openF
    have hhas : Has conf (plan conf) wf'.cur e := by
      obtain ⟨pre, hsy⟩ := live.sync
      by_cases hl : IdLt p.foreward.link.last e.id
      · exact live.received.got e (hsy.quiet hs.quietF.1 hs.quietF.2.1 hs.quietF.2.2 hmem hl)
      · exact live.base e hmem (not_idLt.1 hl)
    rw [← same_entry hrelR' hrelR hmr]
    exact (hf.keptS ps hpsF s hi).1.kept e (hhas.2 hw) k' hk
  · have hlog' : e ∈ wb'.cur.log := by
      rw [same_entry hrelL hrelL' hml] at he
      exact (hrelL'.okC.entryId _ _ he).2.1
    have hall := hb.known e hlog' hsrv
    have hst : e ∈ wb.cur.log := hb.facts.takenC e (by
      rw [told_eq, ofServer_append]; exact List.mem_append_left _ hall) hw
    exact (hb.keptP ps hpsB s hi).1.kept e hst k' hk

theorem keepsFor_key {conf : Conf} {q : QueryTimeseriesParams} {e : Event} (h : KeepsFor conf q e)
    {parts : Dict Int Partition} (hc : Configured conf parts) {i : Int} {part : Partition}
    (hg : Dict.get parts i = some part) (ho : part.orderBy = q.orderBy) (hr : conf.useC = false → Related q part) :
    ∃ k, k.partition = i ∧ KeptSeries parts e k := by
  have hin := h.all part (hc.2.1 i part hg) ho hr
  obtain ⟨t, ht⟩ := h.dated
  refine ⟨⟨i, t, e.id⟩, rfl, ⟨rfl, part, hg, hin.1, ?_⟩, fun x hx => ?_⟩
  · rw [← ho] at ht
    cases hob : part.orderBy with
    | timestamp => rw [hob] at ht; exact .inl ⟨rfl, (Option.some.inj ht).symm⟩
    | sourceTimestamp => rw [hob] at ht; exact .inr ⟨rfl, ht⟩
  · obtain rfl := Option.some.inj (hg.symm.trans hx)
    exact hin.2

/-- The events of a query that is answered from a partition. -/
def ListedIn (conf : Conf) (st : Store) (q : QueryTimeseriesParams) (full : List Event) : Option Int → Prop
  | some i => SeriesList conf st i q full
  | none => full = []

/-- What is known of the backend of one of the servers. -/
structure SideFacts (conf : Conf) (b : Backend) (w : World) (parts : Dict Int Partition) : Prop where
  same : b.conf = conf
  known : w.partitions = parts
  configured : Configured conf parts
  pages : ∀ q : QueryTimeseriesParams, TsParamsOk conf q → 0 < tsPage conf q.maxResults →
    ∃ sel full, Selected conf parts q sel ∧ ListedIn conf w.cur q full sel ∧
      Pages (fun i => b.query (.timeseries { q with lastEventId := i })) none full ∧
      ∀ r, Pages (fun i => b.query (.timeseries { q with lastEventId := i })) none r → r = full

theorem side_facts {conf : Conf} {server : Int} {d : Duo} {pops sops : List BackendOp} {wp ws : World}
    {stored : List Event} (h : DuoOk conf (plan conf) server d pops sops wp ws stored) (hts : TsConfs [.reopen conf])
    (hm : d.primary.mem ≠ none) (hfl : told d.primary = d.primary.flushedCb.flatten) {s : InitPartitions}
    (hi : initPartitions [] conf.partitions = .ok s) : SideFacts conf d.primary wp s.result := by
  have hpops : ∀ c, .reopen c ∈ pops → c = conf := fun c hc => (h.confP c hc).other
  have hm' : ((Backend.new conf).run pops).mem ≠ none := h.primary ▸ hm
  have hopen : wp.isOpen = true := by
    rw [h.reachedP.rel.isOpen, Option.isSome_iff_ne_none]; exact hm'
  have hbc : ((Backend.new conf).run pops).conf = conf := hpops _ (run_conf conf pops hm')
  have hparts := reached_parts h.reachedP (fun c hc => by rw [hpops c hc]) hi hopen
  have hl : LookupLaws pops := fun c hc => (h.confP c hc).law
  have hc : TsConfs pops := fun c hc => by rw [hpops c hc]; exact hts conf (by simp)
  refine ⟨by rw [h.primary]; exact hbc, hparts, ?_, fun q hq hpos => ?_⟩
  · have := run_configured h.reachedP.run hopen
    rw [hparts, ← h.reachedP.rel.conf, hbc] at this
    exact this
  · have := pages_reached hl hc h.eventsP hm' h.reachedP q (by rw [hbc]; exact hq) (by rw [hbc]; exact hpos)
      (flushed_in_order h.facts hfl _)
    rw [hbc, hparts, ← h.primary] at this
    obtain ⟨sel, full, h1, h2, h3⟩ := this
    exact ⟨sel, full, h1, by cases sel <;> exact h2, h3⟩

theorem pair_plan {conf : Conf} {left right : Int} {acts : List PairAct} (ha : Matched conf left right acts)
    (hp : OnePlan conf acts) (ho : BothInOrder conf left right acts) :
    PairOk conf (plan conf) left right ((Pair.new conf left right).run acts) :=
  pairOk_run conf left right acts ha
    (fun c hc => by rw [hp.confs c hc]; exact ⟨fun _ he => takes_wanted hp.series he, rfl⟩) hp.events ho

theorem series_sub {conf : Conf} {left right : Int} {p : Pair} {popsF sopsF popsB sopsB : List BackendOp}
    {wf wf' wb wb' : World} {sf sb : List Event} (hts : TsConfs [.reopen conf])
    (h : PairOk conf (plan conf) left right p) (hs : Settled p)
    (hf : DuoOk conf (plan conf) left p.foreward popsF sopsF wf wf' sf)
    (hb : DuoOk conf (plan conf) right p.backward popsB sopsB wb wb' sb) {s : InitPartitions}
    (hi : initPartitions [] conf.partitions = .ok s) (hc : Configured conf s.result)
    {q : QueryTimeseriesParams} {sel sel' : Option Int} {full full' : List Event}
    (hsel : Selected conf s.result q sel) (hsel' : Selected conf s.result q sel')
    (hl : ListedIn conf wf.cur q full sel) (hl' : ListedIn conf wb.cur q full' sel') {e : Event} (hk : KeepsFor conf q e) (he : e ∈ full) : e ∈ full' := by
  have hpsF : ∀ c, .reopen c ∈ sopsF → c.partitions = conf.partitions := fun c hc => by rw [(hf.confS c hc).other]
  have hpsB : ∀ c, .reopen c ∈ popsB → c.partitions = conf.partitions := fun c hc => by rw [(hb.confP c hc).other]
  cases hsel with
  | none _ => rw [show full = [] from hl] at he; simp at he
  | some _ _ _ _ =>
    obtain ⟨⟨k, _, h2⟩, h3, h4⟩ := (SeriesList.mem hl e).1 he
    cases hsel' with
    | none hnone =>
      exfalso
      obtain ⟨part, t1, t2, t3⟩ := hk.taken
      obtain ⟨i, q', q1, q2, q3⟩ := hc.2.2 part t1
      refine hnone _ (Dict.mem_of_get q1) ⟨q2.trans t2, fun types ht => ⟨e.type, h4.types types ht, ?_⟩⟩
      rw [Sub.matches_iff_queryTypes (part_valid hts t1)] at t3
      rw [Sub.matches_iff_queryTypes (part_valid hts (hc.2.1 i q' q1))]
      obtain ⟨y, y1, y2⟩ := t3
      exact ⟨y, q3.mem_iff.2 y1, y2⟩
    | @some pr i' part post a1 a2 a3 a4 =>
      obtain ⟨k', k1, k2⟩ := keepsFor_key hk hc (Dict.get_of_mem (v := part) (k := i') hc.1 (by rw [a1]; simp)) a3 a4
      obtain ⟨pt, t1, t2, t3⟩ := hk.taken
      have hw : Wanted conf e := ⟨h3, pt, t1, t3, by rw [t2]; exact hk.dated⟩
      exact (SeriesList.mem hl' e).2 ⟨⟨k', k1, pair_kept h hs hf hb h2 hw hpsF hpsB hi k2⟩, h3, h4⟩

/-- The configurations of both servers have partitions with the same identifiers. -/
theorem pair_parts {conf : Conf} {left right : Int} {p : Pair} (h : PairOk conf (plan conf) left right p)
    (hs : Settled p) : ∃ s, initPartitions [] conf.partitions = .ok s := by
  obtain ⟨popsF, sopsF, wf, wf', sf, hf⟩ := h.fore
  rcases run_parts conf popsF (ps := conf.partitions) (fun c hc => by rw [(hf.confP c hc).other]) with
    ⟨_, h2⟩ | ⟨s, h1, _⟩
  · exact absurd h2 (hf.primary ▸ (hf.live hs.openF).pmem)
  · exact ⟨s, h1⟩

/-- **C87** for each event: both servers have flushed everything and received everything of the other one, whatever
happened before.  The pages of a timeseries query of both servers contain the same of the events that all partitions
of the query take and keep without a limit. -/
theorem C87_event (conf : Conf) (left right : Int) (acts : List PairAct) (ha : Matched conf left right acts)
    (hp : OnePlan conf acts) (ho : BothInOrder conf left right acts)
    (hs : Settled ((Pair.new conf left right).run acts)) (q : QueryTimeseriesParams) (hq : TsParamsOk conf q)
    (hpos : 0 < tsPage conf q.maxResults) :
    let p := (Pair.new conf left right).run acts
    let query := fun (b : Backend) i => b.query (.timeseries { q with lastEventId := i })
    ∃ full full', (Pages (query p.left) none full ∧ ∀ r, Pages (query p.left) none r → r = full) ∧
      (Pages (query p.right) none full' ∧ ∀ r, Pages (query p.right) none r → r = full') ∧
      ∀ e, KeepsFor conf q e → (e ∈ full ↔ e ∈ full') := by
  have h := pair_plan ha hp ho
  generalize (Pair.new conf left right).run acts = p at h hs ⊢
  intro p query
  obtain ⟨s, hi⟩ := pair_parts h hs
  obtain ⟨popsF, sopsF, wf, wf', sf, hf⟩ := h.fore
  obtain ⟨popsB, sopsB, wb, wb', sb, hb⟩ := h.back
  have fl := side_facts hf hp.series (hf.live hs.openF).pmem hs.flushedL hi
  have fr := side_facts hb hp.series (hf.live hs.openF).smem hs.flushedR hi
  obtain ⟨sel, full, a1, a2, a3, a4⟩ := fl.pages q hq hpos
  obtain ⟨sel', full', b1, b2, b3, b4⟩ := fr.pages q hq hpos
  refine ⟨full, full', ⟨a3, a4⟩, ⟨b3, b4⟩, fun e hk => ⟨fun he => ?_, fun he => ?_⟩⟩
  · exact series_sub hp.series h hs hf hb hi fl.configured a1 b1 a2 b2 hk he
  · exact series_sub hp.series h.mirror hs.mirror hb hf hi fl.configured b1 a1 b2 a2 hk he

/-- With python subscriptions there is one choice of a partition. -/
theorem selected_unique {conf : Conf} {parts : Dict Int Partition} {q : QueryTimeseriesParams} {sel sel' : Option Int}
    (hu : conf.useC = false) (h : Selected conf parts q sel) (h' : Selected conf parts q sel') : sel = sel' := by
  have key : ∀ (l l' r r' : List (Int × Partition)) (x y : Int × Partition), l ++ x :: r = l' ++ y :: r' →
      (∀ z ∈ l, ¬ Related q z.2) → (∀ z ∈ l', ¬ Related q z.2) → Related q x.2 → Related q y.2 → x = y := by
    intro l
    induction l with
    | nil =>
      intro l' r r' x y h _ h2 h3 _
      cases l' with
      | nil => exact (List.cons.inj h).1
      | cons z l' => exact absurd ((List.cons.inj h).1 ▸ h3) (h2 z (by simp))
    | cons z l ih =>
      intro l' r r' x y h h1 h2 h3 h4
      cases l' with
      | nil => exact absurd ((List.cons.inj h).1.symm ▸ h4) (h1 z (by simp))
      | cons z' l' =>
        exact ih l' r r' x y (List.cons.inj h).2 (fun w hw => h1 w (by simp [hw])) (fun w hw => h2 w (by simp [hw])) h3
          h4
  cases h with
  | some a1 a2 a3 a4 =>
    cases h' with
    | some b1 b2 b3 b4 =>
      exact congrArg some (Prod.ext_iff.1 (key _ _ _ _ _ _ (a1.symm.trans b1) a2 b2 (a4 hu) (b4 hu))).1
    | none b => exact absurd (a4 hu) (b (_, _) (by rw [a1]; exact List.mem_append_right _ List.mem_cons_self))
  | none a =>
    cases h' with
    | some b1 b2 b3 b4 =>
      exact absurd (b4 hu) (a (_, _) (by rw [b1]; exact List.mem_append_right _ List.mem_cons_self))
    | none b => rfl

theorem chosen_sub {conf : Conf} {left right : Int} {p : Pair} {popsF sopsF popsB sopsB : List BackendOp}
    {wf wf' wb wb' : World} {sf sb : List Event}
    (h : PairOk conf (plan conf) left right p) (hs : Settled p)
    (hf : DuoOk conf (plan conf) left p.foreward popsF sopsF wf wf' sf)
    (hb : DuoOk conf (plan conf) right p.backward popsB sopsB wb wb' sb) {s : InitPartitions}
    (hi : initPartitions [] conf.partitions = .ok s) (hc : Configured conf s.result)
    {q : QueryTimeseriesParams} (hlim : ∀ part ∈ conf.partitions, Related q part → part.limit = none)
    (hu : conf.useC = false) {sel : Option Int} {full full' : List Event}
    (hsel : Selected conf s.result q sel) (hl : ListedIn conf wf.cur q full sel)
    (hl' : ListedIn conf wb.cur q full' sel) {e : Event} (he : e ∈ full) : e ∈ full' := by
  have hpsF : ∀ c, .reopen c ∈ sopsF → c.partitions = conf.partitions := fun c hc => by rw [(hf.confS c hc).other]
  have hpsB : ∀ c, .reopen c ∈ popsB → c.partitions = conf.partitions := fun c hc => by rw [(hb.confP c hc).other]
  have hpsL : ∀ c, .reopen c ∈ popsF → c.partitions = conf.partitions := fun c hc => by rw [(hf.confP c hc).other]
  cases hsel with
  | none _ => rw [show full = [] from hl] at he; simp at he
  | @some pr i part post a1 a2 a3 a4 =>
    obtain ⟨⟨k, h1, h2⟩, h3, h4⟩ := (SeriesList.mem hl e).1 he
    have hin := (hf.keptP conf.partitions hpsL s hi).1.series k e h2
    have hg : Dict.get s.result i = some part := Dict.get_of_mem hc.1 (by rw [a1]; simp)
    have hpart := hc.2.1 i part hg
    have hin' := hin
    obtain ⟨hid, part', g1, g2, g3⟩ := hin'
    rw [h1, hg] at g1
    obtain rfl := Option.some.inj g1
    have hkept : KeptSeries s.result e k := ⟨hin, fun x hx => by
      rw [h1, hg] at hx
      obtain rfl := Option.some.inj hx
      exact hlim part hpart (a4 hu)⟩
    have hw : Wanted conf e := by
      refine ⟨h3, part, hpart, g2, ?_⟩
      rcases g3 with ⟨g4, _⟩ | ⟨g4, g5⟩
      · exact ⟨_, by rw [g4]; rfl⟩
      · exact ⟨_, by rw [g4]; exact g5⟩
    exact (SeriesList.mem hl' e).2 ⟨⟨k, h1, pair_kept h hs hf hb h2 hw hpsF hpsB hi hkept⟩, h3, h4⟩

theorem SeriesList.nodup {conf : Conf} {st : Store} {i : Int} {q : QueryTimeseriesParams} {full : List Event}
    (h : SeriesList conf st i q full) : full.Nodup :=
  h.unique.imp fun hne heq => hne (by rw [heq])

/-- **C87** for the whole result, with python subscriptions: if partitions for the query have no limit, both servers
return the same events. -/
theorem C87_lists (conf : Conf) (left right : Int) (acts : List PairAct) (ha : Matched conf left right acts)
    (hp : OnePlan conf acts) (ho : BothInOrder conf left right acts)
    (hs : Settled ((Pair.new conf left right).run acts)) (hu : conf.useC = false) (q : QueryTimeseriesParams)
    (hq : TsParamsOk conf q) (hlim : ∀ part ∈ conf.partitions, Related q part → part.limit = none)
    (hpos : 0 < tsPage conf q.maxResults) :
    let p := (Pair.new conf left right).run acts
    let query := fun (b : Backend) i => b.query (.timeseries { q with lastEventId := i })
    ∃ full full', (Pages (query p.left) none full ∧ ∀ r, Pages (query p.left) none r → r = full) ∧
      (Pages (query p.right) none full' ∧ ∀ r, Pages (query p.right) none r → r = full') ∧ full.Perm full' := by
  have h := pair_plan ha hp ho
  generalize (Pair.new conf left right).run acts = p at h hs ⊢
  intro p query
  obtain ⟨s, hi⟩ := pair_parts h hs
  obtain ⟨popsF, sopsF, wf, wf', sf, hf⟩ := h.fore
  obtain ⟨popsB, sopsB, wb, wb', sb, hb⟩ := h.back
  have fl := side_facts hf hp.series (hf.live hs.openF).pmem hs.flushedL hi
  have fr := side_facts hb hp.series (hf.live hs.openF).smem hs.flushedR hi
  obtain ⟨sel, full, a1, a2, a3, a4⟩ := fl.pages q hq hpos
  obtain ⟨sel', full', b1, b2, b3, b4⟩ := fr.pages q hq hpos
  obtain rfl := selected_unique hu a1 b1
  refine ⟨full, full', ⟨a3, a4⟩, ⟨b3, b4⟩, ?_⟩
  have hn : full.Nodup ∧ full'.Nodup := by
    cases sel with
    | none => rw [show full = [] from a2, show full' = [] from b2]; simp
    | some i => exact ⟨SeriesList.nodup a2, SeriesList.nodup b2⟩
  refine (List.perm_ext_iff_of_nodup hn.1 hn.2).2 fun e => ⟨fun he => ?_, fun he => ?_⟩
  · exact chosen_sub h hs hf hb hi fl.configured hlim hu a1 a2 b2 he
  · exact chosen_sub h.mirror hs.mirror hb hf hi fl.configured hlim hu a1 b2 a2 he

/-- As `exFailover`, with timeseries. -/
def exTwin : List PairAct :=
  [.left (.reopen exSeries), .right (.reopen exSeries), .left (.register [exOf 7 1 1 ["a"], exOf 7 1 2 ["b"]]),
      .left .flush] ++ exCatchUp .fore ++
    [.left (.register [exOf 7 2 1 ["a"]]), .left .flush, .fore .notify, .fore .deliver,
      .left (.register [exOf 7 3 1 ["c"]]), .left (.reopen exSeries), .right (.register [exOf 8 3 1 ["b"]]),
      .right .flush, .back .notify, .back .notify, .back .notify] ++
    exCatchUp .back ++ exCatchUp .fore ++
    [.left .flush, .left (.register [exOf 7 4 1 ["c"]]), .left .flush, .fore .notify, .fore .notify, .fore .deliver,
      .right .flush, .back .notify]

theorem exTwin_confs (c : Conf) (h : .left (.reopen c) ∈ exTwin ∨ .right (.reopen c) ∈ exTwin) : c = exSeries := by
  rcases h with h | h <;> simpa [exTwin, exCatchUp] using h

theorem exTwin_left {es : List Event} (h : .left (.register es) ∈ exTwin) :
    es = [exOf 7 1 1 ["a"], exOf 7 1 2 ["b"]] ∨ es = [exOf 7 2 1 ["a"]] ∨ es = [exOf 7 3 1 ["c"]] ∨
      es = [exOf 7 4 1 ["c"]] := by
  simp only [exTwin, exCatchUp, List.mem_append, List.mem_cons, List.not_mem_nil, or_false, PairAct.left.injEq,
    BackendOp.register.injEq, reduceCtorEq, false_or] at h
  tauto

theorem exTwin_right {es : List Event} (h : .right (.register es) ∈ exTwin) : es = [exOf 8 3 1 ["b"]] := by
  simpa only [exTwin, exCatchUp, List.mem_append, List.mem_cons, List.not_mem_nil, or_false, PairAct.right.injEq,
    BackendOp.register.injEq, reduceCtorEq, false_or] using h

theorem exTwin_matched : Matched exSeries 7 8 exTwin := by
  have hl : LookupLaw exSeries := exSeries_laws.1 _ (by simp)
  refine ⟨by decide, fun c h => ?_, fun c h => ?_, ?_, ?_⟩
  · rw [exTwin_confs c (.inl h)]; exact ⟨hl, fun _ => Iff.rfl⟩
  · rw [exTwin_confs c (.inr h)]; exact ⟨hl, fun _ => Iff.rfl⟩
  · intro es h
    rcases exTwin_left h with h | h | h | h <;> subst h <;> simp [exOf]
  · intro es h
    rw [exTwin_right h]; simp [exOf]

theorem exTwin_plan : OnePlan exSeries exTwin := by
  refine ⟨exTwin_confs, exSeries_laws.2, fun es h => ?_⟩
  rcases h with h | h
  · rcases exTwin_left h with h | h | h | h <;> subst h <;>
      simp [exOf, Ordinary, TimeLe, TimeLt, maxTimestamp, maxId]
  · rw [exTwin_right h]
    simp [exOf, Ordinary, TimeLe, TimeLt, maxTimestamp, maxId]

theorem exTwin_inOrder : BothInOrder exSeries 7 8 exTwin := by
  have hl : exTwin.inits.map (fun pre => told ((Pair.new exSeries 7 8).run pre).left) =
      (List.replicate 3 0 ++ List.replicate 13 2 ++ List.replicate 4 3 ++ [4] ++ List.replicate 13 3 ++
        List.replicate 16 5 ++ List.replicate 7 6).map exToldAt := rfl
  have hr : exTwin.inits.map (fun pre => told ((Pair.new exSeries 7 8).run pre).right) =
      (List.replicate 12 0 ++ List.replicate 7 2 ++ List.replicate 3 3 ++ List.replicate 32 5 ++
        List.replicate 3 6).map exToldAt := rfl
  intro pre hpre
  have hm := (List.mem_inits _ _).2 hpre
  have h1 := List.mem_map_of_mem (f := fun pre => told ((Pair.new exSeries 7 8).run pre).left) hm
  have h2 := List.mem_map_of_mem (f := fun pre => told ((Pair.new exSeries 7 8).run pre).right) hm
  rw [hl] at h1
  rw [hr] at h2
  obtain ⟨n, _, hn⟩ := List.mem_map.1 h1
  obtain ⟨k, _, hk⟩ := List.mem_map.1 h2
  exact ⟨orderly_sub exAll_orderly.1 (by rw [← hn]; exact exToldAt_sub n),
    orderly_sub exAll_orderly.2 (by rw [← hk]; exact exToldAt_sub k)⟩

set_option maxRecDepth 100000 in
theorem exTwin_settled : Settled ((Pair.new exSeries 7 8).run exTwin) :=
  ⟨rfl, rfl, ⟨rfl, rfl, rfl⟩, ⟨rfl, rfl, rfl⟩, rfl, rfl⟩

theorem exSince_ok : TsParamsOk exSeries exSince := by
  refine ⟨by simp [exSince], by simp [exSince], ?_, by simp [exSince]⟩
  intro t ht x hx
  subst hx
  simp only [exSince, List.mem_cons, List.not_mem_nil, or_false, Option.some.injEq, reduceCtorEq] at ht
  subst ht
  unfold TimeRange exAt; norm_num

/-- The assumptions of `C87_event` hold for it. -/
example : ∃ full full', Pages (fun i => ((Pair.new exSeries 7 8).run exTwin).left.query
      (.timeseries { exSince with lastEventId := i })) none full ∧
    Pages (fun i => ((Pair.new exSeries 7 8).run exTwin).right.query
      (.timeseries { exSince with lastEventId := i })) none full' ∧ ∀ e, e ∈ full ↔ e ∈ full' := by
  obtain ⟨full, full', ⟨h1, _⟩, ⟨h2, _⟩, h3⟩ := C87_event exSeries 7 8 exTwin exTwin_matched exTwin_plan
    exTwin_inOrder exTwin_settled exSince exSince_ok (by decide)
  exact ⟨full, full', h1, h2, fun e => h3 e (exSeries_keeps exSince e ⟨_, rfl⟩)⟩

/-- The assumptions of `C87_lists` hold for it. -/
example : ∃ full full', Pages (fun i => ((Pair.new exSeries 7 8).run exTwin).left.query
      (.timeseries { exSince with lastEventId := i })) none full ∧
    Pages (fun i => ((Pair.new exSeries 7 8).run exTwin).right.query
      (.timeseries { exSince with lastEventId := i })) none full' ∧ full.Perm full' := by
  obtain ⟨full, full', ⟨h1, _⟩, ⟨h2, _⟩, h3⟩ := C87_lists exSeries 7 8 exTwin exTwin_matched exTwin_plan
    exTwin_inOrder exTwin_settled rfl exSince exSince_ok
    (by
      intro part hp _
      simp only [exSeries, exConf, List.mem_cons, List.not_mem_nil, or_false] at hp
      rcases hp with rfl | rfl <;> rfl) (by decide)
  exact ⟨full, full', h1, h2, h3⟩

set_option maxRecDepth 100000 in
example : ((Pair.new exSeries 7 8).run exTwin).left.query (.timeseries exSince) =
    .ok ⟨[exOf 7 1 1 ["a"], exOf 7 1 2 ["b"], exOf 7 2 1 ["a"], exOf 8 3 1 ["b"], exOf 7 4 1 ["c"]], false⟩ := rfl

end HatEvent
