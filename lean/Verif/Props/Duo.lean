import Verif.Proof.Pair
import Verif.Props.ReadWrites
import Verif.Props.Sync
import Verif.Props.EngineLmdb
import Mathlib.Data.List.Infix

/-!
# C84: a standby shows what the primary shows
-/

namespace HatEvent
open Spec

theorem mem_latest {b : Backend} {w : World} (h : WorldRel b w) {m : Mem} (hm : b.mem = some m) (e : Event) :
    e ∈ m.latest.events.map Prod.snd ↔ w.cur.slot e.type = some e ∧ Visible w.conf e := by
  obtain ⟨_, hr⟩ := h.opened m hm
  constructor
  · intro he
    obtain ⟨x, hx, rfl⟩ := List.mem_map.1 he
    have h1 := (hr.latest.events x.1 x.2).1 (Dict.get_of_mem hr.latest.nodEvents hx)
    rw [(h.okC.slotType _ _ h1.1).1]
    exact h1
  · intro he
    exact List.mem_map.2 ⟨(e.type, e), Dict.mem_of_get ((hr.latest.events e.type e).2 he), rfl⟩

theorem nodup_latest {b : Backend} {w : World} (h : WorldRel b w) {m : Mem} (hm : b.mem = some m) :
    (m.latest.events.map Prod.snd).Nodup := by
  obtain ⟨_, hr⟩ := h.opened m hm
  refine List.Nodup.of_map (·.type) ?_
  have : (m.latest.events.map Prod.snd).map (·.type) = Dict.keys m.latest.events := by
    unfold Dict.keys
    rw [List.map_map]
    refine List.map_congr_left fun x hx => ?_
    exact (h.okC.slotType _ _ ((hr.latest.events x.1 x.2).1 (Dict.get_of_mem hr.latest.nodEvents hx)).1).1
  rw [this]
  exact hr.latest.nodEvents

theorem same_latest {b : Backend} {w : World} (h : WorldRel b w) {m : Mem} (hm : b.mem = some m) {x y : Event}
    (hx : x ∈ m.latest.events.map Prod.snd) (hy : y ∈ m.latest.events.map Prod.snd) (ht : x.type = y.type) : x = y := by
  have h1 := ((mem_latest h hm x).1 hx).1
  have h2 := ((mem_latest h hm y).1 hy).1
  rw [ht, h2] at h1
  exact (Option.some.inj h1).symm

theorem query_latest {b : Backend} {m : Mem} (hm : b.mem = some m) :
    b.query (.latest none) = .ok ⟨m.latest.events.map Prod.snd, false⟩ := by
  unfold Backend.query; rw [hm]; rfl

/-- Not older. -/
def Upholds (a b : Event) : Prop := b.type = a.type ∧ ¬ Newer a b ∧ TimeLe a.timestamp b.timestamp

/-- What the standby shows of the server was flushed by the primary, which shows it or a newer one. -/
theorem duo_known {T : Terms} {conf : Conf} {server : Int} {d : Duo} {pops sops : List BackendOp} {wp ws : World}
    {stored : List Event} (h : DuoOk conf T server d pops sops wp ws stored) {mp ms : Mem} (hmp : d.primary.mem = some mp)
    (hms : d.standby.mem = some ms) {s : Event} (hs : s ∈ ms.latest.events.map Prod.snd) (hsrv : s.id.server = server) :
    s ∈ ofServer server d.primary.flushedCb.flatten ∧ ∃ p ∈ mp.latest.events.map Prod.snd, Upholds s p := by
  have hrelP : WorldRel d.primary wp := by rw [h.primary]; exact h.reachedP.rel
  have hrelS : WorldRel d.standby ws := by rw [h.standby]; exact h.reachedS.rel
  have hvP : ∀ e, Visible wp.conf e ↔ Visible conf e := by
    intro e
    rw [← hrelP.conf, h.primary]
    exact run_conf_like h.confP e
  have hvS : ∀ e, Visible ws.conf e ↔ Visible conf e := by
    intro e
    rw [← hrelS.conf, h.standby]
    exact run_conf_like h.confS e
  obtain ⟨h1, h2⟩ := (mem_latest hrelS hms s).1 hs
  have hall := h.known s (hrelS.okC.slotType _ _ h1).2 hsrv
  obtain ⟨p, p1, p2, p3, p4⟩ := h.facts.shownC s
    (by rw [told_eq, ofServer_append]; exact List.mem_append_left _ hall) ((hvS s).1 h2)
  have ht := (hrelP.okC.slotType _ _ p1).1
  exact ⟨hall, p, (mem_latest hrelP hmp p).2 ⟨by rw [ht]; exact p1, (hvP p).2 p2⟩, ht, p3, p4⟩

/-- Of an event of the server that is stored, visible and received if it was due, the standby shows it or a newer
one. -/
theorem duo_shows {T : Terms} {conf : Conf} {server : Int} {d : Duo} {pops sops : List BackendOp} {wp ws : World}
    {stored : List Event} (h : DuoOk conf T server d pops sops wp ws stored) {ms : Mem}
    (hms : d.standby.mem = some ms) (hopen : d.link.closed = false) {p : Event} (hmem : p ∈ stored)
    (hv : Visible conf p) (hacc : IdLt d.link.last p.id → p ∈ accept d.link.last d.link.calls.flatten)
    (hsrv : p.id.server = server) : ∃ s ∈ ms.latest.events.map Prod.snd, Upholds p s := by
  have live := h.live hopen
  have hrelS : WorldRel d.standby ws := by rw [h.standby]; exact h.reachedS.rel
  have hvS : ∀ e, Visible ws.conf e ↔ Visible conf e := by
    intro e
    rw [← hrelS.conf, h.standby]
    exact run_conf_like h.confS e
  have hall := h.stored_all p hmem
  have hgot : Got conf ws.cur p := by
    by_cases hl : IdLt d.link.last p.id
    · exact (live.received.got p (hacc hl)).1 hv
    · exact (live.base p hmem (not_idLt.1 hl)).1 hv
  have hbest : Best conf ws.cur := by
    have hsame : SameShown sops := fun c c' hc hc' e => ((h.confS c hc).visible e).trans ((h.confS c' hc').visible e).symm
    have hb := (run_best h.reachedS.run hsame).1 _ (run_conf conf sops (h.standby ▸ live.smem))
    intro e he hv
    obtain ⟨s, s1, s2, s3⟩ := hb.1 e he ((run_conf_like h.confS e).2 hv)
    exact ⟨s, s1, (run_conf_like h.confS s).1 s2, s3⟩
  have found : ∀ s, ws.cur.slot p.type = some s → Visible conf s → ¬ Newer p s → TimeLe p.timestamp s.timestamp →
      ∃ s ∈ ms.latest.events.map Prod.snd, Upholds p s := by
    intro s s1 s2 s3 s4
    have ht := (hrelS.okC.slotType _ _ s1).1
    exact ⟨s, (mem_latest hrelS hms s).2 ⟨by rw [ht]; exact s1, (hvS s).2 s2⟩, ht, s3, s4⟩
  have own : ∀ s, ws.cur.slot p.type = some s → s.id.server = server →
      s ∈ ofServer server d.primary.flushedCb.flatten :=
    fun s s1 hss => h.known s (hrelS.okC.slotType _ _ s1).2 hss
  rcases hgot with hlog | ⟨s, s1, s2, s3⟩
  · obtain ⟨s, s1, s2, s3⟩ := hbest p hlog hv
    refine found s s1 s2 s3 ?_
    unfold Newer at s3
    split at s3
    · next hss =>
      by_cases hlt : IdLt p.id s.id
      · exact h.all.le hall (own s s1 (hss.symm.trans hsrv)) hlt
      · rw [h.all.same hall (own s s1 (hss.symm.trans hsrv)) hlt s3]
        exact .inr rfl
    · exact not_timeLt.1 s3
  · refine found s s1 s2 ?_ (.inl s3)
    unfold Newer
    split
    · next hss =>
      intro hlt
      exact absurd s3 (not_timeLt.2 (h.all.le (own s s1 (hss.symm.trans hsrv)) hall hlt))
    · exact not_timeLt.2 (.inl s3)

/-- What the primary shows of its own was flushed, and the standby shows it or a newer one. -/
theorem duo_received {T : Terms} {conf : Conf} {server : Int} {d : Duo} {pops sops : List BackendOp} {wp ws : World}
    {stored : List Event} (h : DuoOk conf T server d pops sops wp ws stored) {mp ms : Mem} (hmp : d.primary.mem = some mp)
    (hms : d.standby.mem = some ms) (hopen : d.link.closed = false) (hquiet : d.link.quiet)
    (hflushed : told d.primary = d.primary.flushedCb.flatten)
    {p : Event} (hp : p ∈ mp.latest.events.map Prod.snd) (hsrv : p.id.server = server) :
    p ∈ ofServer server d.primary.flushedCb.flatten ∧ ∃ s ∈ ms.latest.events.map Prod.snd, Upholds p s := by
  have hrelP : WorldRel d.primary wp := by rw [h.primary]; exact h.reachedP.rel
  have hvP : ∀ e, Visible wp.conf e ↔ Visible conf e := by
    intro e
    rw [← hrelP.conf, h.primary]
    exact run_conf_like h.confP e
  have hpend : pending d.primary = [] := by
    rw [told_eq] at hflushed
    simpa using hflushed
  obtain ⟨hslot, hv⟩ := (mem_latest hrelP hmp p).1 hp
  have hv := (hvP p).1 hv
  have hmem : p ∈ stored := by
    rw [h.held]
    rcases h.facts.slot _ p hslot with h1 | h1
    · exact ⟨.inl h1, hsrv⟩
    · rw [hpend] at h1; simp at h1
  have hall := h.stored_all p hmem
  refine ⟨hall, duo_shows h hms hopen hmem hv (fun hl => ?_) hsrv⟩
  obtain ⟨pre, hs⟩ := (h.live hopen).sync
  exact hs.quiet hquiet.1 hquiet.2.1 hquiet.2.2 hmem hl

/-- **C84** At any time, whatever connections were lost and whichever process was ended at any point: what the
standby shows of the events of the primary was flushed by the primary. -/
theorem C84_flushed (conf : Conf) (server : Int) (acts : List DuoAct) (ha : Alike conf server acts)
    (ho : InOrder conf server acts) (hopen : ((Duo.new conf server).run acts).standby.mem ≠ none) :
    ∃ events, ((Duo.new conf server).run acts).standby.query (.latest none) = .ok ⟨events, false⟩ ∧
      ∀ e ∈ events, e.id.server = server → e ∈ ((Duo.new conf server).run acts).primary.flushedCb.flatten := by
  obtain ⟨pops, sops, wp, ws, stored, h⟩ := duoOk_run conf server acts ha ho
  generalize (Duo.new conf server).run acts = d at h hopen ⊢
  have hrel : WorldRel d.standby ws := by rw [h.standby]; exact h.reachedS.rel
  obtain ⟨m, hm⟩ := Option.ne_none_iff_exists'.1 hopen
  refine ⟨_, query_latest hm, fun e he hs => ?_⟩
  exact (mem_ofServer.1 (h.known e (hrel.okC.slotType _ _ ((mem_latest hrel hm e).1 he).1).2 hs)).1

/-- **C84** When the primary has flushed everything and the standby has received everything, the standby shows each
event that the primary shows of its own, or one that is not older.  Connections may have been lost and processes may
have been ended at any point before; both may have events of any other servers. -/
theorem C84_received (conf : Conf) (server : Int) (acts : List DuoAct) (ha : Alike conf server acts)
    (ho : InOrder conf server acts) (hopen : ((Duo.new conf server).run acts).link.closed = false)
    (hquiet : ((Duo.new conf server).run acts).link.quiet)
    (hflushed : told ((Duo.new conf server).run acts).primary =
      ((Duo.new conf server).run acts).primary.flushedCb.flatten) :
    ∃ events events', ((Duo.new conf server).run acts).primary.query (.latest none) = .ok ⟨events, false⟩ ∧
      ((Duo.new conf server).run acts).standby.query (.latest none) = .ok ⟨events', false⟩ ∧
      ∀ p ∈ events, p.id.server = server → ∃ s ∈ events', Upholds p s := by
  obtain ⟨pops, sops, wp, ws, stored, h⟩ := duoOk_run conf server acts ha ho
  generalize (Duo.new conf server).run acts = d at h hopen hquiet hflushed ⊢
  obtain ⟨mp, hmp⟩ := Option.ne_none_iff_exists'.1 (h.live hopen).pmem
  obtain ⟨ms, hms⟩ := Option.ne_none_iff_exists'.1 (h.live hopen).smem
  exact ⟨_, _, query_latest hmp, query_latest hms,
    fun p hp hs => (duo_received h hmp hms hopen hquiet hflushed hp hs).2⟩

/-! ## Both directions -/

/-- Both connections are used, and everything is flushed and received. -/
structure Spec.Settled (p : Pair) : Prop where
  openF : p.fore.closed = false
  openB : p.back.closed = false
  quietF : p.fore.quiet
  quietB : p.back.quiet
  flushedL : told p.left = p.left.flushedCb.flatten
  flushedR : told p.right = p.right.flushedCb.flatten

theorem Spec.Settled.mirror {p : Pair} (h : Settled p) : Settled p.mirror :=
  ⟨h.openB, h.openF, h.quietB, h.quietF, h.flushedR, h.flushedL⟩

theorem noTies_mirror {left right : Int} {p : Pair} (h : NoTies left right p) : NoTies right left p.mirror :=
  fun x hx y hy ht heq => h y hy x hx ht.symm heq.symm

theorem pair_shows {T : Terms} {conf : Conf} {left right : Int} {p : Pair} (h : PairOk conf T left right p) (hs : Settled p)
    (hn : NoTies left right p) {ml mr : Mem} (hml : p.left.mem = some ml) (hmr : p.right.mem = some mr) {e : Event}
    (he : e ∈ ml.latest.events.map Prod.snd) : e ∈ mr.latest.events.map Prod.snd := by
  obtain ⟨_, _, wf, _, _, hf⟩ := h.fore
  obtain ⟨_, _, wb, _, _, hb⟩ := h.back
  have hrelL : WorldRel p.left wf := by rw [show p.left = _ from hf.primary]; exact hf.reachedP.rel
  have toldL : ∀ x ∈ ofServer left p.left.flushedCb.flatten, x ∈ ofServer left (told p.left) :=
    fun x hx => by rw [told_eq, ofServer_append]; exact List.mem_append_left _ hx
  have toldR : ∀ x ∈ ofServer right p.right.flushedCb.flatten, x ∈ ofServer right (told p.right) :=
    fun x hx => by rw [told_eq, ofServer_append]; exact List.mem_append_left _ hx
  have uniq : ∀ x ∈ ml.latest.events.map Prod.snd, x.type = e.type → x = e :=
    fun x hx ht => same_latest hrelL hml hx he ht
  have srvL := h.toldL e (hf.facts.logC e (hrelL.okC.slotType _ _ ((mem_latest hrelL hml e).1 he).1).2)
  have hrelR : WorldRel p.right wb := by rw [show p.right = _ from hb.primary]; exact hb.reachedP.rel
  have srvR : ∀ s ∈ mr.latest.events.map Prod.snd, s.id.server = left ∨ s.id.server = right := fun s hs =>
    h.toldR s (hb.facts.logC s (hrelR.okC.slotType _ _ ((mem_latest hrelR hmr s).1 hs).1).2)
  have same : ∀ {server : Int} {l : List Event}, Orderly server l → ∀ a ∈ l, ∀ b ∈ l, a.id.server = b.id.server →
      ¬ Newer a b → ¬ Newer b a → a = b := by
    intro server l ho a ha b hb hab h1 h2
    unfold Newer at h1 h2
    rw [if_pos hab] at h1
    rw [if_pos hab.symm] at h2
    exact ho.same ha hb h2 h1
  rcases srvL with hsrv | hsrv
  · obtain ⟨e1, s, s1, s2, s3, s4⟩ := duo_received hf hml hmr hs.openF hs.quietF hs.flushedL he hsrv
    rcases srvR s s1 with hss | hss
    · obtain ⟨k1, x, x1, x2, x3, x4⟩ := duo_known hf hml hmr s1 hss
      obtain rfl := uniq x x1 (x2.trans s2)
      rw [same hf.all x e1 s k1 (hsrv.trans hss.symm) s3 x3]
      exact s1
    · obtain ⟨k1, x, x1, x2, x3, x4⟩ := duo_received hb hmr hml hs.openB hs.quietB hs.flushedR s1 hss
      obtain rfl := uniq x x1 (x2.trans s2)
      exact absurd (s4.antisymm x4) (hn x (toldL x e1) s (toldR s k1) s2.symm)
  · obtain ⟨e1, s, s1, s2, s3, s4⟩ := duo_known hb hmr hml he hsrv
    rcases srvR s s1 with hss | hss
    · obtain ⟨k1, x, x1, x2, x3, x4⟩ := duo_known hf hml hmr s1 hss
      obtain rfl := uniq x x1 (x2.trans s2)
      exact absurd (x4.antisymm s4) (hn s (toldL s k1) x (toldR x e1) s2)
    · obtain ⟨k1, x, x1, x2, x3, x4⟩ := duo_received hb hmr hml hs.openB hs.quietB hs.flushedR s1 hss
      obtain rfl := uniq x x1 (x2.trans s2)
      rw [same hb.all x e1 s k1 (hsrv.trans hss.symm) s3 x3]
      exact s1

/-- **C84** without ties (missing: events of one type and timestamp of both servers, see `C84_refuted`): when both servers
have flushed everything and received everything, they answer latest queries alike.  Both may have registered events,
one after the other or at the same time, connections may have been lost and processes may have been ended at any
point before. -/
theorem C84_latest_partial (conf : Conf) (left right : Int) (acts : List PairAct) (ha : Matched conf left right acts)
    (ho : BothInOrder conf left right acts) (hs : Settled ((Pair.new conf left right).run acts))
    (hn : NoTies left right ((Pair.new conf left right).run acts)) :
    ∃ events events', ((Pair.new conf left right).run acts).left.query (.latest none) = .ok ⟨events, false⟩ ∧
      ((Pair.new conf left right).run acts).right.query (.latest none) = .ok ⟨events', false⟩ ∧ events.Perm events' := by
  have h := pairOk_run (T := .none) conf left right acts ha (fun _ _ => ⟨fun _ h => h.elim, trivial⟩)
    (fun _ _ _ _ => trivial) ho
  generalize (Pair.new conf left right).run acts = p at h hs hn ⊢
  obtain ⟨_, _, wf, wf', _, hf⟩ := h.fore
  obtain ⟨ml, hml⟩ := Option.ne_none_iff_exists'.1 (hf.live hs.openF).pmem
  obtain ⟨mr, hmr⟩ := Option.ne_none_iff_exists'.1 (hf.live hs.openF).smem
  have hrelL : WorldRel p.left wf := by rw [show p.left = _ from hf.primary]; exact hf.reachedP.rel
  have hrelR : WorldRel p.right wf' := by rw [show p.right = _ from hf.standby]; exact hf.reachedS.rel
  refine ⟨_, _, query_latest hml, query_latest hmr, ?_⟩
  rw [List.perm_ext_iff_of_nodup (nodup_latest hrelL hml) (nodup_latest hrelR hmr)]
  exact fun e => ⟨fun he => pair_shows h hs hn hml hmr he,
    fun he => pair_shows h.mirror hs.mirror (noTies_mirror hn) hmr hml he⟩

/-! ## An example -/

/-- An event of a server. -/
def exOf (server session instance_ : Int) (type : EventType) : Event :=
  ⟨⟨server, session, instance_⟩, type, ⟨10 * session + server, 0⟩, none, none⟩

/-- A client connects, asks and receives the answer. -/
def exCatchUp (link : SideAct → PairAct) : List PairAct :=
  [link .connect, link .notify, link .advance, link .serve, link .deliver, link .deliver, link .advance, link .advance,
    link .advance, link .advance, link .advance]

/-- The left server registers events and ends with one that is not flushed; the right server has received what was
flushed, registers events itself, and the left server comes back and catches up. -/
def exFailover : List PairAct :=
  [.left (.reopen exKeep), .right (.reopen exKeep), .left (.register [exOf 7 1 1 ["a"], exOf 7 1 2 ["b"]]),
      .left .flush] ++ exCatchUp .fore ++
    [.left (.register [exOf 7 2 1 ["a"]]), .left .flush, .fore .notify, .fore .deliver,
      .left (.register [exOf 7 3 1 ["c"]]), .left (.reopen exKeep), .right (.register [exOf 8 3 1 ["b"]]), .right .flush,
      .back .notify, .back .notify, .back .notify] ++
    exCatchUp .back ++ exCatchUp .fore ++
    [.left .flush, .left (.register [exOf 7 4 1 ["c"]]), .left .flush, .fore .notify, .fore .notify, .fore .deliver,
      .right .flush, .back .notify]

/-- What the servers register; the fourth event is lost. -/
def exAll : List Event :=
  [exOf 7 1 1 ["a"], exOf 7 1 2 ["b"], exOf 7 2 1 ["a"], exOf 7 3 1 ["c"], exOf 8 3 1 ["b"], exOf 7 4 1 ["c"]]

/-- What is registered at a time. -/
def exToldAt (n : Nat) : List Event := if n ≤ 4 then exAll.take n else (exAll.eraseIdx 3).take (n - 1)

theorem exToldAt_sub (n : Nat) : (exToldAt n).Sublist exAll := by
  unfold exToldAt
  split
  · exact List.take_sublist ..
  · exact (List.take_sublist ..).trans (List.eraseIdx_sublist ..)

theorem exKeep_law : LookupLaw exKeep := exConf_lookup none []

set_option maxRecDepth 100000 in
theorem exFailover_matched : Matched exKeep 7 8 exFailover := by
  have hc : ∀ c, (.left (.reopen c) ∈ exFailover ∨ .right (.reopen c) ∈ exFailover) → c = exKeep := by
    intro c hc
    rcases hc with hc | hc <;> simpa [exFailover, exCatchUp] using hc
  refine ⟨by decide, fun c h => ?_, fun c h => ?_, ?_, ?_⟩
  · rw [hc c (.inl h)]; exact ⟨exKeep_law, fun _ => Iff.rfl⟩
  · rw [hc c (.inr h)]; exact ⟨exKeep_law, fun _ => Iff.rfl⟩
  · intro es h
    simp only [exFailover, exCatchUp, List.mem_append, List.mem_cons, List.not_mem_nil, or_false, PairAct.left.injEq,
      BackendOp.register.injEq, reduceCtorEq, false_or] at h
    rcases h with (h | h | h) | h <;> subst h <;> simp [exOf]
  · intro es h
    simp only [exFailover, exCatchUp, List.mem_append, List.mem_cons, List.not_mem_nil, or_false, PairAct.right.injEq,
      BackendOp.register.injEq, reduceCtorEq, false_or] at h
    subst h; simp [exOf]

theorem orderly_sub {server : Int} {l l' : List Event} (h : Orderly server (ofServer server l')) (hs : l.Sublist l') :
    Orderly server (ofServer server l) := by
  have hs' : (ofServer server l).Sublist (ofServer server l') := hs.filter _
  exact ⟨h.sorted.sublist hs', fun e he => h.owner e (hs'.subset he), fun e he => h.pos e (hs'.subset he)⟩

theorem exAll_orderly : Orderly 7 (ofServer 7 exAll) ∧ Orderly 8 (ofServer 8 exAll) := by
  constructor <;> refine ⟨?_, ?_, ?_⟩ <;> simp [ofServer, exAll, exOf, IdLt, TimeLe, TimeLt, minTimestamp]

theorem exFailover_inOrder : BothInOrder exKeep 7 8 exFailover := by
  have hl : exFailover.inits.map (fun pre => told ((Pair.new exKeep 7 8).run pre).left) =
      (List.replicate 3 0 ++ List.replicate 13 2 ++ List.replicate 4 3 ++ [4] ++ List.replicate 13 3 ++
        List.replicate 16 5 ++ List.replicate 7 6).map exToldAt := rfl
  have hr : exFailover.inits.map (fun pre => told ((Pair.new exKeep 7 8).run pre).right) =
      (List.replicate 12 0 ++ List.replicate 7 2 ++ List.replicate 3 3 ++ List.replicate 32 5 ++
        List.replicate 3 6).map exToldAt := rfl
  intro pre hpre
  have hm := (List.mem_inits _ _).2 hpre
  have h1 := List.mem_map_of_mem (f := fun pre => told ((Pair.new exKeep 7 8).run pre).left) hm
  have h2 := List.mem_map_of_mem (f := fun pre => told ((Pair.new exKeep 7 8).run pre).right) hm
  rw [hl] at h1
  rw [hr] at h2
  obtain ⟨n, _, hn⟩ := List.mem_map.1 h1
  obtain ⟨k, _, hk⟩ := List.mem_map.1 h2
  exact ⟨orderly_sub exAll_orderly.1 (by rw [← hn]; exact exToldAt_sub n),
    orderly_sub exAll_orderly.2 (by rw [← hk]; exact exToldAt_sub k)⟩

set_option maxRecDepth 100000 in
theorem exFailover_settled : Settled ((Pair.new exKeep 7 8).run exFailover) :=
  ⟨rfl, rfl, ⟨rfl, rfl, rfl⟩, ⟨rfl, rfl, rfl⟩, rfl, rfl⟩

set_option maxRecDepth 100000 in
theorem exFailover_noTies : NoTies 7 8 ((Pair.new exKeep 7 8).run exFailover) := by
  have hl : ofServer 7 (told ((Pair.new exKeep 7 8).run exFailover).left) =
      [exOf 7 1 1 ["a"], exOf 7 1 2 ["b"], exOf 7 2 1 ["a"], exOf 7 4 1 ["c"]] := rfl
  have hr : ofServer 8 (told ((Pair.new exKeep 7 8).run exFailover).right) = [exOf 8 3 1 ["b"]] := rfl
  unfold NoTies
  rw [hl, hr]
  simp [exOf]

example : ∃ events events', ((Pair.new exKeep 7 8).run exFailover).left.query (.latest none) = .ok ⟨events, false⟩ ∧
    ((Pair.new exKeep 7 8).run exFailover).right.query (.latest none) = .ok ⟨events', false⟩ ∧ events.Perm events' :=
  C84_latest_partial _ _ _ _ exFailover_matched exFailover_inOrder exFailover_settled exFailover_noTies

set_option maxRecDepth 100000 in
example : ((Pair.new exKeep 7 8).run exFailover).left.query (.latest none) =
    .ok ⟨[exOf 7 2 1 ["a"], exOf 8 3 1 ["b"], exOf 7 4 1 ["c"]], false⟩ := rfl

/-- One direction, with a standby that has an event of its own. -/
def exDuo : List DuoAct :=
  [.primary (.reopen exKeep), .standby (.reopen exKeep), .primary (.register [exOf 7 1 1 ["a"], exOf 7 1 2 ["b"]]),
    .standby (.register [exOf 8 2 1 ["b"]]), .primary .flush, .connect, .notify, .advance, .serve, .deliver, .deliver,
    .advance, .advance, .advance, .advance, .advance]

theorem exDuo_alike : Alike exKeep 7 exDuo := by
  refine ⟨fun c hc => ?_, fun c hc => ?_, fun es hes => ?_⟩
  · have : c = exKeep := by simpa [exDuo] using hc
    rw [this]
    exact ⟨exKeep_law, fun _ => Iff.rfl⟩
  · have : c = exKeep := by simpa [exDuo] using hc
    rw [this]
    exact ⟨exKeep_law, fun _ => Iff.rfl⟩
  · have : es = [exOf 8 2 1 ["b"]] := by simpa [exDuo] using hes
    subst this
    simp [exOf]

theorem exDuo_inOrder : InOrder exKeep 7 exDuo := by
  have h : exDuo.inits.map (fun pre => told ((Duo.new exKeep 7).run pre).primary) =
      (List.replicate 3 0 ++ List.replicate 14 2).map exToldAt := rfl
  intro pre hpre
  have h1 := List.mem_map_of_mem (f := fun pre => told ((Duo.new exKeep 7).run pre).primary)
    ((List.mem_inits _ _).2 hpre)
  rw [h] at h1
  obtain ⟨n, _, hn⟩ := List.mem_map.1 h1
  exact orderly_sub exAll_orderly.1 (by rw [← hn]; exact exToldAt_sub n)

example : ((Duo.new exKeep 7).run exDuo).standby.mem ≠ none ∧ ((Duo.new exKeep 7).run exDuo).link.closed = false ∧
    ((Duo.new exKeep 7).run exDuo).link.quiet ∧
    told ((Duo.new exKeep 7).run exDuo).primary = ((Duo.new exKeep 7).run exDuo).primary.flushedCb.flatten ∧
    ((Duo.new exKeep 7).run exDuo).primary.query (.latest none) =
      .ok ⟨[exOf 7 1 1 ["a"], exOf 7 1 2 ["b"]], false⟩ ∧
    ((Duo.new exKeep 7).run exDuo).standby.query (.latest none) =
      .ok ⟨[exOf 8 2 1 ["b"], exOf 7 1 1 ["a"]], false⟩ :=
  ⟨(fun h => nomatch h), rfl, ⟨rfl, rfl, rfl⟩, rfl, rfl, rfl⟩

/-! ## Ties -/

/-- Events of both servers with one type and timestamp. -/
def exTieL : Event := ⟨⟨7, 1, 1⟩, ["a"], ⟨1, 0⟩, none, none⟩

/-- See `exTieL`. -/
def exTieR : Event := ⟨⟨8, 1, 1⟩, ["a"], ⟨1, 0⟩, none, none⟩

/-- Each server registers its event and receives that of the other. -/
def exTie : List PairAct :=
  [.left (.reopen exKeep), .right (.reopen exKeep), .left (.register [exTieL]), .right (.register [exTieR]),
      .left .flush, .right .flush] ++ exCatchUp .fore ++ exCatchUp .back ++
    [.left .flush, .right .flush, .fore .notify, .back .notify]

set_option maxRecDepth 100000 in
/-- **C84 does not hold** in general: both servers have accepted both events, everything is flushed and received, and
yet they show different ones, as of two events of different servers with one timestamp a server keeps the one it registered
last (`backends/lmdb/latestdb.py:57-60`). -/
theorem C84_refuted :
    ∃ (conf : Conf) (left right : Int) (acts : List PairAct), Matched conf left right acts ∧
      BothInOrder conf left right acts ∧ Settled ((Pair.new conf left right).run acts) ∧
      (told ((Pair.new conf left right).run acts).left).Perm (told ((Pair.new conf left right).run acts).right) ∧
      ∃ a b, a ≠ b ∧ ((Pair.new conf left right).run acts).left.query (.latest none) = .ok ⟨[a], false⟩ ∧
        ((Pair.new conf left right).run acts).right.query (.latest none) = .ok ⟨[b], false⟩ := by
  have hc : ∀ c, (.left (.reopen c) ∈ exTie ∨ .right (.reopen c) ∈ exTie) → c = exKeep := by
    intro c hc
    rcases hc with hc | hc <;> simpa [exTie, exCatchUp] using hc
  have hl : exTie.inits.map (fun pre => told ((Pair.new exKeep 7 8).run pre).left) =
      (List.replicate 3 0 ++ List.replicate 22 1 ++ List.replicate 8 2).map [exTieL, exTieR].take := rfl
  have hr : exTie.inits.map (fun pre => told ((Pair.new exKeep 7 8).run pre).right) =
      (List.replicate 4 0 ++ List.replicate 10 1 ++ List.replicate 19 2).map [exTieR, exTieL].take := rfl
  refine ⟨exKeep, 7, 8, exTie, ⟨by decide, fun c h => ?_, fun c h => ?_, fun es h => ?_, fun es h => ?_⟩,
    fun pre hpre => ⟨?_, ?_⟩, ⟨rfl, rfl, ⟨rfl, rfl, rfl⟩, ⟨rfl, rfl, rfl⟩, rfl, rfl⟩, ?_, exTieR, exTieL, ?_, rfl, rfl⟩
  · rw [hc c (.inl h)]; exact ⟨exKeep_law, fun _ => Iff.rfl⟩
  · rw [hc c (.inr h)]; exact ⟨exKeep_law, fun _ => Iff.rfl⟩
  · have : es = [exTieL] := by simpa [exTie, exCatchUp] using h
    subst this; simp [exTieL]
  · have : es = [exTieR] := by simpa [exTie, exCatchUp] using h
    subst this; simp [exTieR]
  · have h := List.mem_map_of_mem (f := fun pre => told ((Pair.new exKeep 7 8).run pre).left)
      ((List.mem_inits _ _).2 hpre)
    rw [hl] at h
    obtain ⟨n, _, hn⟩ := List.mem_map.1 h
    refine orderly_sub (l' := [exTieL, exTieR]) ?_ (by rw [← hn]; exact List.take_sublist ..)
    refine ⟨?_, ?_, ?_⟩ <;> simp [ofServer, exTieL, exTieR, IdLt, TimeLe, TimeLt, minTimestamp]
  · have h := List.mem_map_of_mem (f := fun pre => told ((Pair.new exKeep 7 8).run pre).right)
      ((List.mem_inits _ _).2 hpre)
    rw [hr] at h
    obtain ⟨n, _, hn⟩ := List.mem_map.1 h
    refine orderly_sub (l' := [exTieR, exTieL]) ?_ (by rw [← hn]; exact List.take_sublist ..)
    refine ⟨?_, ?_, ?_⟩ <;> simp [ofServer, exTieL, exTieR, IdLt, TimeLe, TimeLt, minTimestamp]
  · exact List.Perm.swap exTieR exTieL []
  · simp [exTieL, exTieR]

end HatEvent
