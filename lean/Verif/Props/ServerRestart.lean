import Verif.Props.ServerDuring

/-!
# C111: paging through the persisted events of a server over restarts
-/

namespace HatEvent
open Spec

/-- Paging through the persisted events of a server while anything happens
between the pages, also ends of the process at any point and new processes with
other configurations: the identifiers of the received events increase, so that
none is received twice; each is an event of the server that was permanently
stored between the first and the last page; and every event that is permanently
stored when the first page is asked for and still when the last one is, is
received. -/
theorem C111_paging (conf : Conf) (ops more : List BackendOp) (hl : LookupLaws (ops ++ more)) (hk : KeepsAccepted (ops ++ more))
    (hid : ∀ es, .register es ∈ ops ++ more → ∀ e ∈ es, IdRange e.id) (p : QueryServerParams) (hpers : p.persisted = true)
    (hp : ServerParamsOk p) (all : List Event)
    (h : PagesDuring (fun ops i => ((Backend.new conf).run ops).query (.server { p with lastEventId := i })) (fun _ => True)
      ops p.lastEventId more all) :
    ∃ w w', Run conf ops w ∧ Run conf (ops ++ more) w' ∧
      all.Pairwise (fun a b => IdLt a.id b.id) ∧
      (∀ e ∈ all, e.id.server = p.serverId ∧ (∀ l, p.lastEventId = some l → IdLt l e.id) ∧
        ∃ mid rest w1, more = mid ++ rest ∧ Run conf (ops ++ mid) w1 ∧ w1.flushed.Held e) ∧
      ∀ e, w.flushed.Held e → w'.flushed.Held e → e.id.server = p.serverId →
        (∀ l, p.lastEventId = some l → IdLt l e.id) → e ∈ all := by
  obtain ⟨w, hw, hr⟩ := reached_refs conf ops (fun c hc => hl c (by simp [hc])) (keepsAccepted_left hk)
  obtain ⟨w', h1, _, _, h2, h3, h4⟩ := server_pages_restarts hpers h hl hk hid hp w hw hr
  refine ⟨w, w', hw.run, h1.run, h2, ?_, fun e a b => h4 e (.inl a) (.inl b)⟩
  intro e he
  obtain ⟨a1, a2, mid, rest, w1, a3, a4, a5⟩ := h3 e he
  refine ⟨a1, a2, mid, rest, w1, a3, a4, ?_⟩
  rcases a5 with a5 | ⟨a5, _⟩
  · exact a5
  · rw [hpers] at a5
    cases a5

/-- The same in terms of queries: what a query without limit returns before the
first page and after the last action is received, if it fits in a page of the backend. -/
theorem C111_observed (conf : Conf) (ops more : List BackendOp) (hl : LookupLaws (ops ++ more)) (hk : KeepsAccepted (ops ++ more))
    (hid : ∀ es, .register es ∈ ops ++ more → ∀ e ∈ es, IdRange e.id) (p : QueryServerParams) (hpers : p.persisted = true)
    (hp : ServerParamsOk p) (all : List Event)
    (h : PagesDuring (fun ops i => ((Backend.new conf).run ops).query (.server { p with lastEventId := i })) (fun _ => True)
      ops p.lastEventId more all) (first last : QueryResult)
    (h1 : ((Backend.new conf).run ops).query (.server { p with maxResults := none }) = .ok first)
    (h2 : ((Backend.new conf).run (ops ++ more)).query (.server { p with maxResults := none }) = .ok last)
    (e : Event) (he : e ∈ first.events) (he' : e ∈ last.events) : e ∈ all := by
  obtain ⟨w, hw, hr⟩ := reached_refs conf ops (fun c hc => hl c (by simp [hc])) (keepsAccepted_left hk)
  obtain ⟨w', h4, h4r, -, -, -, h5⟩ := server_pages_restarts hpers h hl hk hid hp w hw hr
  have hp' : ServerParamsOk { p with maxResults := none } := ⟨hp.last, hp.server, by simp⟩
  obtain ⟨full, f1, f2⟩ := server_reached hw hr (query_open h1) _ hp'
  obtain ⟨full', f3, f4⟩ := server_reached h4 h4r (query_open h2) _ hp'
  rw [f2] at h1
  rw [f4] at h2
  cases h1
  cases h2
  obtain ⟨a1, a2, a3⟩ := (f1.mem e).1 (List.mem_of_mem_take he)
  obtain ⟨b1, -, -⟩ := (f3.mem e).1 (List.mem_of_mem_take he')
  exact h5 e a1 b1 a2 a3

/-! ### Example -/

/-- Three events are stored, a fourth one is pending. -/
def exBroken : List BackendOp :=
  [.reopen (exConf none exPartitions),
   .register [exE 1 1 1 ["a"] 1 none, exE 1 1 2 ["a"] 5 none, exE 1 1 3 ["a"] 6 none], .flush,
   .register [exE 1 1 4 ["a"] 7 none]]

/-- The process ends, so that the fourth event is lost; the next one stores an
event of a later session. -/
def exBrokenMore : List BackendOp :=
  [.reopen (exConf none exPartitions), .register [exE 1 2 1 ["a"] 8 none], .flush]

theorem exBroken_confs : ∀ c, BackendOp.reopen c ∈ exBroken ++ exBrokenMore → c = exConf none exPartitions := by
  intro c hc
  simpa [exBroken, exBrokenMore] using hc

/-- The hypotheses hold: one event is received before the restart, the others after it. -/
example : LookupLaws (exBroken ++ exBrokenMore) ∧ KeepsAccepted (exBroken ++ exBrokenMore) ∧
    (∀ es, .register es ∈ exBroken ++ exBrokenMore → ∀ e ∈ es, IdRange e.id) ∧
    ServerParamsOk { serverId := 1, persisted := true, maxResults := some 1 } ∧
    PagesDuring (fun ops i => ((Backend.new (exConf none [])).run ops).query
        (.server { serverId := 1, persisted := true, maxResults := some 1, lastEventId := i })) (fun _ => True) exBroken none exBrokenMore
      [exE 1 1 1 ["a"] 1 none, exE 1 1 2 ["a"] 5 none, exE 1 1 3 ["a"] 6 none, exE 1 2 1 ["a"] 8 none] ∧
    ((Backend.new (exConf none [])).run exBroken).query (.server { serverId := 1, persisted := true }) =
      .ok ⟨[exE 1 1 1 ["a"] 1 none, exE 1 1 2 ["a"] 5 none, exE 1 1 3 ["a"] 6 none], false⟩ ∧
    ((Backend.new (exConf none [])).run (exBroken ++ exBrokenMore)).query (.server { serverId := 1, persisted := true }) =
      .ok ⟨[exE 1 1 1 ["a"] 1 none, exE 1 1 2 ["a"] 5 none, exE 1 1 3 ["a"] 6 none, exE 1 2 1 ["a"] 8 none], false⟩ := by
  refine ⟨?_, ?_, ?_, ⟨by simp, by norm_num, by simp⟩, ?_, by rfl, by rfl⟩
  · intro c hc
    rw [exBroken_confs c hc]
    exact exConf_lookup _ _
  · unfold KeepsAccepted exBroken exBrokenMore
    simp [exConf]
  · intro es h
    have : es = [exE 1 1 1 ["a"] 1 none, exE 1 1 2 ["a"] 5 none, exE 1 1 3 ["a"] 6 none] ∨ es = [exE 1 1 4 ["a"] 7 none] ∨
        es = [exE 1 2 1 ["a"] 8 none] := by
      simpa [exBroken, exBrokenMore] using h
    rcases this with rfl | rfl | rfl <;> simp [exE, IdRange, U64]
  · exact .more (events := [exE 1 1 1 ["a"] 1 none]) (x := exE 1 1 1 ["a"] 1 none) (between := exBrokenMore) (later := []) trivial
      (by rfl) rfl
      (.more (events := [exE 1 1 2 ["a"] 5 none]) (x := exE 1 1 2 ["a"] 5 none) (between := []) (later := []) trivial (by rfl) rfl
        (.more (events := [exE 1 1 3 ["a"] 6 none]) (x := exE 1 1 3 ["a"] 6 none) (between := []) (later := []) trivial (by rfl) rfl
          (.last trivial (by rfl))))

/-! ### What does not hold -/

/-- One stored and one pending event. -/
def exForgot : List BackendOp :=
  [.reopen (exConf none exPartitions), .register [exE 1 1 1 ["a"] 1 none], .flush, .register [exE 1 1 2 ["a"] 2 none]]

/-- The pending event is lost, later ones are pending. -/
def exForgotFirst : List BackendOp :=
  [.reopen (exConf none exPartitions), .register [exE 1 1 3 ["a"] 3 none, exE 1 1 4 ["a"] 4 none]]

/-- These are lost as well and the first one is registered again. -/
def exForgotSecond : List BackendOp :=
  [.reopen (exConf none exPartitions), .register [exE 1 1 2 ["a"] 2 none]]

/-- If events that are not persisted are asked for as well, an event that is
stored at the first and at the last page may be missed over restarts. -/
theorem C111_pending_refuted :
    PagesDuring (fun ops i => ((Backend.new (exConf none [])).run ops).query
        (.server { serverId := 1, maxResults := some 1, lastEventId := i })) (fun _ => True) exForgot none
      (exForgotFirst ++ exForgotSecond) [exE 1 1 1 ["a"] 1 none, exE 1 1 3 ["a"] 3 none] ∧
    ((Backend.new (exConf none [])).run exForgot).query (.server { serverId := 1 }) =
      .ok ⟨[exE 1 1 1 ["a"] 1 none, exE 1 1 2 ["a"] 2 none], false⟩ ∧
    ((Backend.new (exConf none [])).run (exForgot ++ (exForgotFirst ++ exForgotSecond))).query (.server { serverId := 1 }) =
      .ok ⟨[exE 1 1 1 ["a"] 1 none, exE 1 1 2 ["a"] 2 none], false⟩ := by
  refine ⟨?_, by rfl, by rfl⟩
  have h2 : PagesDuring (fun ops i => ((Backend.new (exConf none [])).run ops).query
      (.server { serverId := 1, maxResults := some 1, lastEventId := i })) (fun _ => True) (exForgot ++ exForgotFirst)
      (some ⟨1, 1, 1⟩) (exForgotSecond ++ []) ([exE 1 1 3 ["a"] 3 none] ++ []) :=
    .more (x := exE 1 1 3 ["a"] 3 none) trivial (by rfl) rfl (.last trivial (by rfl))
  exact .more (events := [exE 1 1 1 ["a"] 1 none]) (x := exE 1 1 1 ["a"] 1 none) (between := exForgotFirst) (later := exForgotSecond)
    trivial (by rfl) rfl h2

end HatEvent
