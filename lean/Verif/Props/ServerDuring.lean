import Verif.Proof.ServerDuring
import Verif.Props.PagesDuring

/-!
# C110: paging through a server query while the database changes
-/

namespace HatEvent
open Spec

/-- Paging through a server query while events are registered, flushed and
cleaned up between the pages: the identifiers of the received events increase,
so that none is received twice; each is an event of the server that was stored
(permanently, if only such are requested) between the first and the last page;
and every event that is stored when the first page is asked for and still when
the last one is, is received. -/
theorem C110_paging (conf : Conf) (ops more : List BackendOp) (hl : LookupLaws ops) (hk : KeepsAccepted ops)
    (hid : ∀ es, .register es ∈ ops ++ more → ∀ e ∈ es, IdRange e.id) (hno : ∀ c, .reopen c ∉ more)
    (p : QueryServerParams) (hp : ServerParamsOk p) (all : List Event)
    (h : PagesDuring (fun ops i => ((Backend.new conf).run ops).query (.server { p with lastEventId := i })) (fun _ => True)
      ops p.lastEventId more all) :
    ∃ w w', Run conf ops w ∧ Run conf (ops ++ more) w' ∧
      all.Pairwise (fun a b => IdLt a.id b.id) ∧
      (∀ e ∈ all, e.id.server = p.serverId ∧ (∀ l, p.lastEventId = some l → IdLt l e.id) ∧
        ∃ mid rest w1, more = mid ++ rest ∧ Run conf (ops ++ mid) w1 ∧ ServerHeld w1 p.persisted e) ∧
      ∀ e, ServerHeld w p.persisted e → ServerHeld w' p.persisted e → e.id.server = p.serverId →
        (∀ l, p.lastEventId = some l → IdLt l e.id) → e ∈ all := by
  obtain ⟨w, hw, hr⟩ := reached_refs conf ops hl hk
  obtain ⟨w', h1, _, _, h2, h3, h4⟩ := server_pages_during h hl hid hno hp w hw hr
  exact ⟨w, w', hw.run, h1.run, h2, h3, h4⟩

/-- The same in terms of queries: what a query without limit returns after the
first and after the last action is received, if it fits in a page of the backend. -/
theorem C110_observed (conf : Conf) (ops more : List BackendOp) (hl : LookupLaws ops) (hk : KeepsAccepted ops)
    (hid : ∀ es, .register es ∈ ops ++ more → ∀ e ∈ es, IdRange e.id) (hno : ∀ c, .reopen c ∉ more)
    (p : QueryServerParams) (hp : ServerParamsOk p) (all : List Event)
    (h : PagesDuring (fun ops i => ((Backend.new conf).run ops).query (.server { p with lastEventId := i })) (fun _ => True)
      ops p.lastEventId more all) (first last : QueryResult)
    (h1 : ((Backend.new conf).run ops).query (.server { p with maxResults := none }) = .ok first)
    (h2 : ((Backend.new conf).run (ops ++ more)).query (.server { p with maxResults := none }) = .ok last)
    (e : Event) (he : e ∈ first.events) (he' : e ∈ last.events) : e ∈ all := by
  obtain ⟨w, hw, hr⟩ := reached_refs conf ops hl hk
  obtain ⟨w', h4, h4r, -, -, -, h5⟩ := server_pages_during h hl hid hno hp w hw hr
  have hp' : ServerParamsOk { p with maxResults := none } := ⟨hp.last, hp.server, by simp⟩
  obtain ⟨full, f1, f2⟩ := server_reached hw hr (query_open h1) _ hp'
  obtain ⟨full', f3, f4⟩ := server_reached h4 h4r (query_open h2) _ hp'
  rw [f2] at h1
  rw [f4] at h2
  cases h1
  cases h2
  obtain ⟨a1, a2, a3⟩ := (f1.mem e).1 (List.mem_of_mem_take he)
  obtain ⟨b1, -, -⟩ := (f3.mem e).1 (List.mem_of_mem_take he')
  exact h5 e a1 b1 a2 a3

/-! ### Examples -/

/-- Three events of a server are stored in a partition for two; between the
pages a fourth one is registered, a cleanup removes the last received event and
everything is flushed. -/
def exTurned : List BackendOp :=
  [.reopen (exConf none exTwo),
   .register [exE 1 1 1 ["a"] 1 none, exE 1 1 2 ["a"] 5 none, exE 1 1 3 ["a"] 6 none], .flush]

def exTurnedMore : List BackendOp := [exClean, .register [exE 1 1 4 ["a"] 7 none, exE 2 1 1 ["a"] 7 none], .flush]

theorem exTurned_ids : ∀ es, .register es ∈ exTurned ++ exTurnedMore → ∀ e ∈ es, IdRange e.id := by
  intro es h
  have : es = [exE 1 1 1 ["a"] 1 none, exE 1 1 2 ["a"] 5 none, exE 1 1 3 ["a"] 6 none] ∨
      es = [exE 1 1 4 ["a"] 7 none, exE 2 1 1 ["a"] 7 none] := by
    simpa [exTurned, exTurnedMore, exClean] using h
  rcases this with rfl | rfl <;> simp [exE, IdRange, U64]

/-- The hypotheses hold; the first event is removed after it is received. -/
example : LookupLaws exTurned ∧ KeepsAccepted exTurned ∧
    (∀ es, .register es ∈ exTurned ++ exTurnedMore → ∀ e ∈ es, IdRange e.id) ∧ (∀ c, .reopen c ∉ exTurnedMore) ∧
    ServerParamsOk { serverId := 1, maxResults := some 1 } ∧
    PagesDuring (fun ops i => ((Backend.new (exConf none [])).run ops).query
        (.server { serverId := 1, maxResults := some 1, lastEventId := i })) (fun _ => True) exTurned none exTurnedMore
      [exE 1 1 1 ["a"] 1 none, exE 1 1 2 ["a"] 5 none, exE 1 1 3 ["a"] 6 none, exE 1 1 4 ["a"] 7 none] ∧
    ((Backend.new (exConf none [])).run exTurned).query (.server { serverId := 1 }) =
      .ok ⟨[exE 1 1 1 ["a"] 1 none, exE 1 1 2 ["a"] 5 none, exE 1 1 3 ["a"] 6 none], false⟩ ∧
    ((Backend.new (exConf none [])).run (exTurned ++ exTurnedMore)).query (.server { serverId := 1 }) =
      .ok ⟨[exE 1 1 2 ["a"] 5 none, exE 1 1 3 ["a"] 6 none, exE 1 1 4 ["a"] 7 none], false⟩ := by
  refine ⟨?_, ?_, exTurned_ids, ?_, ⟨by simp, by norm_num, by simp⟩, ?_, by rfl, by rfl⟩
  · intro c hc
    have : c = exConf none exTwo := by simpa [exTurned] using hc
    rw [this]
    exact exConf_lookup _ _
  · unfold KeepsAccepted exTurned
    simp
  · intro c
    simp [exTurnedMore, exClean]
  · exact .more (events := [exE 1 1 1 ["a"] 1 none]) (x := exE 1 1 1 ["a"] 1 none) (between := exTurnedMore) (later := []) trivial
      (by rfl) rfl
      (.more (events := [exE 1 1 2 ["a"] 5 none]) (x := exE 1 1 2 ["a"] 5 none) (between := []) (later := []) trivial (by rfl) rfl
        (.more (events := [exE 1 1 3 ["a"] 6 none]) (x := exE 1 1 3 ["a"] 6 none) (between := []) (later := []) trivial (by rfl) rfl
          (.last trivial (by rfl))))

end HatEvent
