import Verif.Props.LmdbTimeseries

/-!
# Lemmas about paging through timeseries, whatever the order of pending events
-/

namespace HatEvent
open Spec

theorem pendingRange_sublist (l : List Event) (params : QueryTimeseriesParams) :
    (pendingRange l params).Sublist (match params.order with
      | .ascending => l
      | .descending => l.reverse) := by
  unfold pendingRange
  cases params.order with
  | ascending => exact (List.takeWhile_sublist _).trans (List.dropWhile_sublist _)
  | descending => exact (List.takeWhile_sublist _).trans (List.dropWhile_sublist _)

/-- Events looked at have different identifiers; a query returns the first ones
that pass, or the first ones after the given one. -/
theorem series_pages {conf : Conf} {d : Disk} {m : Mem} {parts : Dict Int Partition} {fl cur : Store}
    (hd : DiskRel d fl) (hm : MemRel conf d m parts fl cur) (okF : StoreOk fl) (okC : StoreOk cur)
    (hser : SeriesOk d) (hpt : ∀ i p, Dict.get parts i = some p → Dict.get d.tsPartition i = some (partitionData p))
    (conf' : Conf) {q : Int} {part : Partition} {params : QueryTimeseriesParams}
    (hq : Dict.get parts q = some part) (ho : part.orderBy = params.orderBy) (sub : Option Sub)
    (h1 : TimeRange (params.range.1.getD minTimestamp)) (h2 : TimeRange (params.range.2.getD maxTimestamp)) :
    ∃ L : List Event, (L.filter (filterOf sub params 0).accepts).Pairwise (fun a b => a.id ≠ b.id) ∧
      (∀ e ∈ L, e ∈ cur.log) ∧ ∀ n : Int, 0 ≤ n → ∀ mr,
      queryPartition conf' d m.timeseries q { params with lastEventId := none, maxResults := mr } sub n =
        .ok (page (L.filter (filterOf sub params 0).accepts) n.toNat) ∧
      (∀ pre x post, L.filter (filterOf sub params 0).accepts = pre ++ x :: post →
        queryPartition conf' d m.timeseries q { params with lastEventId := some x.id, maxResults := mr } sub n =
          .ok (page post n.toNat)) := by
  obtain ⟨pend, hlog, hpend⟩ := hm.pend
  have hqtab := hpt q part hq
  have hu : U64 q := hd.parts.range _ _ hqtab
  generalize hP : (((Dict.get m.timeseries.changes q).getD []).map Prod.snd) = P
  have hP' : P = (pend.filterMap (pendingEntry parts q)).map Prod.snd := by rw [← hP, hpend]
  have hpe : ∀ e x, pendingEntry parts q e = some x →
      x.2 = e ∧ orderTimestamp params.orderBy e = some x.1 := by
    intro e x hx
    obtain ⟨h3, h4⟩ := pendingEntry_iff.1 hx
    refine ⟨h3, ?_⟩
    obtain ⟨_, part', hg, _, hx⟩ := h4
    simp only at hg hx
    rw [hq] at hg; cases hg
    rw [← ho, orderTimestamp_iff]; exact hx
  have memP : ∀ e, e ∈ P → e ∈ pend ∧ ∃ x, pendingEntry parts q e = some x := by
    intro e
    rw [hP']
    simp only [List.mem_map, List.mem_filterMap]
    rintro ⟨x, ⟨a, ha, hx⟩, rfl⟩
    have := (hpe a x hx).1
    rw [this]
    exact ⟨ha, x, hx⟩
  have ids := log_ids okC
  rw [hlog, List.pairwise_append] at ids
  have pIds : P.Pairwise fun a b => a.id ≠ b.id := by
    rw [hP', List.pairwise_map]
    refine pairwise_pending ?_ ids.2.1
    intro a b x y hx hy hab
    rw [(hpe a x hx).1, (hpe b y hy).1]; exact hab
  have hent : ∀ x ∈ d.tsData, x.1.partition = q → orderTimestamp params.orderBy x.2 = some x.1.timestamp ∧
      x.2 ∈ fl.log ∧ x.1.id = x.2.id := by
    intro x hx hxq
    obtain ⟨pd, h3, h4⟩ := hser x hx
    rw [hxq, hqtab] at h3
    have h3 := Option.some.inj h3
    have he : fl.entry x.1 = some x.2 := by
      rw [hd.entry]; exact Dict.get_of_mem hd.sortTs.nodup hx
    obtain ⟨h5, h6, _⟩ := okF.entryId _ _ he
    refine ⟨?_, h6, h5⟩
    rw [← h3] at h4
    rw [← ho]; exact h4
  have dIds : (diskPart conf' d q params).Pairwise fun a b => a.id ≠ b.id := by
    unfold diskPart
    apply List.Pairwise.filter
    rw [List.pairwise_map, List.pairwise_filter]
    refine List.Pairwise.imp_of_mem ?_ hd.sortTs
    intro a b ha hb hab ra rb
    have qa := inRange_partition ra
    have qb := inRange_partition rb
    obtain ⟨a1, a2, a3⟩ := hent a ha qa
    obtain ⟨b1, b2, b3⟩ := hent b hb qb
    have hlt := tsKey_lt.1 hab
    intro hid
    have hev : a.2 = b.2 := storeOk_unique okF a2 b2 hid
    rw [hev, b1] at a1
    have : a.1 = b.1 := TimeseriesKey.ext' (qa.trans qb.symm) (Option.some.inj a1).symm
      (by rw [a3, b3, hid])
    rw [this] at hlt
    exact hlt.irrefl
  have dFl : ∀ e ∈ diskPart conf' d q params, e ∈ fl.log := by
    intro e he
    unfold diskPart at he
    simp only [List.mem_filter, List.mem_map] at he
    obtain ⟨⟨x, ⟨hx, hr⟩, rfl⟩, _⟩ := he
    exact (hent x hx (inRange_partition hr)).2.1
  have cIds : (diskPart conf' d q params ++ P).Pairwise fun a b => a.id ≠ b.id := by
    rw [List.pairwise_append]
    exact ⟨dIds, pIds, fun a ha b hb => ids.2.2 a (dFl a ha) b (memP b hb).1⟩
  have hsub : (looked conf' d q params P).Sublist (match params.order with
      | .ascending => diskPart conf' d q params ++ P
      | .descending => (diskPart conf' d q params ++ P).reverse) := by
    have := pendingRange_sublist P params
    unfold looked
    cases ho' : params.order with
    | ascending =>
      rw [ho'] at this
      exact (List.Sublist.refl _).append this
    | descending =>
      rw [ho'] at this
      simp only [List.reverse_append]
      exact this.append (List.Sublist.refl _)
  have lIds : (looked conf' d q params P).Pairwise fun a b => a.id ≠ b.id := by
    refine List.Pairwise.sublist hsub ?_
    cases params.order with
    | ascending => exact cIds
    | descending => exact List.pairwise_reverse.2 (cIds.imp fun h => h.symm)
  have lMem : ∀ e ∈ looked conf' d q params P, e ∈ cur.log := by
    intro e he
    have he := hsub.subset he
    have : e ∈ diskPart conf' d q params ∨ e ∈ P := by
      revert he
      cases params.order <;> simp [or_comm]
    rw [hlog]
    rcases this with h | h
    · exact List.mem_append_left _ (dFl e h)
    · exact List.mem_append_right _ (memP e h).1
  refine ⟨looked conf' d q params P, lIds.filter _, lMem, ?_⟩
  intro n hn mr
  have hpn : ∀ x ∈ (Dict.get m.timeseries.changes q).getD [],
      orderTimestamp params.orderBy x.2 ≠ none := by
    intro x hx
    have : x.2 ∈ P := by rw [← hP]; exact List.mem_map.2 ⟨x, hx, rfl⟩
    obtain ⟨_, y, hy⟩ := memP _ this
    rw [(hpe _ y hy).2]; simp
  have hqp : ∀ i, queryPartition conf' d m.timeseries q
      { params with lastEventId := i, maxResults := mr } sub n =
      cutSeries ((filterOf sub { params with lastEventId := i, maxResults := mr } (n + 1)).process
        (looked conf' d q params P)).1 n := by
    intro i
    have := queryPartition_eq (conf := conf') hd.sortTs hu
      (params := { params with lastEventId := i, maxResults := mr }) h1 h2 m.timeseries sub n hpn
    rw [this, hP]
    rfl
  generalize looked conf' d q params P = L at lIds hqp
  refine ⟨?_, ?_⟩
  · rw [hqp]
    exact (cut_process hn L).1 rfl
  · intro pre x post hf
    rw [hqp]
    obtain ⟨l1, l2, rfl, h3, h4⟩ := List.filter_eq_append_iff.1 hf
    obtain ⟨l3, l4, rfl, h5, h6, h7⟩ := List.filter_eq_cons_iff.1 h4
    rw [← h7]
    refine (cut_process hn _).2.1 (l1 ++ l3) x l4 rfl (by simp) ?_
    intro e he
    rw [← List.append_assoc, List.pairwise_append] at lIds
    exact lIds.2.2 e he x (by simp)

end HatEvent
