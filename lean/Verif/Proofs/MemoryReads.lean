import Verif.Proofs.Query
import Verif.Proofs.Container
import Verif.Proofs.Uuid
/-
The memory datastore's reads faithfully read its graph.
-/
set_option linter.unusedSimpArgs false
namespace IndraDB

/-- Conventions of the memory datastore: edges in derived order, values found as hash map keys, and the panic of
`next_uuid(..).unwrap()`. -/
def memConv (K : HashEq) : Conv where
  edgeLt := Order.lt
  edge_irrefl := Order.irrefl
  edge_trans := Order.trans
  out_lt a b h := by rw [Edge.lt_iff, Order.prod_lt]; exact Or.inl h
  bound_t e := by
    cases h : Order.lt e ⟨e.outboundId, e.t, Uuid.nil⟩ with
    | false => rfl
    | true =>
      rw [Edge.lt_iff, Order.prod_lt, Order.prod_lt] at h
      simp [Order.irrefl, Uuid.not_lt_nil] at h
  bound e := by
    cases h : Order.lt e ⟨e.outboundId, Identifier.empty, Uuid.nil⟩ with
    | false => rfl
    | true =>
      rw [Edge.lt_iff, Order.prod_lt, Order.prod_lt] at h
      simp [Order.irrefl, Uuid.not_lt_nil, Identifier.not_lt_empty] at h
  valueMatch := K.same
  propsPanic id := decide (id = Uuid.max)

namespace Mem

/-- The abstract graph of a state. -/
def graph (m : Mem) : Graph where
  vertex := m.vertices.get
  edge := m.edges.contains
  vprop i n := m.vertexProperties.get (i, n)
  eprop e n := m.edgeProperties.get (e, n)
  indexed n := m.propertyValues.contains n

/-- Does the index of `n` list `x` under value `v`? -/
def idx (F : Finder) (m : Mem) (n : Identifier) (v : Json) (x : Member) : Bool :=
  match m.propertyValues.get n with
  | some c => c.idx F v x
  | none => false

/-- Does the index of `n` list `x`? -/
def listed (m : Mem) (n : Identifier) (x : Member) : Bool :=
  match m.propertyValues.get n with
  | some c => c.any x
  | none => false

/-- What the index reports. -/
def index (F : Finder) (m : Mem) : IndexView where
  vPresent n i := m.listed n (.inl i)
  vValue n v i := m.idx F n v (.inl i)
  ePresent n e := m.listed n (.inr e)
  eValue n v e := m.idx F n v (.inr e) && m.edges.contains e
  nodup := True

/-- The table of reversed edges mirrors the table of edges. -/
def RevOk (m : Mem) : Prop := ∀ e, m.reversedEdges.contains e = m.edges.contains e.reversed

theorem enum_vertices (l : List (Uuid × Identifier)) (P : Uuid × Identifier → Prop)
    (hs : l.Pairwise (fun a b => Order.lt a.1 b.1 = true)) (hm : ∀ e, e ∈ l ↔ P e) :
    Enumerates vertexLt (l.map (fun e => (⟨e.1, e.2⟩ : Vertex))) (fun v => P (v.id, v.t)) := by
  refine ⟨?_, ?_⟩
  · rw [List.pairwise_map]; exact hs
  · intro v
    rw [List.mem_map]
    constructor
    · rintro ⟨e, he, rfl⟩; exact (hm e).1 he
    · intro h; exact ⟨(v.id, v.t), (hm _).2 h, rfl⟩

theorem prop_scan_lower {α : Type} [Order α] (a : α × Identifier) (x : α) :
    Order.lt a (x, Identifier.empty) = Order.lt a.1 x := by
  rw [Bool.eq_iff_iff, Order.prod_lt]
  simp [Identifier.not_lt_empty]

theorem faithful (F : Finder) (O : HashOrder) (m : Mem) (hr : m.RevOk) :
    Faithful (m.reads F O) m.graph (m.index F) (memConv K) where
  allVertices := by
    refine ⟨m.vertices.toList.map (fun e => ⟨e.1, e.2⟩), ?_, ?_, ?_⟩
    · simp [Yields, reads, allVertices]
    · simp [reads, vertexCount, SMap.size]
    · exact enum_vertices _ _ m.vertices.sorted (fun e => SMap.mem_toList')
  rangeVertices s := by
    refine ⟨(m.vertices.rangeFrom s).map (fun e => ⟨e.1, e.2⟩), ?_, ?_⟩
    · simp [Yields, reads, rangeVertices]
    · exact enum_vertices _ (fun e => m.vertices.get e.1 = some e.2 ∧ Order.lt e.1 s = false)
        (SMap.rangeFrom_sorted _ _) (fun e => by rw [SMap.mem_rangeFrom])
  specificVertices ids := by
    simp only [Yields, reads, specificVertices, Graph.lookup, graph, List.map_filterMap]
    congr 2
    funext id
    cases m.vertices.get id <;> rfl
  vIds n := by
    cases h : m.propertyValues.get n with
    | none => simp [YieldsIndex, graph, reads, vertexIdsWithProperty, SMap.contains, h]
    | some c =>
      simp only [YieldsIndex, graph, reads, vertexIdsWithProperty, SMap.contains, h, Option.isSome_some, if_true]
      refine ⟨_, rfl, ?_, ?_⟩
      · intro x
        rw [(O.uuids_perm _).mem_iff, SSet.mem_elems, contains_containerIds]
        simp [index, listed, h]
      · intro _
        exact (O.uuids_perm _).nodup_iff.2 (SSet.nodup_elems _)
  vIdsValue n v := by
    cases h : m.propertyValues.get n with
    | none => simp [YieldsIndex, graph, reads, vertexIdsWithPropertyValue, SMap.contains, h]
    | some c =>
      simp only [YieldsIndex, graph, reads, vertexIdsWithPropertyValue, SMap.contains, h, Option.isSome_some, if_true]
      cases hf : c.find F v with
      | none =>
        refine ⟨[], rfl, ?_, fun _ => List.nodup_nil⟩
        intro x; simp [index, idx, h, Container.idx, hf]
      | some s =>
        refine ⟨(O.members s.elems).filterMap (fun mem => match mem with
          | .inl id => some id
          | .inr _ => none), ?_, ?_, ?_⟩
        · simp only [List.map_filterMap]
          congr 3
          funext mem; cases mem <;> rfl
        · intro x
          rw [List.mem_filterMap]
          have : m.idx F n v (.inl x) = s.contains (.inl x) := by simp [idx, h, Container.idx, hf]
          simp only [index, this]
          rw [← SSet.mem_elems, ← (O.members_perm _).mem_iff]
          constructor
          · rintro ⟨mem, hm, he⟩
            cases mem with
            | inl i => simp at he; subst he; exact hm
            | inr e => simp at he
          · intro hm; exact ⟨_, hm, rfl⟩
        · intro _
          refine List.Pairwise.filterMap _ ?_ ((O.members_perm _).nodup_iff.2 (SSet.nodup_elems s))
          intro a b hab x hx y hy
          cases a <;> cases b <;> simp at hx hy
          subst hx hy
          intro h; exact hab (by rw [h])
  allEdges := by
    refine ⟨m.edges.elems, rfl, ?_, ⟨SSet.elems_sorted _, fun e => SSet.mem_elems⟩⟩
    simp [reads, edgeCount, SSet.elems, SMap.size]
  rangeEdges lo := by
    exact ⟨m.edges.from' lo, rfl, SSet.from'_sorted _ _, fun e => SSet.mem_from'⟩
  rangeReversedEdges lo := by
    refine ⟨m.reversedEdges.from' lo, rfl, SSet.from'_sorted _ _, fun e => ?_⟩
    rw [SSet.mem_from', hr e]; rfl
  specificEdges es := by
    simp [Yields, reads, specificEdges, graph]
  eIds n := by
    cases h : m.propertyValues.get n with
    | none => simp [YieldsIndex, graph, reads, edgesWithProperty, SMap.contains, h]
    | some c =>
      simp only [YieldsIndex, graph, reads, edgesWithProperty, SMap.contains, h, Option.isSome_some, if_true]
      refine ⟨_, rfl, ?_, ?_⟩
      · intro x
        rw [(O.edges_perm _).mem_iff, SSet.mem_elems, contains_containerEdges]
        simp [index, listed, h]
      · intro _
        exact (O.edges_perm _).nodup_iff.2 (SSet.nodup_elems _)
  eIdsValue n v := by
    cases h : m.propertyValues.get n with
    | none => simp [YieldsIndex, graph, reads, edgesWithPropertyValue, SMap.contains, h]
    | some c =>
      simp only [YieldsIndex, graph, reads, edgesWithPropertyValue, SMap.contains, h, Option.isSome_some, if_true]
      cases hf : c.find F v with
      | none =>
        refine ⟨[], rfl, ?_, fun _ => List.nodup_nil⟩
        intro x; simp [index, idx, h, Container.idx, hf]
      | some s =>
        refine ⟨(O.members s.elems).filterMap (fun mem => match mem with
          | .inr e => if (m.edges.get e).isSome then some e else none
          | .inl _ => none), ?_, ?_, ?_⟩
        · simp only [List.map_filterMap]
          congr 3
          funext mem
          cases mem with
          | inl i => rfl
          | inr e => by_cases hc : (SMap.get m.edges e).isSome = true <;> simp [hc]
        · intro x
          rw [List.mem_filterMap]
          have : m.idx F n v (.inr x) = s.contains (.inr x) := by simp [idx, h, Container.idx, hf]
          simp only [index, this, Bool.and_eq_true]
          rw [← SSet.mem_elems, ← (O.members_perm _).mem_iff]
          constructor
          · rintro ⟨mem, hm, he⟩
            cases mem with
            | inl i => simp at he
            | inr e =>
              simp only at he
              split at he
              · rename_i hc; simp at he; subst he; exact ⟨hm, hc⟩
              · simp at he
          · rintro ⟨hm, hc⟩; exact ⟨_, hm, by simp only [SMap.contains] at hc; simp [hc]⟩
        · intro _
          refine List.Pairwise.filterMap _ ?_ ((O.members_perm _).nodup_iff.2 (SSet.nodup_elems s))
          intro a b hab x hx y hy
          cases a <;> cases b <;> simp at hx hy
          obtain ⟨_, rfl⟩ := hx
          obtain ⟨_, rfl⟩ := hy
          intro h; exact hab (by rw [h])
  vertexProperty v n := rfl
  allVertexProps v := by
    simp only [memConv, reads, allVertexPropertiesForVertex]
    by_cases hv : v.id = Uuid.max
    · obtain ⟨e, he⟩ := (nextUuid_max_iff v.id).2 hv
      simp [hv] at *
      rw [he]
    · simp only [hv, decide_false, Bool.false_eq_true, if_false]
      cases hn : nextUuid v.id with
      | error e => exact absurd ((nextUuid_max_iff v.id).1 ⟨e, hn⟩) hv
      | ok next =>
        simp only
        have hnext := ((nextUuid_spec v.id).1 next).1 hn
        refine ⟨((m.vertexProperties.rangeFrom (v.id, Identifier.empty)).filter
          (fun e => Order.lt e.1 (next, Identifier.empty))).map (fun e => (e.1.2, e.2)), ?_, ?_⟩
        · simp [Yields]
        · have hin : ∀ e : (Uuid × Identifier) × Json,
              e ∈ (m.vertexProperties.rangeFrom (v.id, Identifier.empty)).filter
                (fun e => Order.lt e.1 (next, Identifier.empty)) ↔
              m.vertexProperties.get e.1 = some e.2 ∧ e.1.1 = v.id := by
            intro e
            rw [List.mem_filter, SMap.mem_rangeFrom, prop_scan_lower, prop_scan_lower]
            constructor
            · rintro ⟨⟨h1, h2⟩, h3⟩
              refine ⟨h1, ?_⟩
              rw [Uuid.lt_iff, hnext] at h3
              have h4 : ¬ e.1.1.toNat < v.id.toNat := by rw [← Uuid.lt_iff, h2]; simp
              exact Uuid.toNat_inj (by omega)
            · rintro ⟨h1, h2⟩
              refine ⟨⟨h1, by rw [h2]; exact Order.irrefl _⟩, ?_⟩
              rw [Uuid.lt_iff, hnext, h2]; omega
          refine ⟨?_, ?_⟩
          · rw [List.pairwise_map]
            refine ((SMap.rangeFrom_sorted _ _).filter _).imp_of_mem ?_
            intro a b ha hb hab
            rw [Order.prod_lt, ((hin a).1 ha).2, ((hin b).1 hb).2] at hab
            simpa [Order.irrefl] using hab
          · intro p
            rw [List.mem_map]
            constructor
            · rintro ⟨e, he, rfl⟩
              have := (hin e).1 he
              show m.vertexProperties.get (v.id, e.1.2) = _
              rw [← this.2]; exact this.1
            · intro h
              exact ⟨((v.id, p.1), p.2), (hin _).2 ⟨h, rfl⟩, rfl⟩
  edgeProperty e n := rfl
  allEdgeProps e := by
    simp only [reads, allEdgePropertiesForEdge]
    refine ⟨((m.edgeProperties.rangeFrom (e, Identifier.empty)).takeWhile (fun p => decide (p.1.1 = e))).map
      (fun p => (p.1.2, p.2)), ?_, ?_⟩
    · simp [Yields]
    · have htw : (m.edgeProperties.rangeFrom (e, Identifier.empty)).takeWhile (fun p => decide (p.1.1 = e))
          = (m.edgeProperties.rangeFrom (e, Identifier.empty)).filter (fun p => decide (p.1.1 = e)) := by
        apply takeWhile_eq_filter
        refine (SMap.rangeFrom_sorted _ _).imp_of_mem ?_
        intro a b ha hb hab hb'
        simp only [decide_eq_true_eq] at hb' ⊢
        have h1 := (SMap.mem_rangeFrom.1 ha).2
        rw [prop_scan_lower] at h1
        rw [Order.prod_lt] at hab
        rcases hab with h | ⟨h, _⟩
        · rw [hb'] at h
          exact absurd (Order.asymm h) (by rw [Order.asymm h] at *; simp [h] at h1)
        · rw [h, hb']
      rw [htw]
      have hin : ∀ p : (Edge × Identifier) × Json,
          p ∈ (m.edgeProperties.rangeFrom (e, Identifier.empty)).filter (fun p => decide (p.1.1 = e)) ↔
          m.edgeProperties.get p.1 = some p.2 ∧ p.1.1 = e := by
        intro p
        rw [List.mem_filter, SMap.mem_rangeFrom, prop_scan_lower, decide_eq_true_eq]
        constructor
        · rintro ⟨⟨h1, h2⟩, h3⟩; exact ⟨h1, h3⟩
        · rintro ⟨h1, h2⟩; exact ⟨⟨h1, by rw [h2]; exact Order.irrefl _⟩, h2⟩
      refine ⟨?_, ?_⟩
      · rw [List.pairwise_map]
        refine ((SMap.rangeFrom_sorted _ _).filter _).imp_of_mem ?_
        intro a b ha hb hab
        rw [Order.prod_lt, ((hin a).1 ha).2, ((hin b).1 hb).2] at hab
        simpa [Order.irrefl] using hab
      · intro p
        rw [List.mem_map]
        constructor
        · rintro ⟨q, hq, rfl⟩
          have := (hin q).1 hq
          show m.edgeProperties.get (e, q.1.2) = _
          rw [← this.2]; exact this.1
        · intro h
          exact ⟨((e, p.1), p.2), (hin _).2 ⟨h, rfl⟩, rfl⟩

end Mem
end IndraDB
