import Verif.Proofs.RocksStore
import Verif.Proofs.RocksOnce
/-
Histories that keep the index of the RocksDB datastore exact.
-/
set_option linter.unusedSimpArgs false
namespace IndraDB

theorem Graph.noOrphans_rocksDropVertices {g : Graph} (h : g.NoOrphans) (ids : List Uuid) :
    (g.rocksDropVertices ids).NoOrphans := by
  constructor
  · intro i n hp
    simp only [Graph.rocksDropVertices] at hp ⊢
    by_cases hi : i ∈ ids
    · rw [if_pos hi] at hp; exact absurd rfl hp
    · rw [if_neg hi] at hp ⊢; exact h.1 i n hp
  · intro e n hp
    simp only [Graph.rocksDropVertices] at hp ⊢
    by_cases hc : e.outboundId ∈ ids ∧ (g.edge e = true ∨ g.edge e.reversed = true)
    · rw [if_pos hc] at hp; exact absurd rfl hp
    · rw [if_neg hc] at hp
      have he := h.2 e n hp
      rw [if_neg (fun hi => hc ⟨hi, Or.inl he⟩)]; exact he

theorem Graph.noOrphans_rocksBulk (st : Json → Json) (items : List BulkInsertItem) : ∀ {g : Graph}, g.NoOrphans →
    ItemsChecked (Graph.rocksBulkItem st) g items → (items.foldl (Graph.rocksBulkItem st) g).NoOrphans := by
  induction items with
  | nil => intro g h _; exact h
  | cons i r ih =>
    rintro g h ⟨hc, hr⟩
    refine ih ?_ hr
    cases i with
    | vertex v =>
      constructor
      · intro i n hp
        have := h.1 i n hp
        simp only [Graph.rocksBulkItem, Graph.putVertex]
        split
        · simp
        · exact this
      · exact fun e n hp => h.2 e n hp
    | edge e =>
      constructor
      · exact fun i n hp => h.1 i n hp
      · intro f n hp
        have := h.2 f n hp
        simp only [Graph.rocksBulkItem, Graph.putEdge]
        rw [this, Bool.or_true]
    | vertexProperty id n v => exact Graph.noOrphans_putVProps h (by intro i hi; simp at hi; subst hi; exact hc) _ _
    | edgeProperty e n v => exact Graph.noOrphans_putEProps h (by intro i hi; simp at hi; subst hi; exact hc) _ _

theorem StepWith.noOrphans_rocks {X : Cfg} {C : Conv} {I : IndexView} {g g' : Graph} {ans : Query → Res (List Output × Output)}
    {op : Op} {r : Res Reply} (h : StepWith (Sem.rocks X) g ans op g' r) (hans : ∀ q, Answers g I C q (ans q))
    (ho : g.NoOrphans) (hc : op.IndexSafe X g) (hI : ∀ n v e, I.eValue n v e = true → g.edge e = true)
    (hP : ∀ n e, I.ePresent n e = true → g.edge e = true) : g'.NoOrphans := by
  cases op with
  | sync => rw [h.1]; exact ho
  | createVertex v => rw [h.1]; exact Graph.noOrphans_createVertex ho v
  | createVertexFromType id t => rw [h.1]; exact Graph.noOrphans_createVertex ho _
  | createEdge e => rw [h.1]; exact Graph.noOrphans_createEdge ho e
  | get q => rw [h.1]; exact ho
  | delete q =>
    have haq := hans q
    simp only [StepWith] at h
    generalize ans q = a at h haq
    cases a with
    | error f => rw [h.1]; exact ho
    | ok p =>
      obtain ⟨inc, v⟩ := p
      cases v with
      | vertices vs => rw [h.1]; exact Graph.noOrphans_rocksDropVertices ho _
      | edges es => rw [h.1]; exact Graph.noOrphans_dropEdges ho _
      | vertexProperties l => rw [h.1]; exact Graph.noOrphans_dropVProps ho _
      | edgeProperties l => rw [h.1]; exact Graph.noOrphans_dropEProps ho _
      | count n => rw [h.1]; exact ho
  | setProperties q n x =>
    have haq := hans q
    simp only [StepWith] at h
    generalize ans q = a at h haq
    cases a with
    | error f => rw [h.1]; exact ho
    | ok p =>
      obtain ⟨inc, v⟩ := p
      cases v with
      | vertices vs =>
        rw [h.1]
        refine Graph.noOrphans_putVProps ho ?_ _ _
        intro i hi
        rw [List.mem_map] at hi
        obtain ⟨v, hv, rfl⟩ := hi
        rw [answers_vertices_exist haq v hv]; simp
      | edges es =>
        rw [h.1]
        exact Graph.noOrphans_putEProps ho (answers_edges_exist' hI hP haq) _ _
      | _ => rw [h.1]; exact ho
  | bulkInsert items => rw [h.1]; exact Graph.noOrphans_rocksBulk _ items ho hc.2.2
  | indexProperty n => rw [h.1]; exact ho

namespace Rocks
variable {X : Cfg}

theorem Idx.init : Idx X Rocks.init := by
  constructor
  · intro n h i
    have h1 : vEntry Rocks.init n h i = false := rfl
    have h2 : Rocks.init.indexed.contains n = false := rfl
    rw [h1, h2]; simp
  · intro n h i
    have h1 : eEntry X Rocks.init n h i = false := rfl
    have h2 : Rocks.init.indexed.contains n = false := rfl
    rw [h1, h2]; simp

/-- Index entries of edges belong to existing edges. -/
theorem Idx.edge_of_entry {s : Rocks} (hi : Idx X s) (ho : (graph X s).NoOrphans) {n : Identifier} {h : UInt64} {e : Edge}
    (hn : eEntry X s n h e = true) : (graph X s).edge e = true := by
  obtain ⟨_, w, hw, _⟩ := (hi.e n h e).1 hn
  exact ho.2 e n (by rw [hw]; simp)

theorem Idx.eValue_edge {s : Rocks} (hi : Idx X s) (ho : (graph X s).NoOrphans) (n : Identifier) (v : Json) (e : Edge)
    (h : (index X s).eValue n v e = true) : (graph X s).edge e = true := hi.edge_of_entry ho h

theorem Idx.ePresent_edge {s : Rocks} (hw : Wf X s.kv) (hi : Idx X s) (ho : (graph X s).NoOrphans) (n : Identifier)
    (e : Edge) (h : (index X s).ePresent n e = true) : (graph X s).edge e = true := by
  obtain ⟨x, hx⟩ := (elisted_iff s hw n e).1 h
  exact hi.edge_of_entry ho hx

/-- The invariant of histories that keep the index exact. -/
structure CInv (X : Cfg) (s : Rocks) : Prop where
  inv : Inv X s
  idx : Idx X s
  noOrphans : (graph X s).NoOrphans

theorem CInv.init : CInv X Rocks.init :=
  ⟨Inv.init, Idx.init, by constructor <;> intro i n h <;> exact absurd rfl h⟩

theorem CInv.step {s : Rocks} (h : CInv X s) (O : IdentOrder) (op : Op) (hv : op.ValuesOk (CanRead X))
    (hs : op.IndexSafe X (graph X s)) : CInv X (step X O op s).1 := by
  have hst := dbStep_spec O op s h.inv hv
  refine ⟨hst.inv.toInv, hst.idx ?_ h.idx, ?_⟩
  · cases op with
    | setProperties q n x => exact hs
    | bulkInsert items => exact ⟨hs.1, hs.2.1⟩
    | indexProperty n => exact h.noOrphans
    | _ => trivial
  · refine hst.stepWith.noOrphans_rocks (fun q => eval_answers (faithful s h.inv.wf h.inv.values.readable) q) h.noOrphans hs ?_ ?_
    · exact fun n v e => h.idx.eValue_edge h.noOrphans n v e
    · exact fun n e => h.idx.ePresent_edge h.inv.wf h.noOrphans n e

theorem cinv_run (hist : List (IdentOrder × Op)) : ∀ s, CInv X s → (rocksStore X).OkHist hist →
    (rocksStore X).Along (fun g op => op.IndexSafe X g) hist s → CInv X ((rocksStore X).run hist s) := by
  induction hist with
  | nil => intro s hi _ _; exact hi
  | cons a r ih =>
    obtain ⟨O, op⟩ := a
    rintro s hi ho ⟨h1, h2⟩
    exact ih _ (hi.step O op (ho _ (List.mem_cons_self ..)) h1) (fun p hp => ho p (List.mem_cons_of_mem _ hp)) h2

/-- Listings of the index have no repetitions. -/
theorem CInv.index_nodup {s : Rocks} (h : CInv X s) : (index X s).nodup := by
  intro n a b
  refine ⟨?_, ?_⟩
  · intro i ha hb
    obtain ⟨_, w, hw, rfl⟩ := (h.idx.v n a i).1 ha
    obtain ⟨_, w', hw', rfl⟩ := (h.idx.v n b i).1 hb
    rw [hw] at hw'; cases hw'; rfl
  · intro i ha hb
    obtain ⟨_, w, hw, rfl⟩ := (h.idx.e n a i).1 ha
    obtain ⟨_, w', hw', rfl⟩ := (h.idx.e n b i).1 hb
    rw [hw] at hw'; cases hw'; rfl

/-- The index view is exact up to hash collisions. -/
theorem CInv.index_view {s : Rocks} (h : CInv X s) : ∀ n, (graph X s).indexed n = true →
    (∀ i, (graph X s).vertex i ≠ none → ((index X s).vPresent n i = true ↔ (graph X s).vprop i n ≠ none)) ∧
    (∀ v i, (graph X s).vertex i ≠ none →
      ((index X s).vValue n v i = true ↔ ∃ w, (graph X s).vprop i n = some w ∧ (conv X).valueMatch w v = true)) ∧
    (∀ e, (index X s).ePresent n e = true ↔ (graph X s).edge e = true ∧ (graph X s).eprop e n ≠ none) ∧
    (∀ v e, (index X s).eValue n v e = true ↔
      (graph X s).edge e = true ∧ ∃ w, (graph X s).eprop e n = some w ∧ (conv X).valueMatch w v = true) := by
  intro n hn
  have hn' : s.indexed.contains n = true := hn
  have hex : ∀ i, (graph X s).vertex i ≠ none → (s.kv .vertices).contains (vertexKey X i) = true := by
    intro i hi; rw [vertex_isSome s h.inv.wf, Option.isSome_iff_ne_none]; exact hi
  refine ⟨?_, ?_, ?_, ?_⟩
  · intro i hi
    show (listed (s.kv .vertexPropertyValues) n i.bytes && _) = true ↔ (graph X s).vprop i n ≠ none
    rw [Bool.and_eq_true, vlisted_iff s h.inv.wf]
    constructor
    · rintro ⟨⟨x, hx⟩, _⟩
      obtain ⟨_, w, hw, _⟩ := (h.idx.v n x i).1 hx
      rw [hw]; simp
    · intro hp
      cases hw : (graph X s).vprop i n with
      | none => exact absurd hw hp
      | some w => exact ⟨⟨_, (h.idx.v n _ i).2 ⟨hn', w, hw, rfl⟩⟩, hex i hi⟩
  · intro v i hi
    show (vEntry s n (X.H v.stream) i && _) = true ↔ ∃ w, (graph X s).vprop i n = some w ∧ _
    rw [Bool.and_eq_true, h.idx.v]
    constructor
    · rintro ⟨⟨_, w, hw, hh⟩, _⟩; exact ⟨w, hw, beq_iff_eq.2 hh⟩
    · rintro ⟨w, hw, hh⟩; exact ⟨⟨hn', w, hw, beq_iff_eq.1 hh⟩, hex i hi⟩
  · intro e
    show listed (s.kv .edgePropertyValues) n (edgeKey X e) = true ↔ (graph X s).edge e = true ∧ (graph X s).eprop e n ≠ none
    rw [elisted_iff s h.inv.wf]
    constructor
    · rintro ⟨x, hx⟩
      obtain ⟨_, w, hw, _⟩ := (h.idx.e n x e).1 hx
      have hp : (graph X s).eprop e n ≠ none := by rw [hw]; simp
      exact ⟨h.noOrphans.2 e n hp, hp⟩
    · rintro ⟨_, hp⟩
      cases hw : (graph X s).eprop e n with
      | none => exact absurd hw hp
      | some w => exact ⟨_, (h.idx.e n _ e).2 ⟨hn', w, hw, rfl⟩⟩
  · intro v e
    show eEntry X s n (X.H v.stream) e = true ↔ (graph X s).edge e = true ∧ ∃ w, (graph X s).eprop e n = some w ∧ _
    rw [h.idx.e]
    constructor
    · rintro ⟨_, w, hw, hh⟩
      exact ⟨h.noOrphans.2 e n (by rw [hw]; simp), w, hw, beq_iff_eq.2 hh⟩
    · rintro ⟨_, w, hw, hh⟩; exact ⟨hn', w, hw, beq_iff_eq.1 hh⟩

/-- The index is exact up to hash collisions, and listings have no repetitions. -/
theorem index_exact {s : Rocks} (hr : (rocksStore X).Reach s) (h : CInv X s) :
    (rocksStore X).IndexExactAt (fun w x => X.H w.stream == X.H x.stream) True s := by
  have hnd := h.index_nodup
  have key := (conforms X).indexExactAt hr (s := s) (nd := True) (fun _ _ => hnd) (fun _ => h.index_view)
  intro env n hn
  exact key env n hn

/-- The order of edge keys. -/
theorem edgeLt_eq (a b : Edge) : (conv X).edgeLt a b = rocksEdgeLt a b := by
  show lexLt (edgeKey X a) (edgeKey X b) = _
  have hb : ∀ i : Identifier, (UInt8.ofNat i.bytes.length).toNat = i.bytes.length := by
    intro i; have := i.len; simp [UInt8.toNat_ofNat']; omega
  rw [Bool.eq_iff_iff, edgeKey_eq, edgeKey_eq, lexLt_append (by rw [a.outboundId.len, b.outboundId.len])]
  simp only [rocksEdgeLt, Bool.or_eq_true, Bool.and_eq_true, decide_eq_true_eq, beq_iff_eq]
  have h1 : lexLt a.outboundId.bytes b.outboundId.bytes = Order.lt a.outboundId b.outboundId := rfl
  have h2 : a.outboundId.bytes = b.outboundId.bytes ↔ a.outboundId = b.outboundId := ⟨Uuid.inj, fun h => by rw [h]⟩
  rw [h1, h2]
  refine or_congr Iff.rfl (and_congr Iff.rfl ?_)
  unfold identBytes
  rw [List.cons_append, List.cons_append, lexLt_cons, UInt8.order_lt, hb, hb, decide_eq_true_eq]
  refine or_congr Iff.rfl ?_
  have h3 : UInt8.ofNat a.t.bytes.length = UInt8.ofNat b.t.bytes.length ↔ a.t.bytes.length = b.t.bytes.length := by
    constructor
    · intro h; rw [← hb a.t, ← hb b.t, h]
    · intro h; rw [h]
  rw [h3]
  refine and_congr_right (fun hl => ?_)
  rw [lexLt_append hl]
  refine or_congr Iff.rfl (and_congr ⟨Identifier.inj, fun h => by rw [h]⟩ Iff.rfl)

end Rocks
end IndraDB
