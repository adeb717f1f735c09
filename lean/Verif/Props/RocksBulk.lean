import Verif.Props.Rocks
/-
C27: bulk insertion into the RocksDB datastore.
-/
set_option linter.unusedSimpArgs false
namespace IndraDB
open Rocks

/-- The item would also succeed as an individual call and not be a no-op: a vertex is new (or has the same type already),
an edge has both endpoints, a property has an existing owner. -/
def BulkInsertItem.FreshIn (g : Graph) : BulkInsertItem → Prop
  | .vertex v => g.vertex v.id = none ∨ g.vertex v.id = some v.t
  | .edge e => g.vertex e.outboundId ≠ none ∧ g.vertex e.inboundId ≠ none
  | .vertexProperty id _ _ => g.vertex id ≠ none
  | .edgeProperty e _ _ => g.edge e = true

/-- Each item is fresh at its point of the sequence. -/
def ItemsFresh (f : Graph → BulkInsertItem → Graph) (g : Graph) : List BulkInsertItem → Prop
  | [] => True
  | item :: r => item.FreshIn g ∧ ItemsFresh f (f g item) r

variable (X : Cfg)

/-- One call does to the graph what the bulk item does. -/
theorem rocksItemCall (s : Rocks) (hr : (rocksStore X).Reach s) (O : IdentOrder) (i : BulkInsertItem)
    (hv : i.Values (CanRead X))
    (h : i.FreshIn (graph X s)) :
    i.toOp.ValuesOk (CanRead X) ∧
    graph X (Rocks.step X O i.toOp s).1 = Graph.rocksBulkItem X.stored (graph X s) i := by
  cases i with
  | vertex v =>
    refine ⟨trivial, ?_⟩
    have h1 := (C01_rocks X).1 s hr O v
    have h2 : graph X (Rocks.step X O (.createVertex v) s).1 =
      (if (graph X s).vertex v.id = none then (graph X s).putVertex v.id v.t else graph X s) := h1.2.2.1
    show graph X (Rocks.step X O (.createVertex v) s).1 = _
    rw [h2]
    rcases h with h | h
    · rw [if_pos h]; rfl
    · rw [if_neg (by rw [h]; simp)]
      refine Graph.ext ?_ rfl rfl rfl rfl
      funext i
      show _ = if i = v.id then some v.t else _
      by_cases hi : i = v.id
      · rw [if_pos hi, hi, h]
      · rw [if_neg hi]
  | edge e =>
    refine ⟨trivial, ?_⟩
    have h1 := (C02_rocks X s hr O e).2.2
    have h2 : graph X (Rocks.step X O (.createEdge e) s).1 =
      (if (graph X s).vertex e.outboundId ≠ none ∧ (graph X s).vertex e.inboundId ≠ none then (graph X s).putEdge e
       else graph X s) := h1
    show graph X (Rocks.step X O (.createEdge e) s).1 = _
    have h' : (graph X s).vertex e.outboundId ≠ none ∧ (graph X s).vertex e.inboundId ≠ none := h
    rw [h2, if_pos h']; rfl
  | vertexProperty id n x =>
    refine ⟨hv, ?_⟩
    have hq := ((C16_rocks X).1 s hr O).2.2 [id]
    have hval : (rocksStore X).value O (.specificVertex [id]) s = .ok (.vertices ((graph X s).lookup [id])) := by
      unfold Store.value; rw [hq]; rfl
    have hnp := step_no_panic O (.setProperties (.specificVertex [id]) n x) s (inv_reach hr) hv
    have h1 := (((C07_rocks_partial X).1 s hr O (.specificVertex [id]) n x hv hnp).1 _ hval).2
    refine Eq.trans h1 ?_
    have hl : ((graph X s).lookup [id]).map (·.id) = [id] := by
      cases hg : (graph X s).vertex id with
      | none => exact absurd hg h
      | some t => simp [Graph.lookup, hg]
    show (graph X s).putVProps _ n (X.stored x) = (graph X s).putVProps [id] n (X.stored x)
    exact congrArg (fun l => (graph X s).putVProps l n (X.stored x)) hl
  | edgeProperty e n x =>
    refine ⟨hv, ?_⟩
    have hq := ((C16_rocks X).2 s hr O).2 [e]
    have hval : (rocksStore X).value O (.specificEdge [e]) s = .ok (.edges ([e].filter (graph X s).edge)) := by
      unfold Store.value; rw [hq]; rfl
    have hnp := step_no_panic O (.setProperties (.specificEdge [e]) n x) s (inv_reach hr) hv
    have h1 := (((C07_rocks_partial X).1 s hr O (.specificEdge [e]) n x hv hnp).2 _ hval).2
    refine Eq.trans h1 ?_
    have h' : (graph X s).edge e = true := h
    have hl : [e].filter (graph X s).edge = [e] := by simp [h']
    show (graph X s).putEProps _ n (X.stored x) = (graph X s).putEProps [e] n (X.stored x)
    exact congrArg (fun l => (graph X s).putEProps l n (X.stored x)) hl

/-- What is true of C27: bulk insertion has the effect of its items one after the other, where a vertex item overwrites
the type of an existing vertex and edges and properties are written without looking for endpoints or owners; if each item
is one that the individual call would also carry out, then the vertices, edges and properties are afterwards what the
individual calls, in order, would make them. Missing: the other items (`C27_rocks_refuted`). The index is exact afterwards
in both cases (C12) if no property occurs twice. -/
theorem C27_rocks_partial (s : Rocks) (hr : (rocksStore X).Reach s) (O : IdentOrder) (items : List BulkInsertItem)
    (hv : ∀ i ∈ items, i.Values (CanRead X)) :
    ((rocksStore X).step O (.bulkInsert items) s).2 = .ok .unit ∧
    (rocksStore X).graph ((rocksStore X).step O (.bulkInsert items) s).1 =
      items.foldl (Graph.rocksBulkItem X.stored) ((rocksStore X).graph s) ∧
    (ItemsFresh (Graph.rocksBulkItem X.stored) ((rocksStore X).graph s) items →
      ∀ calls : List (IdentOrder × Op), calls.map (·.2) = items.map BulkInsertItem.toOp →
      (rocksStore X).graph ((rocksStore X).step O (.bulkInsert items) s).1 =
        (rocksStore X).graph ((rocksStore X).run calls s)) := by
  obtain ⟨h1, h2⟩ := C27_rocks_effect X s hr O items hv
  refine ⟨h1, h2, fun hf calls hc => h2.trans ?_⟩
  clear h1 h2
  induction items generalizing s calls with
  | nil => simp at hc; subst hc; rfl
  | cons i r ih =>
    cases calls with
    | nil => simp at hc
    | cons c cr =>
      obtain ⟨O', op⟩ := c
      simp only [List.map_cons, List.cons.injEq] at hc
      obtain ⟨hop, hcr⟩ := hc
      subst hop
      obtain ⟨hi, hrest⟩ := hf
      obtain ⟨hok, hg⟩ := rocksItemCall X s hr O' i (hv i (List.mem_cons_self ..)) hi
      have := ih (Rocks.step X O' i.toOp s).1 (rocks_next X hr O' _ hok) (fun j hj => hv j (List.mem_cons_of_mem _ hj))
        (by show ItemsFresh _ (graph X _) r; rw [hg]; exact hrest) cr hcr
      refine Eq.trans ?_ this
      show r.foldl _ _ = r.foldl _ (graph X (Rocks.step X O' i.toOp s).1)
      rw [hg]; rfl

/-- C27 fails, whatever the hash and the codec: inserting an existing vertex in bulk changes its type, creating it does
not; and inserting an edge between missing vertices in bulk makes an edge, creating it does not. -/
theorem C27_rocks_refuted :
    let S := rocksStore X
    let s := S.run (W.calm [.createVertex ⟨W.u 1, W.t⟩]) Rocks.init
    S.Reach s ∧
    S.ask .sorted .allVertex (S.step .sorted (.bulkInsert [.vertex ⟨W.u 1, W.t2⟩]) s).1 = .ok [.vertices [⟨W.u 1, W.t2⟩]] ∧
    S.ask .sorted .allVertex (S.step .sorted (.createVertex ⟨W.u 1, W.t2⟩) s).1 = .ok [.vertices [⟨W.u 1, W.t⟩]] ∧
    S.ask .sorted .allEdge (S.step .sorted (.bulkInsert [.edge W.e12]) s).1 = .ok [.edges [W.e12]] ∧
    S.ask .sorted .allEdge (S.step .sorted (.createEdge W.e12) s).1 = .ok [.edges []] := by
  intro S s
  refine ⟨⟨_, rfl, rfl, List.forall_mem_cons.2 ⟨trivial, fun _ h => nomatch h⟩⟩, ?_, ?_, ?_, ?_⟩
  all_goals obtain ⟨H, c, b⟩ := X; cases b <;> kernel_rfl

/-- A bulk insertion of all four kinds of items that meets the hypotheses. -/
example : ItemsFresh (Graph.rocksBulkItem (W.cfg .debug).stored) ((RS .debug).graph (W.rdemo .debug))
    [.vertex ⟨W.u 3, W.t⟩, .vertexProperty (W.u 3) W.p (W.n 5), .edge ⟨W.u 3, W.t, W.u 1⟩,
     .edgeProperty ⟨W.u 3, W.t, W.u 1⟩ W.q .null] := by
  refine ⟨Or.inl ?_, ?_, ⟨?_, ?_⟩, ?_, trivial⟩ <;> first | decide +kernel | (simp only [BulkInsertItem.FreshIn]; decide +kernel)

end IndraDB
