import Verif.Props.Memory
import Verif.Proofs.MemoryAny
/-
C26: bulk insertion into the memory datastore.
-/
set_option linter.unusedSimpArgs false
namespace IndraDB
open Mem

/-- Setting a property through `set_properties` on an existing vertex is what the bulk item does. -/
theorem itemCall (F : Finder) (b : Build) (O : HashOrder) (i : BulkInsertItem) (m : Mem)
    (h : match i with
      | .vertexProperty id _ _ => m.graph.vertex id ≠ none
      | .edgeProperty e _ _ => m.graph.edge e = true
      | _ => True) :
    (dbStep (txn F O b) i.toOp m).1 =
      (defaultBulkItem createVertex createEdge (setVertexProperties F b) (setEdgeProperties F b) i m).1 ∧
    ∀ f, (dbStep (txn F O b) i.toOp m).2 = .error f ↔
      (defaultBulkItem createVertex createEdge (setVertexProperties F b) (setEdgeProperties F b) i m).2 = .error f := by
  cases i with
  | vertex v =>
    simp only [BulkInsertItem.toOp, dbStep, txn, defaultBulkItem, Upd.map]
    generalize createVertex v m = u
    obtain ⟨m', r⟩ := u
    cases r <;> simp [Except.map]
  | edge e =>
    simp only [BulkInsertItem.toOp, dbStep, txn, defaultBulkItem, Upd.map]
    generalize createEdge e m = u
    obtain ⟨m', r⟩ := u
    cases r <;> simp [Except.map]
  | vertexProperty id n x =>
    simp only at h
    cases hg : m.vertices.get id with
    | none => exact absurd hg h
    | some t =>
      have hl : lastOutput ((txn F O b).reads m) (.specificVertex [id]) = .ok (.vertices [⟨id, t⟩]) := by
        simp [lastOutput, query, txn, Mem.reads, Mem.specificVertices, hg, collect, vecPop, bind, Except.bind, pure,
          Except.pure]
      simp only [BulkInsertItem.toOp, dbStep, dbSetProperties, hl, defaultBulkItem, Upd.map]
      show (setVertexProperties F b [id] n x m).1 = _ ∧ _
      refine ⟨rfl, fun f => ?_⟩
      exact map_error_iff
  | edgeProperty e n x =>
    simp only at h
    have h' : SMap.contains m.edges e = true := h
    have hl : lastOutput ((txn F O b).reads m) (.specificEdge [e]) = .ok (.edges [e]) := by
      simp [lastOutput, query, txn, Mem.reads, Mem.specificEdges, h', collect, vecPop, bind, Except.bind, pure,
        Except.pure]
    simp only [BulkInsertItem.toOp, dbStep, dbSetProperties, hl, defaultBulkItem, Upd.map]
    show (setEdgeProperties F b [e] n x m).1 = _ ∧ _
    refine ⟨rfl, fun f => ?_⟩
    exact map_error_iff

theorem poisonedRun (F : Finder) (b : Build) (calls : List (HashOrder × Op)) : ∀ d : MemDb, d.poisoned = true →
    MemDb.run F b calls d = d := by
  induction calls with
  | nil => intro d _; rfl
  | cons a r ih => intro d h; rw [MemDb.run, MemDb.step_poisoned_any F _ _ h]; exact ih d h

/-- A checked bulk insert is the sequence of calls. -/
theorem bulkSeq (F : Finder) (b : Build) (O : HashOrder) : ∀ (items : List BulkInsertItem) (d : MemDb), d.poisoned = false →
    ItemsChecked Graph.bulkItem d.mem.graph items →
    ∀ calls : List (HashOrder × Op), calls.map (·.2) = items.map BulkInsertItem.toOp →
    (MemDb.step F b O (.bulkInsert items) d).1 = MemDb.run F b calls d := by
  intro items
  induction items with
  | nil =>
    intro d hp _ calls hc
    simp at hc; subst hc
    unfold MemDb.step
    rw [if_neg (by simp [hp])]
    obtain ⟨m, p⟩ := d
    simp only at hp; subst hp
    rfl
  | cons i r ih =>
    intro d hp hch calls hc
    cases calls with
    | nil => simp at hc
    | cons c cr =>
      obtain ⟨O', op⟩ := c
      simp only [List.map_cons, List.cons.injEq] at hc
      obtain ⟨hop, hcr⟩ := hc
      subst hop
      obtain ⟨hi, hrest⟩ := hch
      obtain ⟨e1, e2⟩ := itemCall F b O' i d.mem hi
      rw [MemDb.run]
      have heff := bulkItem_geff (F := F) (b := b) i d.mem
      obtain ⟨m, p⟩ := d
      simp only at hp; subst hp
      simp only at e1 e2 heff hrest ih ⊢
      have hb : dbStep (txn F O b) (.bulkInsert (i :: r)) m =
          match defaultBulkItem createVertex createEdge (setVertexProperties F b) (setEdgeProperties F b) i m with
          | (s', .ok _) => dbStep (txn F O b) (.bulkInsert r) s'
          | (s', .error e) => (s', .error e) := by
        simp only [dbStep, txn, Mem.bulkInsert, forEach]
        generalize defaultBulkItem createVertex createEdge (setVertexProperties F b) (setEdgeProperties F b) i m = u
        obtain ⟨m', r'⟩ := u
        cases r' <;> rfl
      have hstep : ∀ O op m, MemDb.step F b O op ⟨m, false⟩ = match dbStep (txn F O b) op m with
          | (m, .error .panic) => (⟨m, true⟩, .error .panic)
          | (m, r) => (⟨m, false⟩, r) := fun _ _ _ => rfl
      rw [hstep O (.bulkInsert (i :: r)), hstep O' i.toOp, hb]
      generalize hu : defaultBulkItem createVertex createEdge (setVertexProperties F b) (setEdgeProperties F b) i m = u
        at e1 e2 heff
      generalize dbStep (txn F O' b) i.toOp m = w at e1 e2
      obtain ⟨m1, r1⟩ := u
      obtain ⟨m2, r2⟩ := w
      simp only at e1 e2
      subst e1
      cases r1 with
      | error f =>
        rw [(e2 f).2 rfl]
        rcases heff.symm with ⟨⟨a, ha⟩, _⟩ | ⟨ha, _⟩
        · simp at ha
        · simp only [Except.error.injEq] at ha; subst ha
          exact (poisonedRun F b cr _ rfl).symm
      | ok a =>
        cases r2 with
        | error f => have := (e2 f).1 rfl; simp at this
        | ok rep =>
          rcases heff.symm with ⟨⟨a', ha⟩, hg, _⟩ | ⟨ha, _⟩
          · simp only at hg ⊢
            have := ih ⟨m2, false⟩ rfl (by simp only [hg]; exact hrest) cr hcr
            rw [← this]
            rfl
          · simp at ha


variable (K : HashEq) (b : Build)

/-- C26. Bulk-inserting items leads to the state that the individual calls lead to, in this order (also if one of them
panics), provided properties are written to owners that exist at that point; in general its effect on the database is
that of creating the vertices and edges and setting the properties one after the other. -/
theorem C26_memory : ∀ d, (memStore K b).Reach d → ∀ O items,
    (ItemsChecked Graph.bulkItem ((memStore K b).graph d) items →
      ∀ calls : List ((memStore K b).Env × Op), calls.map (·.2) = items.map BulkInsertItem.toOp →
      ((memStore K b).step O (.bulkInsert items) d).1 = (memStore K b).run calls d) ∧
    (((memStore K b).step O (.bulkInsert items) d).2 ≠ .error .panic →
      ((memStore K b).step O (.bulkInsert items) d).2 = .ok .unit ∧
      (memStore K b).graph ((memStore K b).step O (.bulkInsert items) d).1
        = items.foldl Graph.bulkItem ((memStore K b).graph d)) := by
  intro d hr O items
  obtain ⟨hp, hinv⟩ := memStore_reach hr
  constructor
  · intro hch calls hc
    exact (bulkSeq K b O items d hp hch calls hc).trans (memStore_run calls d).symm
  · intro hnp
    rcases (memConforms K b).step d hr O (.bulkInsert items) (memStore_valuesOk _) with h | ⟨h, _⟩
    · exact ⟨h.2, h.1⟩
    · exact absurd h hnp

/-- a checked bulk insert -/
example : ItemsChecked Graph.bulkItem ((MS .debug).graph (W.demo .debug))
    [.vertex ⟨W.u 3, W.t⟩, .vertexProperty (W.u 3) W.p (W.n 4), .edge ⟨W.u 3, W.t, W.u 1⟩,
     .edgeProperty ⟨W.u 3, W.t, W.u 1⟩ W.q .null] := by
  refine ⟨trivial, ?_, trivial, ?_, trivial⟩ <;> simp only <;> decide +kernel

end IndraDB
