import Verif.Proofs.RocksBatches
/-
Every transaction method reads, and then writes at most one batch, as its last action.
-/
set_option linter.unusedSimpArgs false
namespace IndraDB
namespace Prog
variable {α β : Type}

/-- The program changes nothing, whatever it reads. -/
def Reading : Prog α → Prop
  | .done _ => True
  | .get _ _ n => ∀ r, (n r).Reading
  | .scan _ _ n => ∀ r, (n r).Reading
  | .write _ _ => False
  | .readLock _ n => ∀ r, (n r).Reading
  | .writeLock _ => False
  | .setIndexed _ _ => False

/-- The program does not change the set of indexed names and writes at most one batch, after which it succeeds. -/
def Once : Prog α → Prop
  | .done _ => True
  | .get _ _ n => ∀ r, (n r).Once
  | .scan _ _ n => ∀ r, (n r).Once
  | .write _ n => ∃ a, n () = .done (.ok a)
  | .readLock _ n => ∀ r, (n r).Once
  | .writeLock _ => False
  | .setIndexed _ _ => False

theorem Reading.bind {p : Prog α} {f : α → Prog β} (h : p.Reading) (hf : ∀ a, (f a).Reading) : (p >>= f).Reading := by
  show (p.bind f).Reading
  induction p with
  | done r => cases r with
    | ok a => exact hf a
    | error e => trivial
  | get cf k n ih => exact fun r => ih r (h r)
  | scan cf k n ih => exact fun r => ih r (h r)
  | write b n ih => exact h.elim
  | readLock _ n ih => exact fun r => ih r (h r)
  | writeLock n ih => exact h.elim
  | setIndexed ix n ih => exact h.elim

theorem Reading.once {p : Prog α} {f : α → Prog β} (h : p.Reading) (hf : ∀ a, (f a).Once) : (p >>= f).Once := by
  show (p.bind f).Once
  induction p with
  | done r => cases r with
    | ok a => exact hf a
    | error e => trivial
  | get cf k n ih => exact fun r => ih r (h r)
  | scan cf k n ih => exact fun r => ih r (h r)
  | write b n ih => exact h.elim
  | readLock _ n ih => exact fun r => ih r (h r)
  | writeLock n ih => exact h.elim
  | setIndexed ix n ih => exact h.elim

theorem Reading.pure (a : α) : (Pure.pure a : Prog α).Reading := trivial
theorem Reading.lift (r : Res α) : (Prog.lift r).Reading := trivial
theorem Reading.getCf (cf : CF) (k : Bytes) : (Prog.getCf cf k).Reading := fun _ => trivial
theorem Reading.iteratorCf (cf : CF) (k : Bytes) : (Prog.iteratorCf cf k).Reading := fun _ => trivial

theorem Reading.forAll {f : α → Prog Batch} {l : List α} (h : ∀ a, (f a).Reading) : (Prog.forAll f l).Reading := by
  induction l with
  | nil => trivial
  | cons a r ih => exact (h a).bind (fun _ => ih.bind (fun _ => trivial))

theorem Reading.forItems {f : α → Prog Batch} {l : DynIter α} (h : ∀ a, (f a).Reading) : (Prog.forItems f l).Reading := by
  induction l with
  | nil => trivial
  | cons a r ih =>
    cases a with
    | ok a => exact (h a).bind (fun _ => ih.bind (fun _ => trivial))
    | error e => trivial

theorem Reading.filterMapItems {f : α → Prog (Option β)} {l : DynIter α} (h : ∀ a, (f a).Reading) :
    (Prog.filterMapItems f l).Reading := by
  induction l with
  | nil => trivial
  | cons a r ih =>
    cases a with
    | ok a => exact (h a).bind (fun _ => ih.bind (fun _ => trivial))
    | error e => exact ih.bind (fun _ => trivial)

theorem Reading.run {p : Prog α} (h : p.Reading) (s : Rocks) : (p.run s).1 = s := by
  induction p with
  | done r => rfl
  | get cf k n ih => exact ih _ (h _)
  | scan cf k n ih => exact ih _ (h _)
  | write b n ih => exact h.elim
  | readLock _ n ih => exact ih _ (h _)
  | writeLock n ih => exact h.elim
  | setIndexed ix n ih => exact h.elim

/-- Nothing happens, or one batch is written and the program succeeds. -/
theorem Once.run {p : Prog α} (h : p.Once) (s : Rocks) :
    (p.run s).1 = s ∨ ∃ b a, p.run s = ({ s with kv := s.kv.write b }, .ok a) := by
  induction p with
  | done r => exact Or.inl rfl
  | get cf k n ih => exact ih _ (h _)
  | scan cf k n ih => exact ih _ (h _)
  | write b n ih =>
    obtain ⟨a, h⟩ := h
    right
    refine ⟨b, a, ?_⟩
    show (n ()).run _ = _
    rw [h]; rfl
  | readLock _ n ih => exact ih _ (h _)
  | writeLock n ih => exact h.elim
  | setIndexed ix n ih => exact h.elim

theorem Once.error {p : Prog α} (h : p.Once) (s : Rocks) {f : Fault} (hf : (p.run s).2 = .error f) : (p.run s).1 = s := by
  rcases h.run s with h | ⟨b, a, h⟩
  · exact h
  · rw [h] at hf; cases hf

end Prog

namespace Rocks
variable {X : Cfg}
open Prog

theorem rd_vertexExists (id : Uuid) : (vertexExists X id).Reading := (Reading.getCf _ _).bind (fun _ => trivial)
theorem rd_vertexGet (id : Uuid) : (vertexGet X id).Reading := (Reading.getCf _ _).bind (fun r => by
  cases r with
  | none => trivial
  | some b => exact (Reading.lift _).bind (fun _ => trivial))
theorem rd_vertexIterate (id : Uuid) : (vertexIterate X id).Reading := (Reading.iteratorCf _ _).bind (fun _ => trivial)
theorem rd_edgeContains (cf : CF) (e : Edge) : (edgeContains X cf e).Reading := (Reading.getCf _ _).bind (fun _ => trivial)
theorem rd_edgeIterateRoot (cf : CF) (id : Uuid) : (edgeIterateRoot X cf id).Reading :=
  (Reading.iteratorCf _ _).bind (fun _ => trivial)
theorem rd_edgeIterateAll (cf : CF) : (edgeIterateAll cf).Reading := (Reading.iteratorCf _ _).bind (fun _ => trivial)
theorem rd_vpGet (id : Uuid) (n : Identifier) : (vpGet X id n).Reading := (Reading.getCf _ _).bind (fun r => by
  cases r with
  | none => trivial
  | some b => exact (Reading.lift _).bind (fun _ => trivial))
theorem rd_epGet (e : Edge) (n : Identifier) : (epGet X e n).Reading := (Reading.getCf _ _).bind (fun r => by
  cases r with
  | none => trivial
  | some b => exact (Reading.lift _).bind (fun _ => trivial))
theorem rd_vpIterate (id : Uuid) : (vpIterate X id).Reading := (Reading.iteratorCf _ _).bind (fun _ => trivial)
theorem rd_epIterate (e : Edge) : (epIterate X e).Reading := (Reading.iteratorCf _ _).bind (fun _ => trivial)

theorem rd_vpDelete (ix : SSet Identifier) (id : Uuid) (n : Identifier) : (vpDelete X ix id n).Reading := by
  unfold vpDelete
  refine Reading.bind ?_ (fun _ => trivial)
  split
  · refine (rd_vpGet _ _).bind (fun r => ?_)
    cases r <;> trivial
  · trivial

theorem rd_vpSet (ix : SSet Identifier) (id : Uuid) (n : Identifier) (v : Json) : (vpSet X ix id n v).Reading := by
  unfold vpSet
  refine Reading.bind ?_ (fun _ => trivial)
  split
  · exact rd_vpDelete _ _ _
  · trivial

theorem rd_epDelete (ix : SSet Identifier) (e : Edge) (n : Identifier) : (epDelete X ix e n).Reading := by
  unfold epDelete
  refine Reading.bind ?_ (fun _ => trivial)
  split
  · refine (rd_epGet _ _).bind (fun r => ?_)
    cases r <;> trivial
  · trivial

theorem rd_epSet (ix : SSet Identifier) (e : Edge) (n : Identifier) (v : Json) : (epSet X ix e n v).Reading := by
  unfold epSet
  refine Reading.bind ?_ (fun _ => trivial)
  split
  · exact rd_epDelete _ _ _
  · trivial

theorem rd_edgeSet (e : Edge) : (edgeSet X e).Reading := (rd_edgeContains _ _).bind (fun _ => trivial)

theorem rd_edgeDelete (ix : SSet Identifier) (e : Edge) : (edgeDelete X ix e).Reading := by
  unfold edgeDelete
  exact (rd_epIterate _).bind (fun _ => (Reading.forItems (fun _ => rd_epDelete _ _ _)).bind (fun _ => trivial))

theorem rd_vertexDelete (ix : SSet Identifier) (id : Uuid) : (vertexDelete X ix id).Reading := by
  unfold vertexDelete
  refine (rd_vpIterate _).bind (fun _ => (Reading.forItems (fun _ => rd_vpDelete _ _ _)).bind (fun _ => ?_))
  refine (rd_edgeIterateRoot _ _).bind (fun _ => Reading.bind (Reading.forItems
    (fun _ => (Reading.lift _).bind (fun _ => rd_edgeDelete _ _))) (fun _ => ?_))
  exact (rd_edgeIterateRoot _ _).bind (fun _ => Reading.bind (Reading.forItems
    (fun _ => (Reading.lift _).bind (fun _ => rd_edgeDelete _ _))) (fun _ => trivial))

theorem once_writeBatch (b : Batch) : (Prog.writeBatch b).Once := ⟨(), rfl⟩

theorem once_locked {f : SSet Identifier → Prog Batch} (h : ∀ ix, (f ix).Reading) : (locked f).Once :=
  fun ix => (h ix).once (fun b => once_writeBatch b)

theorem once_deleteVertices (vs : List Vertex) : (deleteVertices X vs).Once :=
  once_locked (fun _ => .forAll (fun _ => rd_vertexDelete _ _))

theorem once_deleteEdges (es : List Edge) : (deleteEdges X es).Once := by
  refine once_locked (fun ix => .forAll (fun e => (rd_vertexGet _).bind (fun r => ?_)))
  cases r with
  | none => trivial
  | some t => exact rd_edgeDelete _ _

theorem once_deleteVertexProperties (ps : List (Uuid × Identifier)) : (deleteVertexProperties X ps).Once :=
  once_locked (fun _ => .forAll (fun _ => rd_vpDelete _ _ _))
theorem once_deleteEdgeProperties (ps : List (Edge × Identifier)) : (deleteEdgeProperties X ps).Once :=
  once_locked (fun _ => .forAll (fun _ => rd_epDelete _ _ _))
theorem once_setVertexProperties (ids : List Uuid) (n : Identifier) (v : Json) : (setVertexProperties X ids n v).Once :=
  once_locked (fun _ => .forAll (fun _ => rd_vpSet _ _ _ _))
theorem once_setEdgeProperties (es : List Edge) (n : Identifier) (v : Json) : (setEdgeProperties X es n v).Once :=
  once_locked (fun _ => .forAll (fun _ => rd_epSet _ _ _ _))

theorem once_createVertex (v : Vertex) : (createVertex X v).Once := by
  unfold createVertex
  refine (rd_vertexExists _).once (fun r => ?_)
  split
  · trivial
  · exact ⟨true, rfl⟩

theorem once_createEdge (e : Edge) : (createEdge X e).Once := by
  unfold createEdge
  refine (rd_vertexExists _).once (fun r => ?_)
  split
  · trivial
  · refine (rd_vertexExists _).once (fun r => ?_)
    split
    · trivial
    · exact (rd_edgeSet e).once (fun b => ⟨true, rfl⟩)

theorem rd_bulkItem (ix : SSet Identifier) (item : BulkInsertItem) : (bulkItem X ix item).Reading := by
  cases item with
  | vertex v => trivial
  | edge e => exact rd_edgeSet e
  | vertexProperty id n v => exact rd_vpSet _ _ _ _
  | edgeProperty e n v => exact rd_epSet _ _ _ _

theorem once_bulkInsert (items : List BulkInsertItem) : (bulkInsert X items).Once :=
  once_locked (fun _ => .forAll (fun _ => rd_bulkItem _ _))

/-- What `index_property` does after it has marked the name: a program that writes at most once. -/
theorem indexProperty_shape (O : IdentOrder) (n : Identifier) : ∃ f : SSet Identifier → Prog Unit, (∀ ix, (f ix).Once) ∧
    indexProperty X O n = .writeLock (fun ix => if ix.contains n then pure () else .setIndexed (ix.add n) (fun _ => f ix)) := by
  refine ⟨_, ?_, rfl⟩
  intro ix
  refine (rd_vertexIterate _).once (fun l => ?_)
  refine Reading.once (Reading.forItems (fun v => (rd_vpGet _ _).bind (fun r => by cases r <;> trivial))) (fun b => ?_)
  refine (rd_edgeIterateAll _).once (fun l => ?_)
  refine Reading.once (Reading.forItems (fun v => (rd_epGet _ _).bind (fun r => by cases r <;> trivial))) (fun b => ?_)
  exact once_writeBatch _

theorem indexProperty_outcome (O : IdentOrder) (n : Identifier) (s : Rocks) :
    (indexProperty X O n).run s = (s, .ok ()) ∨
    (∃ f, (indexProperty X O n).run s = ({ s with indexed := s.indexed.add n }, .error f)) ∨
    (∃ b, (indexProperty X O n).run s = (⟨s.kv.write b, s.indexed.add n⟩, .ok ())) ∨
    ((indexProperty X O n).run s = ({ s with indexed := s.indexed.add n }, .ok ())) := by
  obtain ⟨f, hf, he⟩ := indexProperty_shape (X := X) O n
  rw [he]
  by_cases hn : s.indexed.contains n = true
  · left
    show (if s.indexed.contains n = true then _ else _ : Prog Unit).run s = _
    rw [if_pos hn]; rfl
  · right
    have hrun : (Prog.writeLock (fun ix => if ix.contains n then pure () else .setIndexed (ix.add n) (fun _ => f ix))).run s
        = (f s.indexed).run { s with indexed := s.indexed.add n } := by
      show (if s.indexed.contains n = true then _ else _ : Prog Unit).run s = _
      rw [if_neg hn]; rfl
    rw [hrun]
    rcases (hf s.indexed).run { s with indexed := s.indexed.add n } with h | ⟨b, a, h⟩
    · cases hr : ((f s.indexed).run { s with indexed := s.indexed.add n }).2 with
      | ok a => right; right; exact Prod.ext h hr
      | error e => left; exact ⟨e, Prod.ext h hr⟩
    · right; left; exact ⟨b, h⟩

theorem createVertex_eq (v : Vertex) (s : Rocks) : (createVertex X v).run s =
    if (s.kv .vertices).contains (vertexKey X v.id) = true then (s, .ok false)
    else ({ s with kv := s.kv.write (vertexCreate X v) }, .ok true) := by
  unfold createVertex
  have : (vertexExists X v.id).run s = (s, .ok ((s.kv .vertices).contains (vertexKey X v.id))) := rfl
  rw [Prog.run_bind_ok this]
  cases (s.kv .vertices).contains (vertexKey X v.id) <;> rfl

/-- **Errors change nothing** in the database, in any state and whatever the values; only a failing `index_property`
changes the in-memory set of indexed names. -/
theorem step_error (O : IdentOrder) (op : Op) (s : Rocks) {f : Fault} (h : (step X O op s).2 = .error f) :
    (step X O op s).1.kv = s.kv ∧ ((∀ n, op ≠ .indexProperty n) → (step X O op s).1 = s) := by
  have unit : ∀ {p : Prog Unit}, p.Once → (Upd.map (fun _ => Reply.unit) (p.run s)).2 = .error f →
      (Upd.map (fun _ => Reply.unit) (p.run s)).1 = s := by
    intro p hp hf
    refine hp.error s (f := f) ?_
    cases hr : (p.run s).2 with
    | ok a => simp [Upd.map, hr, Except.map] at hf
    | error e => simp [Upd.map, hr, Except.map] at hf; rw [hf]
  have both : (step X O op s).1 = s → (step X O op s).1.kv = s.kv ∧ ((∀ n, op ≠ .indexProperty n) → (step X O op s).1 = s) :=
    fun h => ⟨congrArg Rocks.kv h, fun _ => h⟩
  unfold step at *
  cases op with
  | sync => exact both rfl
  | createVertex v =>
    apply both
    refine (once_createVertex v).error s (f := f) ?_
    cases hr : ((createVertex X v).run s).2 with
    | ok a => simp [dbStep, txn, Upd.map, hr, Except.map] at h
    | error e => simp [dbStep, txn, Upd.map, hr, Except.map] at h; rw [h]
  | createVertexFromType id t =>
    apply both
    have hc := createVertex_eq (X := X) ⟨id, t⟩ s
    simp only [dbStep, dbCreateVertexFromType, txn] at h ⊢
    rw [hc] at h ⊢
    by_cases hx : (s.kv .vertices).contains (vertexKey X id) = true
    · rw [if_pos hx]; rfl
    · rw [if_neg hx] at h; simp [Upd.map, Except.map] at h
  | createEdge e =>
    apply both
    refine (once_createEdge e).error s (f := f) ?_
    cases hr : ((createEdge X e).run s).2 with
    | ok a => simp [dbStep, txn, Upd.map, hr, Except.map] at h
    | error e => simp [dbStep, txn, Upd.map, hr, Except.map] at h; rw [h]
  | get q => exact both rfl
  | delete q =>
    apply both
    simp only [dbStep, dbDelete] at h ⊢
    cases hl : lastOutput ((txn X O).reads s) q with
    | error e => rfl
    | ok v =>
      rw [hl] at h
      cases v with
      | vertices vs => exact unit (once_deleteVertices vs) h
      | edges es => exact unit (once_deleteEdges es) h
      | vertexProperties l => exact unit (once_deleteVertexProperties _) h
      | edgeProperties l => exact unit (once_deleteEdgeProperties _) h
      | count n => rfl
  | setProperties q n x =>
    apply both
    simp only [dbStep, dbSetProperties] at h ⊢
    cases hl : lastOutput ((txn X O).reads s) q with
    | error e => rfl
    | ok v =>
      rw [hl] at h
      cases v with
      | vertices vs => exact unit (once_setVertexProperties _ n x) h
      | edges es => exact unit (once_setEdgeProperties _ n x) h
      | _ => rfl
  | bulkInsert items => exact both (unit (once_bulkInsert items) h)
  | indexProperty n =>
    refine ⟨?_, fun h => absurd rfl (h n)⟩
    show ((indexProperty X O n).run s).1.kv = s.kv
    have h' : ((indexProperty X O n).run s).2 = .error f := by
      cases hr : ((indexProperty X O n).run s).2 with
      | ok a => simp [dbStep, txn, Upd.map, hr, Except.map] at h
      | error e => simp [dbStep, txn, Upd.map, hr, Except.map] at h; rw [h]
    rcases indexProperty_outcome (X := X) O n s with h1 | ⟨e, h1⟩ | ⟨b, h1⟩ | h1
    · rw [h1]
    · rw [h1]
    · rw [h1] at h'; cases h'
    · rw [h1]

end Rocks
end IndraDB
