import Verif.Spec.RocksSem
import Verif.Spec.Store
import Verif.Proofs.RocksReads
/-
What the RocksDB datastore can write, whatever its reads return: all keys and values have the intended form, and the two
edge tables are written together. The lemmas therefore hold for concurrent calls and for every crash point too.
-/
set_option linter.unusedSimpArgs false
namespace IndraDB
namespace Rocks
variable (X : Cfg) (V : Json → Prop)

/-- The entry has the intended form, and property values satisfy `V`. -/
def OpOk : WriteOp → Prop
  | .put .vertices k v => ∃ id t, k = vertexKey X id ∧ v = identBytes t
  | .put .edgeRanges k _ => ∃ e, k = edgeKey X e
  | .put .reversedEdgeRanges k _ => ∃ e, k = edgeKey X e
  | .put .vertexProperties k v => ∃ id n x, k = vpKey X id n ∧ v = X.codec.enc x ∧ V x
  | .put .edgeProperties k v => ∃ e n x, k = epKey X e n ∧ v = X.codec.enc x ∧ V x
  | .put .vertexPropertyValues k _ => ∃ n h id, k = vhKey n h id
  | .put .edgePropertyValues k _ => ∃ n h e, k = ehKey X n h e
  | .put .metadata _ v => ∃ l, v = encodeIdents l
  | .delete _ _ => True

/-- The batch consists of such entries, and treats the two edge tables alike. -/
structure BatchOk (b : Batch) : Prop where
  ops : ∀ op ∈ b, OpOk X V op
  mirror : ∀ e, b.at .reversedEdgeRanges (edgeKey X e) = b.at .edgeRanges (edgeKey X e.reversed)

variable {X V}

theorem put_of_at {b : Batch} {cf : CF} {k v : Bytes} (h : b.at cf k = some (some v)) : .put cf k v ∈ b := by
  induction b with
  | nil => simp at h
  | cons op r ih =>
    rw [Batch.at_cons] at h
    cases hr : Batch.at r cf k with
    | some x =>
      rw [hr] at h
      simp only [Option.some_or, Option.some.injEq] at h
      subst h
      exact List.mem_cons_of_mem _ (ih hr)
    | none =>
      rw [hr] at h
      simp only [Option.none_or] at h
      cases op with
      | put c k' v' =>
        simp only [WriteOp.at] at h
        split at h
        next hc => obtain ⟨rfl, rfl⟩ := hc; cases h; simp
        next => cases h
      | delete c k' =>
        simp only [WriteOp.at] at h
        split at h <;> cases h

theorem BatchOk.nil : BatchOk X V [] := ⟨by simp, fun _ => rfl⟩

theorem BatchOk.append {a b : Batch} (ha : BatchOk X V a) (hb : BatchOk X V b) : BatchOk X V (a ++ b) := by
  refine ⟨fun op h => ?_, fun e => ?_⟩
  · rcases List.mem_append.1 h with h | h
    · exact ha.ops _ h
    · exact hb.ops _ h
  · rw [Batch.at_append, Batch.at_append, ha.mirror, hb.mirror]

/-- Batches not touching the edge tables. -/
theorem BatchOk.of_ops {b : Batch} (h : ∀ op ∈ b, OpOk X V op)
    (h1 : ∀ k, b.at .edgeRanges k = none) (h2 : ∀ k, b.at .reversedEdgeRanges k = none) : BatchOk X V b :=
  ⟨h, fun e => by rw [h1, h2]⟩

theorem BatchOk.single {op : WriteOp} (h : OpOk X V op) (h1 : ∀ k, op.at .edgeRanges k = none)
    (h2 : ∀ k, op.at .reversedEdgeRanges k = none) : BatchOk X V [op] :=
  .of_ops (by simpa using h) (by simpa [Batch.at_singleton] using h1) (by simpa [Batch.at_singleton] using h2)

theorem BatchOk.mono {V' : Json → Prop} (hV : ∀ x, V x → V' x) {b : Batch} (h : BatchOk X V b) : BatchOk X V' b := by
  refine ⟨fun op ho => ?_, h.mirror⟩
  have := h.ops op ho
  cases op with
  | delete c k => trivial
  | put c k v =>
    cases c with
    | vertexProperties => obtain ⟨a, b, x, h1, h2, h3⟩ := this; exact ⟨a, b, x, h1, h2, hV _ h3⟩
    | edgeProperties => obtain ⟨a, b, x, h1, h2, h3⟩ := this; exact ⟨a, b, x, h1, h2, hV _ h3⟩
    | _ => exact this

/-! ### Elementary batches -/

theorem reversed_reversed (e : Edge) : e.reversed.reversed = e := rfl

theorem ok_edgeSet (e : Edge) :
    BatchOk X V (edgeRangeSet X .edgeRanges e ++ edgeRangeSet X .reversedEdgeRanges e.reversed) := by
  refine ⟨?_, ?_⟩
  · simp only [edgeRangeSet, List.singleton_append, List.mem_cons, List.mem_singleton, List.not_mem_nil, or_false]
    rintro op (rfl | rfl)
    · exact ⟨_, rfl⟩
    · exact ⟨_, rfl⟩
  · intro f
    simp only [edgeRangeSet, List.singleton_append, Batch.at_cons, Batch.at_nil, WriteOp.at, edgeKey_inj]
    by_cases h : e.reversed = f
    · subst h; simp [reversed_reversed]
    · have : ¬ e = f.reversed := fun h' => h (by rw [h']; rfl)
      simp [h, this]

theorem ok_edgeDelete (e : Edge) :
    BatchOk X V (edgeRangeDelete X .edgeRanges e ++ edgeRangeDelete X .reversedEdgeRanges e.reversed) := by
  refine ⟨?_, ?_⟩
  · simp only [edgeRangeDelete, List.singleton_append, List.mem_cons, List.mem_singleton, List.not_mem_nil, or_false]
    rintro op (rfl | rfl) <;> trivial
  · intro f
    simp only [edgeRangeDelete, List.singleton_append, Batch.at_cons, Batch.at_nil, WriteOp.at, edgeKey_inj]
    by_cases h : e.reversed = f
    · subst h; simp [reversed_reversed]
    · have : ¬ e = f.reversed := fun h' => h (by rw [h']; rfl)
      simp [h, this]

theorem ok_vertexCreate (v : Vertex) : BatchOk X V (vertexCreate X v) :=
  .single ⟨v.id, v.t, rfl, by simp [build_cons]⟩ (fun k => by simp [WriteOp.at]) (fun k => by simp [WriteOp.at])

theorem ok_delete {cf : CF} {k : Bytes} (h1 : cf ≠ .edgeRanges) (h2 : cf ≠ .reversedEdgeRanges) :
    BatchOk X V [.delete cf k] :=
  .single trivial (fun k => by simp [WriteOp.at, h1]) (fun k => by simp [WriteOp.at, h2])

theorem ok_vpvSet (id : Uuid) (n : Identifier) (v : Json) : BatchOk X V (vpvSet X id n v) :=
  .single ⟨n, _, id, vpvKey_eq _ _ _⟩ (fun k => by simp [WriteOp.at]) (fun k => by simp [WriteOp.at])

theorem ok_epvSet (e : Edge) (n : Identifier) (v : Json) : BatchOk X V (epvSet X e n v) :=
  .single ⟨n, _, e, epvKey_eq _ _ _⟩ (fun k => by simp [WriteOp.at]) (fun k => by simp [WriteOp.at])

theorem ok_vpPut (id : Uuid) (n : Identifier) (v : Json) (h : V v) :
    BatchOk X V [.put .vertexProperties (vpKey X id n) (X.codec.enc v)] :=
  .single ⟨id, n, v, rfl, rfl, h⟩ (fun k => by simp [WriteOp.at]) (fun k => by simp [WriteOp.at])

theorem ok_epPut (e : Edge) (n : Identifier) (v : Json) (h : V v) :
    BatchOk X V [.put .edgeProperties (epKey X e n) (X.codec.enc v)] :=
  .single ⟨e, n, v, rfl, rfl, h⟩ (fun k => by simp [WriteOp.at]) (fun k => by simp [WriteOp.at])

/-! ### Programs -/
variable {P : Batch → Prop}

/-- The program only reads. -/
def Quiet {α : Type} (p : Prog α) : Prop := ∀ P : Batch → Prop, p.All P (fun _ => True)

theorem Quiet.bind {α β : Type} {p : Prog α} {f : α → Prog β} (h : Quiet p) (hf : ∀ a, Quiet (f a)) : Quiet (p >>= f) :=
  fun P => (h P).bind (fun a _ => hf a P)
theorem quiet_lift {α : Type} (r : Res α) : Quiet (Prog.lift r) := fun _ => .lift r (fun _ _ => trivial)
theorem quiet_pure {α : Type} (a : α) : Quiet (pure a : Prog α) := fun _ => trivial
theorem quiet_getCf (cf : CF) (k : Bytes) : Quiet (Prog.getCf cf k) := fun _ => .getCf _ _
theorem quiet_iteratorCf (cf : CF) (k : Bytes) : Quiet (Prog.iteratorCf cf k) := fun _ => .iteratorCf _ _

theorem quiet_vertexExists (id : Uuid) : Quiet (vertexExists X id) := (quiet_getCf _ _).bind (fun _ => quiet_pure _)
theorem quiet_vertexGet (id : Uuid) : Quiet (vertexGet X id) := (quiet_getCf _ _).bind (fun r => by
  cases r with
  | none => exact quiet_pure _
  | some b => exact (quiet_lift _).bind (fun _ => quiet_pure _))
theorem quiet_vertexIterate (id : Uuid) : Quiet (vertexIterate X id) :=
  (quiet_iteratorCf _ _).bind (fun _ => quiet_pure _)
theorem quiet_edgeContains (cf : CF) (e : Edge) : Quiet (edgeContains X cf e) := (quiet_getCf _ _).bind (fun _ => quiet_pure _)
theorem quiet_edgeIterateRoot (cf : CF) (id : Uuid) : Quiet (edgeIterateRoot X cf id) :=
  (quiet_iteratorCf _ _).bind (fun _ => quiet_pure _)
theorem quiet_edgeIterateAll (cf : CF) : Quiet (edgeIterateAll cf) := (quiet_iteratorCf _ _).bind (fun _ => quiet_pure _)
theorem quiet_edgeIterateRange (cf : CF) (lo : Edge) : Quiet (edgeIterateRange X cf lo) :=
  (quiet_iteratorCf _ _).bind (fun _ => quiet_pure _)
theorem quiet_vpvIterate (p : List Component) : Quiet (vpvIterate X p) := (quiet_iteratorCf _ _).bind (fun _ => quiet_pure _)
theorem quiet_epvIterate (p : List Component) : Quiet (epvIterate X p) := (quiet_iteratorCf _ _).bind (fun _ => quiet_pure _)
theorem quiet_vpGet (id : Uuid) (n : Identifier) : Quiet (vpGet X id n) := (quiet_getCf _ _).bind (fun r => by
  cases r with
  | none => exact quiet_pure _
  | some b => exact (quiet_lift _).bind (fun _ => quiet_pure _))
theorem quiet_epGet (e : Edge) (n : Identifier) : Quiet (epGet X e n) := (quiet_getCf _ _).bind (fun r => by
  cases r with
  | none => exact quiet_pure _
  | some b => exact (quiet_lift _).bind (fun _ => quiet_pure _))
theorem quiet_vpIterate (id : Uuid) : Quiet (vpIterate X id) := (quiet_iteratorCf _ _).bind (fun _ => quiet_pure _)
theorem quiet_epIterate (e : Edge) : Quiet (epIterate X e) := (quiet_iteratorCf _ _).bind (fun _ => quiet_pure _)
theorem quiet_filterMapItems {α β : Type} {f : α → Prog (Option β)} {l : DynIter α} (h : ∀ a, Quiet (f a)) :
    Quiet (Prog.filterMapItems f l) := fun P => .filterMapItems (fun a => h a P)
theorem quiet_existingIds (l : DynIter Uuid) : Quiet (existingIds X l) :=
  quiet_filterMapItems (fun _ => (quiet_vertexExists _).bind (fun _ => quiet_pure _))
theorem quiet_ifIndexed {α : Type} (n : Identifier) {p : Prog (DynIter α)} (h : Quiet p) : Quiet (ifIndexed n p) := by
  intro P ix
  show Prog.All P _ (if _ then _ else _)
  split
  · exact (h P).bind (fun _ _ => trivial)
  · trivial
theorem quiet_propItems {ω : Type} {p : Prog (DynIter (ω × Identifier × Json))} (h : Quiet p) : Quiet (propItems p) :=
  h.bind (fun _ => (quiet_lift _).bind (fun _ => quiet_pure _))

theorem Quiet.then {α β : Type} {p : Prog α} {f : α → Prog β} {Q : β → Prop} (h : Quiet p) (hf : ∀ a, (f a).All P Q) :
    (p >>= f).All P Q := (h P).bind (fun a _ => hf a)

theorem all_vpDelete (ix : SSet Identifier) (id : Uuid) (n : Identifier) : (vpDelete X ix id n).All P (BatchOk X V) := by
  have hd : BatchOk X V [.delete .vertexProperties (vpKey X id n)] := ok_delete (by simp) (by simp)
  unfold vpDelete
  refine Prog.All.bind (Q := BatchOk X V) ?_ (fun b hb => hb.append hd)
  split
  · refine (quiet_vpGet _ _).then ?_
    intro r
    cases r with
    | none => exact .nil
    | some v => exact ok_delete (by simp) (by simp)
  · exact .nil

theorem all_vpSet (ix : SSet Identifier) (id : Uuid) (n : Identifier) (v : Json) (hv : V v) :
    (vpSet X ix id n v).All P (BatchOk X V) := by
  have hd := ok_vpPut (X := X) id n v hv
  unfold vpSet
  refine Prog.All.bind (Q := BatchOk X V) ?_ (fun b hb => ?_)
  · split
    · exact all_vpDelete _ _ _
    · exact .nil
  · show BatchOk X V (if _ then _ else _)
    split
    · exact (hb.append hd).append (ok_vpvSet _ _ _)
    · exact hb.append hd

theorem all_epDelete (ix : SSet Identifier) (e : Edge) (n : Identifier) : (epDelete X ix e n).All P (BatchOk X V) := by
  have hd : BatchOk X V [.delete .edgeProperties (epKey X e n)] := ok_delete (by simp) (by simp)
  unfold epDelete
  refine Prog.All.bind (Q := BatchOk X V) ?_ (fun b hb => hb.append hd)
  split
  · refine (quiet_epGet _ _).then ?_
    intro r
    cases r with
    | none => exact .nil
    | some v => exact ok_delete (by simp) (by simp)
  · exact .nil

theorem all_epSet (ix : SSet Identifier) (e : Edge) (n : Identifier) (v : Json) (hv : V v) :
    (epSet X ix e n v).All P (BatchOk X V) := by
  have hd := ok_epPut (X := X) e n v hv
  unfold epSet
  refine Prog.All.bind (Q := BatchOk X V) ?_ (fun b hb => ?_)
  · split
    · exact all_epDelete _ _ _
    · exact .nil
  · show BatchOk X V (if _ then _ else _)
    split
    · exact (hb.append hd).append (ok_epvSet _ _ _)
    · exact hb.append hd

theorem all_edgeSet (e : Edge) : (edgeSet X e).All P (BatchOk X V) := by
  unfold edgeSet
  refine (quiet_edgeContains _ _).then ?_
  intro r
  show BatchOk X V _
  rw [List.append_assoc]
  refine BatchOk.append ?_ (ok_edgeSet e)
  split
  · exact ok_edgeDelete e
  · exact .nil

theorem all_edgeDelete (ix : SSet Identifier) (e : Edge) : (edgeDelete X ix e).All P (BatchOk X V) := by
  unfold edgeDelete
  refine (quiet_epIterate _).then ?_
  intro l
  refine Prog.All.bind (Q := BatchOk X V) (.forItems .nil (fun _ _ => .append) (fun _ _ => all_epDelete _ _ _)) ?_
  intro b hb
  exact (ok_edgeDelete e).append hb

theorem all_vertexDelete (ix : SSet Identifier) (id : Uuid) : (vertexDelete X ix id).All P (BatchOk X V) := by
  have he : ∀ (l : DynIter Edge), (Prog.forItems (fun e => do
      Prog.lift (debugAssert X (e.outboundId = id))
      edgeDelete X ix e) l).All P (BatchOk X V) := by
    intro l
    refine .forItems .nil (fun _ _ => .append) (fun e _ => ?_)
    exact (quiet_lift _).then (fun _ => all_edgeDelete _ _)
  unfold vertexDelete
  refine (quiet_vpIterate _).then (fun l => ?_)
  refine Prog.All.bind (Q := BatchOk X V) (.forItems .nil (fun _ _ => .append) (fun _ _ => all_vpDelete _ _ _)) ?_
  intro b1 h1
  refine (quiet_edgeIterateRoot _ _).then (fun l => ?_)
  refine (he l).bind (fun b2 h2 => ?_)
  refine (quiet_edgeIterateRoot _ _).then (fun l => ?_)
  refine (he l).bind (fun b3 h3 => ?_)
  exact (((ok_delete (by simp) (by simp)).append h1).append h2).append h3

/-- What the transaction methods may write. -/
theorem all_locked {f : SSet Identifier → Prog Batch} (h : ∀ ix, (f ix).All (BatchOk X V) (BatchOk X V)) :
    (locked f).All (BatchOk X V) (fun _ => True) := by
  intro ix
  exact (h ix).bind (fun b hb => .writeBatch hb)

theorem all_deleteVertices (vs : List Vertex) : (deleteVertices X vs).All (BatchOk X V) (fun _ => True) :=
  all_locked (fun _ => .forAll .nil (fun _ _ => .append) (fun _ _ => all_vertexDelete _ _))

theorem all_deleteEdges (es : List Edge) : (deleteEdges X es).All (BatchOk X V) (fun _ => True) := by
  refine all_locked (fun ix => .forAll .nil (fun _ _ => .append) (fun e _ => ?_))
  refine (quiet_vertexGet _).then (fun r => ?_)
  cases r with
  | none => exact BatchOk.nil
  | some t => exact all_edgeDelete _ _

theorem all_deleteVertexProperties (ps : List (Uuid × Identifier)) :
    (deleteVertexProperties X ps).All (BatchOk X V) (fun _ => True) :=
  all_locked (fun _ => .forAll .nil (fun _ _ => .append) (fun _ _ => all_vpDelete _ _ _))

theorem all_deleteEdgeProperties (ps : List (Edge × Identifier)) :
    (deleteEdgeProperties X ps).All (BatchOk X V) (fun _ => True) :=
  all_locked (fun _ => .forAll .nil (fun _ _ => .append) (fun _ _ => all_epDelete _ _ _))

theorem all_createVertex (v : Vertex) : (createVertex X v).All (BatchOk X V) (fun _ => True) := by
  unfold createVertex
  refine (quiet_vertexExists _).then (fun r => ?_)
  split
  · trivial
  · exact ⟨ok_vertexCreate v, trivial⟩

theorem all_createEdge (e : Edge) : (createEdge X e).All (BatchOk X V) (fun _ => True) := by
  unfold createEdge
  refine (quiet_vertexExists _).then (fun r => ?_)
  split
  · trivial
  · refine (quiet_vertexExists _).then (fun r => ?_)
    split
    · trivial
    · exact (all_edgeSet (V := V) e).bind (fun b hb => ⟨hb, trivial⟩)

theorem all_bulkItem (ix : SSet Identifier) (item : BulkInsertItem) (h : item.Values V) :
    (bulkItem X ix item).All P (BatchOk X V) := by
  cases item with
  | vertex v => exact ok_vertexCreate v
  | edge e => exact all_edgeSet e
  | vertexProperty id n v => exact all_vpSet _ _ _ _ h
  | edgeProperty id n v => exact all_epSet _ _ _ _ h

theorem all_bulkInsert (items : List BulkInsertItem) (h : ∀ i ∈ items, i.Values V) :
    (bulkInsert X items).All (BatchOk X V) (fun _ => True) :=
  all_locked (fun _ => .forAll .nil (fun _ _ => .append) (fun i hi => all_bulkItem _ i (h i hi)))

theorem all_setVertexProperties (ids : List Uuid) (n : Identifier) (v : Json) (h : V v) :
    (setVertexProperties X ids n v).All (BatchOk X V) (fun _ => True) :=
  all_locked (fun _ => .forAll .nil (fun _ _ => .append) (fun _ _ => all_vpSet _ _ _ _ h))

theorem all_setEdgeProperties (es : List Edge) (n : Identifier) (v : Json) (h : V v) :
    (setEdgeProperties X es n v).All (BatchOk X V) (fun _ => True) :=
  all_locked (fun _ => .forAll .nil (fun _ _ => .append) (fun _ _ => all_epSet _ _ _ _ h))

theorem ok_setIndexed (O : IdentOrder) (ix : SSet Identifier) : BatchOk X V (setIndexedBatch O ix) :=
  .single ⟨_, rfl⟩ (fun k => by simp [WriteOp.at]) (fun k => by simp [WriteOp.at])

theorem all_indexProperty (O : IdentOrder) (n : Identifier) :
    (indexProperty X O n).All (BatchOk X V) (fun _ => True) := by
  intro ix
  show Prog.All _ _ (if _ then _ else _)
  split
  · trivial
  · refine (quiet_vertexIterate Uuid.nil).then (fun l => ?_)
    refine Prog.All.bind (Q := BatchOk X V) (.forItems .nil (fun _ _ => .append) (fun v _ => ?_)) (fun b1 h1 => ?_)
    · refine (quiet_vpGet _ _).then (fun r => ?_)
      cases r with
      | none => exact BatchOk.nil
      | some x => exact ok_vpvSet _ _ _
    · refine (quiet_edgeIterateAll _).then (fun l => ?_)
      refine Prog.All.bind (Q := BatchOk X V) (.forItems .nil (fun _ _ => .append) (fun v _ => ?_)) (fun b2 h2 => ?_)
      · refine (quiet_epGet _ _).then (fun r => ?_)
        cases r with
        | none => exact BatchOk.nil
        | some x => exact ok_epvSet _ _ _
      · exact .writeBatch (((ok_setIndexed O _).append h1).append h2)

/-! ### Invariants -/

theorem Wf.empty : Wf X KV.empty := by
  constructor <;> simp [KV.empty, SMap.contains]

theorem put_shape {kv : KV} {b : Batch} {cf : CF} {k v : Bytes} (h : ((kv.write b) cf).get k = some v) :
    .put cf k v ∈ b ∨ (kv cf).get k = some v := by
  rw [KV.write_get] at h
  cases hb : b.at cf k with
  | none => rw [hb] at h; exact Or.inr h
  | some x =>
    rw [hb] at h
    simp only [Option.getD_some] at h
    subst h
    exact Or.inl (put_of_at hb)

theorem contains_write (kv : KV) (b : Batch) (cf : CF) (k : Bytes) :
    ((kv.write b) cf).contains k = ((b.at cf k).getD ((kv cf).get k)).isSome := by
  rw [SMap.contains, KV.write_get]

theorem Wf.write {kv : KV} {b : Batch} (hw : Wf X kv) (hb : BatchOk X V b) : Wf X (kv.write b) where
  vertices k v h := (put_shape h).elim (fun h => hb.ops _ h) (hw.vertices k v)
  edges k v h := (put_shape h).elim (fun h => hb.ops _ h) (hw.edges k v)
  reversed k v h := (put_shape h).elim (fun h => hb.ops _ h) (hw.reversed k v)
  mirror e := by
    have := hw.mirror e
    rw [contains_write, contains_write, hb.mirror]
    rw [SMap.contains, SMap.contains] at this
    cases b.at .edgeRanges (edgeKey X e.reversed) with
    | none => exact this
    | some x => rfl
  vprops k v h := (put_shape h).elim (fun h => by obtain ⟨a, b, _, h, _⟩ := hb.ops _ h; exact ⟨a, b, h⟩) (hw.vprops k v)
  eprops k v h := (put_shape h).elim (fun h => by obtain ⟨a, b, _, h, _⟩ := hb.ops _ h; exact ⟨a, b, h⟩) (hw.eprops k v)
  vindex k v h := (put_shape h).elim (fun h => hb.ops _ h) (hw.vindex k v)
  eindex k v h := (put_shape h).elim (fun h => hb.ops _ h) (hw.eindex k v)

/-- All stored values are encodings of values satisfying `V`. -/
structure Values (X : Cfg) (V : Json → Prop) (kv : KV) : Prop where
  vprops : ∀ k v, (kv .vertexProperties).get k = some v → ∃ x, v = X.codec.enc x ∧ V x
  eprops : ∀ k v, (kv .edgeProperties).get k = some v → ∃ x, v = X.codec.enc x ∧ V x

theorem Values.empty : Values X V KV.empty := by constructor <;> simp [KV.empty]

theorem Values.write {kv : KV} {b : Batch} (hw : Values X V kv) (hb : BatchOk X V b) : Values X V (kv.write b) where
  vprops k v h := (put_shape h).elim (fun h => by obtain ⟨_, _, x, _, h⟩ := hb.ops _ h; exact ⟨x, h⟩) (hw.vprops k v)
  eprops k v h := (put_shape h).elim (fun h => by obtain ⟨_, _, x, _, h⟩ := hb.ops _ h; exact ⟨x, h⟩) (hw.eprops k v)

theorem Values.readable {kv : KV} (h : Values X (CanRead X) kv) : Readable X kv where
  vprops k v hk := by obtain ⟨x, rfl, w, hw⟩ := h.vprops k v hk; exact ⟨w, hw⟩
  eprops k v hk := by obtain ⟨x, rfl, w, hw⟩ := h.eprops k v hk; exact ⟨w, hw⟩

end Rocks
end IndraDB
