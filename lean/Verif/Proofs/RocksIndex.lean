import Verif.Proofs.RocksPuts
/-
The exact effect of indexing a property.
-/
set_option linter.unusedSimpArgs false
set_option linter.unusedVariables false
namespace IndraDB
namespace Rocks
variable {X : Cfg}
section
variable (s : Rocks) (hw : Wf X s.kv) (hr : Readable X s.kv)

/-- What the new entries of vertex `v` are. -/
def newV (X : Cfg) (s : Rocks) (n : Identifier) (v : Vertex) : Batch := match (graph X s).vprop v.id n with
  | some x => vpvSet X v.id n x
  | none => []

/-- What the new entries of edge `e` are. -/
def newE (X : Cfg) (s : Rocks) (n : Identifier) (e : Edge) : Batch := match (graph X s).eprop e n with
  | some x => epvSet X e n x
  | none => []

theorem newV_other (n : Identifier) (v : Vertex) (cf : CF) (k : Bytes) (h : cf ≠ .vertexPropertyValues) :
    (newV X s n v).at cf k = none := by
  unfold newV; split
  · simp [vpvSet, Batch.at_singleton, WriteOp.at, h.symm]
  · rfl

theorem newE_other (n : Identifier) (v : Edge) (cf : CF) (k : Bytes) (h : cf ≠ .edgePropertyValues) :
    (newE X s n v).at cf k = none := by
  unfold newE; split
  · simp [epvSet, Batch.at_singleton, WriteOp.at, h.symm]
  · rfl

theorem newV_acts (n : Identifier) (v : Vertex) (m : Identifier) (h : UInt64) (i : Uuid) :
    Acts (newV X s n v) .vertexPropertyValues (vhKey m h i) (some [])
      (i = v.id ∧ m = n ∧ HasHash X ((graph X s).vprop i n) h) := by
  unfold newV
  cases hx : (graph X s).vprop v.id n with
  | none => exact Acts.nil.iff ⟨fun h => h.elim, by rintro ⟨rfl, rfl, w, hw, _⟩; rw [hx] at hw; cases hw⟩
  | some x =>
    refine acts_single ?_ ?_
    · rintro ⟨rfl, rfl, w, hw, hh⟩
      rw [hx] at hw; cases hw
      simp [WriteOp.at, vpvKey_eq, vhKey_inj, hh]
    · intro hn
      simp only [WriteOp.at, vpvKey_eq, vhKey_inj, true_and]
      rw [if_neg]
      rintro ⟨h1, h2, h3⟩
      exact hn ⟨h3.symm, h1.symm, x, by rw [← h3]; exact hx, h2⟩

theorem newE_acts (n : Identifier) (v : Edge) (m : Identifier) (h : UInt64) (i : Edge) :
    Acts (newE X s n v) .edgePropertyValues (ehKey X m h i) (some [])
      (i = v ∧ m = n ∧ HasHash X ((graph X s).eprop i n) h) := by
  unfold newE
  cases hx : (graph X s).eprop v n with
  | none => exact Acts.nil.iff ⟨fun h => h.elim, by rintro ⟨rfl, rfl, w, hw, _⟩; rw [hx] at hw; cases hw⟩
  | some x =>
    refine acts_single ?_ ?_
    · rintro ⟨rfl, rfl, w, hw, hh⟩
      rw [hx] at hw; cases hw
      simp [WriteOp.at, epvKey_eq, ehKey_inj, hh]
    · intro hn
      simp only [WriteOp.at, epvKey_eq, ehKey_inj, true_and]
      rw [if_neg]
      rintro ⟨h1, h2, h3⟩
      exact hn ⟨h3.symm, h1.symm, x, by rw [← h3]; exact hx, h2⟩

/-- The effect of indexing a new name. -/
structure Indexes (X : Cfg) (O : IdentOrder) (n : Identifier) (s t : Rocks) : Prop where
  indexed : t.indexed = s.indexed.add n
  graph : graph X t = (graph X s).addIndex n
  md : (t.kv .metadata).get metaKey = some (encodeIdents (O.order (s.indexed.add n).elems))
  kv : ∀ cf k, cf ≠ .metadata → cf ≠ .vertexPropertyValues → cf ≠ .edgePropertyValues → (t.kv cf).get k = (s.kv cf).get k
  v : ∀ m h i, vEntry t m h i = true ↔ vEntry s m h i = true ∨
    (m = n ∧ (Rocks.graph X s).vertex i ≠ none ∧ HasHash X ((Rocks.graph X s).vprop i n) h)
  e : ∀ m h i, eEntry X t m h i = true ↔ eEntry X s m h i = true ∨
    (m = n ∧ (Rocks.graph X s).edge i = true ∧ HasHash X ((Rocks.graph X s).eprop i n) h)

theorem indexProperty_again (O : IdentOrder) (n : Identifier) (h : s.indexed.contains n = true) :
    (indexProperty X O n).run s = (s, .ok ()) := by
  unfold indexProperty
  rw [Prog.run_writeLock, if_pos h]; rfl

include hw hr in
theorem indexProperty_run (O : IdentOrder) (n : Identifier) (hn : ¬ s.indexed.contains n = true) :
    ∃ t, (indexProperty X O n).run s = (t, .ok ()) ∧ Indexes X O n s t := by
  obtain ⟨es, he, hen⟩ := edgeIterateAll_run (X := X) .edgeRanges { s with indexed := s.indexed.add n } hw.edges
  have hv := vertexIterate_run (X := X) Uuid.nil { s with indexed := s.indexed.add n } hw
  have hvn := vertexList_enum (X := X) { s with indexed := s.indexed.add n } hw Uuid.nil
  generalize hvs : vertexList X { s with indexed := s.indexed.add n } Uuid.nil = vs at hv hvn
  have r1 : (Prog.forItems (fun v : Vertex => do
      match ← vpGet X v.id n with
      | some x => return vpvSet X v.id n x
      | none => return []) (vs.map .ok)).run { s with indexed := s.indexed.add n } =
      ({ s with indexed := s.indexed.add n }, .ok (vs.flatMap (newV X s n))) := by
    refine Prog.run_forItems (fun v _ => ?_)
    rw [Prog.run_bind_ok (vpGet_run v.id n { s with indexed := s.indexed.add n } hr)]
    show _ = ({ s with indexed := s.indexed.add n }, Except.ok (newV X s n v))
    unfold newV
    have : (graph X { s with indexed := s.indexed.add n }).vprop v.id n = (graph X s).vprop v.id n := rfl
    rw [this]
    cases (graph X s).vprop v.id n <;> rfl
  have r2 : (Prog.forItems (fun e : Edge => do
      match ← epGet X e n with
      | some x => return epvSet X e n x
      | none => return []) (es.map .ok)).run { s with indexed := s.indexed.add n } =
      ({ s with indexed := s.indexed.add n }, .ok (es.flatMap (newE X s n))) := by
    refine Prog.run_forItems (fun v _ => ?_)
    rw [Prog.run_bind_ok (epGet_run v n { s with indexed := s.indexed.add n } hr)]
    show _ = ({ s with indexed := s.indexed.add n }, Except.ok (newE X s n v))
    unfold newE
    have : (graph X { s with indexed := s.indexed.add n }).eprop v n = (graph X s).eprop v n := rfl
    rw [this]
    cases (graph X s).eprop v n <;> rfl
  have hset : ∀ cf k, cf ≠ .metadata → (setIndexedBatch O (s.indexed.add n)).at cf k = none := by
    intro cf k h; simp [setIndexedBatch, Batch.at_singleton, WriteOp.at, h.symm]
  have hV : ∀ cf k, cf ≠ .vertexPropertyValues → Batch.at (vs.flatMap (newV X s n)) cf k = none :=
    fun cf k h => Batch.at_flatMap_none (fun v _ => newV_other s n v cf k h)
  have hE : ∀ cf k, cf ≠ .edgePropertyValues → Batch.at (es.flatMap (newE X s n)) cf k = none :=
    fun cf k h => Batch.at_flatMap_none (fun v _ => newE_other s n v cf k h)
  let b := setIndexedBatch O (s.indexed.add n) ++ vs.flatMap (newV X s n) ++ es.flatMap (newE X s n)
  have hkv : ∀ cf k, cf ≠ .metadata → cf ≠ .vertexPropertyValues → cf ≠ .edgePropertyValues →
      ((s.kv.write b) cf).get k = (s.kv cf).get k := by
    intro cf k h1 h2 h3
    rw [KV.write_get, Batch.at_append, Batch.at_append, hE cf k h3, hV cf k h2, hset cf k h1]; rfl
  have hcf : ∀ cf, cf ≠ .metadata → cf ≠ .vertexPropertyValues → cf ≠ .edgePropertyValues → (s.kv.write b) cf = s.kv cf :=
    fun cf h1 h2 h3 => SMap.ext_get (fun k => hkv cf k h1 h2 h3)
  refine ⟨⟨s.kv.write b, s.indexed.add n⟩, ?_, rfl, ?_, ?_, hkv, ?_, ?_⟩
  · unfold indexProperty
    rw [Prog.run_writeLock, if_neg hn, Prog.run_setIndexed]
    rw [Prog.run_bind_ok hv]
    refine (Prog.run_bind_ok r1).trans ?_
    rw [Prog.run_bind_ok he]
    refine (Prog.run_bind_ok r2).trans ?_
    rw [Prog.run_writeBatch]
  · apply Graph.ext
    · funext i; simp only [graph, Graph.addIndex, hcf .vertices (by simp) (by simp) (by simp)]
    · funext i; simp only [graph, Graph.addIndex, hcf .edgeRanges (by simp) (by simp) (by simp)]
    · funext i m; simp only [graph, Graph.addIndex, hcf .vertexProperties (by simp) (by simp) (by simp)]
    · funext i m; simp only [graph, Graph.addIndex, hcf .edgeProperties (by simp) (by simp) (by simp)]
    · funext m
      simp only [graph, Graph.addIndex, SSet.contains_add]
  · show ((s.kv.write b) .metadata).get metaKey = _
    rw [KV.write_get, Batch.at_append, Batch.at_append, hE _ _ (by simp), hV _ _ (by simp)]
    simp [setIndexedBatch, Batch.at_singleton, WriteOp.at]
  · intro m h i
    have ha : Acts b .vertexPropertyValues (vhKey m h i) (some [])
        (∃ v ∈ vs, i = v.id ∧ m = n ∧ HasHash X ((graph X s).vprop i n) h) := by
      refine Acts.thenNone ?_ (hE _ _ (by simp))
      refine (Acts.append (.ofNone (p := False) (hset _ _ (by simp)) (fun h => h))
        (Acts.flatMap (fun v _ => newV_acts s n v m h i))).iff ?_
      simp
    have hex : (∃ v ∈ vs, i = v.id ∧ m = n ∧ HasHash X ((graph X s).vprop i n) h) ↔
        (m = n ∧ (graph X s).vertex i ≠ none ∧ HasHash X ((graph X s).vprop i n) h) := by
      constructor
      · rintro ⟨v, hv', rfl, h1, h2⟩
        have : (graph X s).vertex v.id = some v.t := ((hvn.mem v).1 hv').1
        exact ⟨h1, by rw [this]; simp, h2⟩
      · rintro ⟨h1, h2, h3⟩
        obtain ⟨t, ht⟩ := Option.ne_none_iff_exists'.1 h2
        exact ⟨⟨i, t⟩, (hvn.mem ⟨i, t⟩).2 ⟨ht, Uuid.not_lt_nil _⟩, rfl, h1, h3⟩
    show vEntry { s with kv := s.kv.write b } m h i = true ↔ _
    rcases after_vEntry s (ha.iff hex) with ⟨h1, h2⟩ | ⟨h1, h2⟩
    · rw [h2]; simp only [Option.isSome_some, true_iff]; exact Or.inr h1
    · rw [h2]; exact ⟨Or.inl, fun h => h.resolve_right h1⟩
  · intro m h i
    have ha : Acts b .edgePropertyValues (ehKey X m h i) (some [])
        (∃ v ∈ es, i = v ∧ m = n ∧ HasHash X ((graph X s).eprop i n) h) := by
      refine (Acts.append (.ofNone (p := False) ?_ (fun h => h))
        (Acts.flatMap (fun v _ => newE_acts s n v m h i))).iff ?_
      · rw [Batch.at_append, hset _ _ (by simp), hV _ _ (by simp)]; rfl
      · simp
    have hex : (∃ v ∈ es, i = v ∧ m = n ∧ HasHash X ((graph X s).eprop i n) h) ↔
        (m = n ∧ (graph X s).edge i = true ∧ HasHash X ((graph X s).eprop i n) h) := by
      constructor
      · rintro ⟨v, hv', rfl, h1, h2⟩
        exact ⟨h1, (hen.mem i).1 hv', h2⟩
      · rintro ⟨h1, h2, h3⟩
        exact ⟨i, (hen.mem i).2 h2, rfl, h1, h3⟩
    show eEntry X { s with kv := s.kv.write b } m h i = true ↔ _
    rcases after_eEntry s (ha.iff hex) with ⟨h1, h2⟩ | ⟨h1, h2⟩
    · rw [h2]; simp only [Option.isSome_some, true_iff]; exact Or.inr h1
    · rw [h2]; exact ⟨Or.inl, fun h => h.resolve_right h1⟩

/-- Indexing keeps the index exact if there are no orphan properties. -/
theorem Indexes.idx {O : IdentOrder} {n : Identifier} {s t : Rocks} (h : Indexes X O n s t)
    (hn : ¬ s.indexed.contains n = true) (ho : (Rocks.graph X s).NoOrphans) (hi : Idx X s) : Idx X t := by
  constructor
  · intro m x i
    rw [h.v, h.graph, h.indexed, SSet.contains_add, hi.v]
    show _ ↔ _ ∧ HasHash X ((Rocks.graph X s).vprop i m) x
    constructor
    · rintro (⟨h1, h2⟩ | ⟨rfl, h1, h2⟩)
      · exact ⟨by simp [h1], h2⟩
      · exact ⟨by simp, h2⟩
    · rintro ⟨h1, h2⟩
      by_cases hm : m = n
      · subst hm; exact Or.inr ⟨rfl, ho.1 _ _ h2.ne, h2⟩
      · exact Or.inl ⟨by simpa [hm] using h1, h2⟩
  · intro m x i
    rw [h.e, h.graph, h.indexed, SSet.contains_add, hi.e]
    show _ ↔ _ ∧ HasHash X ((Rocks.graph X s).eprop i m) x
    constructor
    · rintro (⟨h1, h2⟩ | ⟨rfl, h1, h2⟩)
      · exact ⟨by simp [h1], h2⟩
      · exact ⟨by simp, h2⟩
    · rintro ⟨h1, h2⟩
      by_cases hm : m = n
      · subst hm; exact Or.inr ⟨rfl, ho.2 _ _ h2.ne, h2⟩
      · exact Or.inl ⟨by simpa [hm] using h1, h2⟩

end
end Rocks
end IndraDB
