import Verif.Spec.IndexPast
import Verif.Proofs.MemoryStore
/-
In release builds the index of the memory datastore is the record of what the properties with indexed names were.
-/
set_option linter.unusedSimpArgs false
namespace IndraDB

/-- The property of a vertex or edge. -/
def Graph.memberProp (g : Graph) (x : Member) (n : Identifier) : Option Json :=
  match x with
  | .inl i => g.vprop i n
  | .inr e => g.eprop e n

namespace Mem
variable {K : HashEq}

theorem prop_graph (m : Mem) (x : Member) (n : Identifier) : m.graph.memberProp x n = m.prop x n := by cases x <;> rfl

/-- The owner had the property in `g`, with an indexed name. -/
def Had (K : HashEq) (g : Graph) (n : Identifier) (v : Json) (x : Member) : Prop :=
  g.indexed n = true ∧ ∃ w, g.memberProp x n = some w ∧ K.same w v = true

/-- A release-mode change of the index: nothing is lost, and everything new is in one of the databases `l`. -/
structure Grows (K : HashEq) (l : List Graph) (m m' : Mem) : Prop where
  keeps : ∀ n v x, m.idx K n v x = true → m'.idx K n v x = true
  new : ∀ n v x, m'.idx K n v x = true → m.idx K n v x = true ∨ ∃ g ∈ l, Had K g n v x

theorem Grows.same {m m' : Mem} (h : m'.propertyValues = m.propertyValues) (l : List Graph) : Grows K l m m' := by
  have hi : ∀ n v x, m'.idx K n v x = m.idx K n v x := by intro n v x; simp [idx, h]
  exact ⟨fun n v x h => by rw [hi]; exact h, fun n v x h => by rw [hi] at h; exact Or.inl h⟩

theorem Grows.trans {l l' : List Graph} {m m1 m2 : Mem} (h1 : Grows K l m m1) (h2 : Grows K l' m1 m2) :
    Grows K (l ++ l') m m2 := by
  refine ⟨fun n v x h => h2.keeps n v x (h1.keeps n v x h), ?_⟩
  intro n v x h
  rcases h2.new n v x h with h | ⟨g, hg, h⟩
  · rcases h1.new n v x h with h | ⟨g, hg, h⟩
    · exact Or.inl h
    · exact Or.inr ⟨g, List.mem_append_left _ hg, h⟩
  · exact Or.inr ⟨g, List.mem_append_right _ hg, h⟩

theorem unindex_release (n : Identifier) (v : Json) (x : Member) (m : Mem) : unindex K .release n v x m = (m, .ok ()) := by
  unfold unindex; cases m.propertyValues.get n <;> rfl

theorem forEach_keeps {α β : Type} {f : α → Mem → Upd Mem β}
    (h : ∀ a m, (f a m).1.propertyValues = m.propertyValues) (l : List α) :
    ∀ m, (forEach f l m).1.propertyValues = m.propertyValues := by
  induction l with
  | nil => intro m; rfl
  | cons a r ih =>
    intro m
    have h1 := h a m
    rw [IndraDB.forEach]
    generalize f a m = u at h1
    obtain ⟨m1, res⟩ := u
    cases res with
    | ok x => simp only at h1 ⊢; rw [ih, h1]
    | error e => exact h1

theorem deleteVertexProperty_keeps (p : Uuid × Identifier) (m : Mem) :
    (deleteVertexProperty K .release p m).1.propertyValues = m.propertyValues := by
  unfold deleteVertexProperty
  cases m.vertexProperties.get p with
  | none => rfl
  | some v => simp only [unindex_release]

theorem deleteEdgeProperty_keeps (p : Edge × Identifier) (m : Mem) :
    (deleteEdgeProperty K .release p m).1.propertyValues = m.propertyValues := by
  unfold deleteEdgeProperty
  cases m.edgeProperties.get p with
  | none => rfl
  | some v => simp only [unindex_release]

theorem deleteVertexProperties_keeps (l : List (Uuid × Identifier)) (m : Mem) :
    (deleteVertexProperties K .release l m).1.propertyValues = m.propertyValues :=
  forEach_keeps deleteVertexProperty_keeps l m

theorem deleteEdgeProperties_keeps (l : List (Edge × Identifier)) (m : Mem) :
    (deleteEdgeProperties K .release l m).1.propertyValues = m.propertyValues :=
  forEach_keeps deleteEdgeProperty_keeps l m

theorem deleteEdges_keeps (l : List Edge) (m : Mem) :
    (deleteEdges K .release l m).1.propertyValues = m.propertyValues :=
  forEach_keeps (fun e m => by unfold deleteEdge; simp only; rw [deleteEdgeProperties_keeps]) l m

theorem deleteVertices_keeps (l : List Vertex) (m : Mem) :
    (deleteVertices K .release l m).1.propertyValues = m.propertyValues := by
  refine forEach_keeps (fun v m => ?_) l m
  unfold deleteVertex
  simp only
  generalize List.takeWhile _ _ = keys
  have h := deleteVertexProperties_keeps (K := K) keys { m with vertices := m.vertices.erase v.id }
  generalize deleteVertexProperties K .release keys { m with vertices := m.vertices.erase v.id } = u at h
  obtain ⟨m1, res⟩ := u
  cases res with
  | error f => exact h
  | ok a => simp only at h ⊢; rw [deleteEdges_keeps, h]

theorem createVertex_keeps (v : Vertex) (m : Mem) : (createVertex v m).1.propertyValues = m.propertyValues := by
  unfold createVertex; split <;> rfl

theorem createEdge_keeps (e : Edge) (m : Mem) : (createEdge e m).1.propertyValues = m.propertyValues := by
  unfold createEdge; split <;> rfl

theorem setVertexProperties_grows (ids : List Uuid) (n : Identifier) (v : Json) (m : Mem) :
    Grows K [(setVertexProperties K .release ids n v m).1.graph] m (setVertexProperties K .release ids n v m).1 := by
  have heff := setVertexProperties_eff (K := K) (b := .release) ids n v m
  rcases heff.cases with ⟨a, hok, hg, _⟩ | ⟨_, h, _⟩
  · have hg' : ∀ i ∈ ids, (setVertexProperties K .release ids n v m).1.graph.memberProp (.inl i) n = some v := by
      intro i hi; rw [hg]; simp [Graph.memberProp, Graph.putVProps, hi]
    have hx : (setVertexProperties K .release ids n v m).1.graph.indexed = m.graph.indexed := by rw [hg]; rfl
    revert hg' hx
    generalize (setVertexProperties K .release ids n v m).1.graph = gg
    intro hg' hx
    unfold setVertexProperties
    have h := deleteVertexProperties_keeps (K := K) (ids.map (fun id => (id, n))) m
    generalize deleteVertexProperties K .release (ids.map (fun id => (id, n))) m = u at h
    obtain ⟨m1, res⟩ := u
    cases res with
    | error f => exact Grows.same h _
    | ok a =>
      simp only at h ⊢
      obtain ⟨_, _, _, _, _, _, _, e8⟩ := indexMembers_spec (K := K) n v (ids.map .inl)
        { m1 with vertexProperties := ids.foldl (fun p id => p.insert (id, n) v) m1.vertexProperties }
      have hi : ∀ n' w y, Mem.idx K { m1 with vertexProperties := ids.foldl (fun p id => p.insert (id, n) v) m1.vertexProperties } n' w y
          = m.idx K n' w y := by intro n' w y; simp [idx, h]
      refine ⟨fun n' w y hy => (e8 n' w y).2 (Or.inl (by rw [hi]; exact hy)), ?_⟩
      intro n' w y hy
      rcases (e8 n' w y).1 hy with hy | ⟨rfl, hc, hs, hm⟩
      · left; rw [hi] at hy; exact hy
      · right
        refine ⟨gg, by simp, ?_, v, ?_, hs⟩
        · rw [hx]; simp only [graph]; rw [← h]; exact hc
        · rw [List.mem_map] at hm
          obtain ⟨i, hi, rfl⟩ := hm
          exact hg' i hi
  · exact absurd h (by simp)

theorem setEdgeProperties_grows (es : List Edge) (n : Identifier) (v : Json) (m : Mem) :
    Grows K [(setEdgeProperties K .release es n v m).1.graph] m (setEdgeProperties K .release es n v m).1 := by
  have heff := setEdgeProperties_eff (K := K) (b := .release) es n v m
  rcases heff.cases with ⟨a, hok, hg, _⟩ | ⟨_, h, _⟩
  · have hg' : ∀ i ∈ es, (setEdgeProperties K .release es n v m).1.graph.memberProp (.inr i) n = some v := by
      intro i hi; rw [hg]; simp [Graph.memberProp, Graph.putEProps, hi]
    have hx : (setEdgeProperties K .release es n v m).1.graph.indexed = m.graph.indexed := by rw [hg]; rfl
    revert hg' hx
    generalize (setEdgeProperties K .release es n v m).1.graph = gg
    intro hg' hx
    unfold setEdgeProperties
    have h := deleteEdgeProperties_keeps (K := K) (es.map (fun id => (id, n))) m
    generalize deleteEdgeProperties K .release (es.map (fun id => (id, n))) m = u at h
    obtain ⟨m1, res⟩ := u
    cases res with
    | error f => exact Grows.same h _
    | ok a =>
      simp only at h ⊢
      obtain ⟨_, _, _, _, _, _, _, e8⟩ := indexMembers_spec (K := K) n v (es.map .inr)
        { m1 with edgeProperties := es.foldl (fun p id => p.insert (id, n) v) m1.edgeProperties }
      have hi : ∀ n' w y, Mem.idx K { m1 with edgeProperties := es.foldl (fun p id => p.insert (id, n) v) m1.edgeProperties } n' w y
          = m.idx K n' w y := by intro n' w y; simp [idx, h]
      refine ⟨fun n' w y hy => (e8 n' w y).2 (Or.inl (by rw [hi]; exact hy)), ?_⟩
      intro n' w y hy
      rcases (e8 n' w y).1 hy with hy | ⟨rfl, hc, hs, hm⟩
      · left; rw [hi] at hy; exact hy
      · right
        refine ⟨gg, by simp, ?_, v, ?_, hs⟩
        · rw [hx]; simp only [graph]; rw [← h]; exact hc
        · rw [List.mem_map] at hm
          obtain ⟨i, hi, rfl⟩ := hm
          exact hg' i hi
  · exact absurd h (by simp)

theorem bulkItem_grows (item : BulkInsertItem) (m : Mem) :
    let u := defaultBulkItem createVertex createEdge (setVertexProperties K .release) (setEdgeProperties K .release) item m
    Grows K [u.1.graph] m u.1 := by
  cases item with
  | vertex v =>
    simp only [defaultBulkItem]
    have h := createVertex_keeps v m
    generalize createVertex v m = u at h
    obtain ⟨m', res⟩ := u
    cases res <;> exact Grows.same h _
  | edge e =>
    simp only [defaultBulkItem]
    have h := createEdge_keeps e m
    generalize createEdge e m = u at h
    obtain ⟨m', res⟩ := u
    cases res <;> exact Grows.same h _
  | vertexProperty id n v => exact setVertexProperties_grows [id] n v m
  | edgeProperty e n v => exact setEdgeProperties_grows [e] n v m

/-- Everything with an indexed name in `g` is in the index of `m`. -/
def Covers (K : HashEq) (g : Graph) (m : Mem) : Prop :=
  ∀ n x w, g.indexed n = true → g.memberProp x n = some w → m.idx K n w x = true

theorem covers_full {m : Mem} : Covers K m.graph m ↔ Full K m := by
  constructor
  · intro h n x w hn hw; exact h n x w hn (by rw [prop_graph]; exact hw)
  · intro h n x w hn hw; exact h n x w hn (by rw [prop_graph] at hw; exact hw)

theorem Covers.mono {g : Graph} {l : List Graph} {m m' : Mem} (h : Covers K g m) (hg : Grows K l m m') : Covers K g m' :=
  fun n x w hn hw => hg.keeps n w x (h n x w hn hw)

theorem bulkInsert_grows (items : List BulkInsertItem) : ∀ m : Mem,
    Grows K (m.graph.through items) m (bulkInsert K .release items m).1 ∧
    (Full K m → ∀ g ∈ m.graph.through items, Covers K g (bulkInsert K .release items m).1) := by
  induction items with
  | nil => intro m; exact ⟨Grows.same rfl _, fun _ g hg => by simp [Graph.through] at hg⟩
  | cons i r ih =>
    intro m
    have h1 := bulkItem_grows (K := K) i m
    have h2 := bulkItem_eff (K := K) (b := .release) i m
    rcases h2.cases with ⟨a, hok, hg, _, hf⟩ | ⟨_, h, _⟩
    · have hb : bulkInsert K .release (i :: r) m = bulkInsert K .release r
          (defaultBulkItem createVertex createEdge (setVertexProperties K .release) (setEdgeProperties K .release) i m).1 := by
        unfold bulkInsert
        rw [IndraDB.forEach]
        generalize defaultBulkItem createVertex createEdge (setVertexProperties K .release) (setEdgeProperties K .release) i m = u at hok
        obtain ⟨m1, res⟩ := u
        simp only at hok
        subst hok
        rfl
      simp only at h1
      rw [hb]
      revert h1 hg hf
      generalize (defaultBulkItem createVertex createEdge (setVertexProperties K .release) (setEdgeProperties K .release) i m).1 = m1
      intro h1 hg hf
      obtain ⟨g1, g2⟩ := ih m1
      rw [hg] at g1 g2 h1
      refine ⟨h1.trans g1, ?_⟩
      intro hfull g hin
      rcases List.mem_cons.1 hin with rfl | hin
      · refine Covers.mono ?_ g1
        rw [← hg, covers_full]
        exact hf hfull
      · exact g2 (hf hfull) g hin
    · exact absurd h (by simp)

theorem indexProperty_grows {O : HashOrder} (n : Identifier) (m : Mem) (hd : AllDistinct K m) :
    Grows K [(indexProperty K O n m).1.graph] m (indexProperty K O n m).1 := by
  obtain ⟨_, h2⟩ := indexProperty_idx (O := O) n m hd
  obtain ⟨_, hg, _⟩ := indexProperty_eff (O := O) (K := K) (b := .release) n m
  refine ⟨fun n' w x h => (h2 n' w x).2 (Or.inl h), ?_⟩
  intro n' w x h
  rcases (h2 n' w x).1 h with h | ⟨rfl, _, v, hv, hs⟩
  · exact Or.inl h
  · right
    refine ⟨_, List.mem_singleton.2 rfl, ?_, v, ?_, hs⟩
    · rw [hg]; simp [Graph.addIndex]
    · rw [hg]
      rw [← prop_graph] at hv
      cases x <;> exact hv

theorem map_fst {α β : Type} (f : α → β) (u : Upd Mem α) : (Upd.map f u).1 = u.1 := by
  obtain ⟨m, r⟩ := u
  rfl

/-- One call in a release build. -/
theorem dbStep_grows (O : HashOrder) (op : Op) (m : Mem) (w : WF K .release m) :
    let m' := (dbStep (txn K O .release) op m).1
    Grows K (m'.graph :: op.between m.graph) m m' ∧
    (Full K m → ∀ g ∈ op.between m.graph, Covers K g m') := by
  have one : ∀ {m' : Mem}, Grows K [m'.graph] m m' → Grows K [m'.graph] m m' ∧
      (Full K m → ∀ g ∈ ([] : List Graph), Covers K g m') := fun h => ⟨h, fun _ g hg => by simp at hg⟩
  cases op with
  | sync => exact one (Grows.same rfl _)
  | createVertex v => exact one (Grows.same (by simp only [dbStep, map_fst]; exact createVertex_keeps v m) _)
  | createVertexFromType id t =>
    refine one (Grows.same ?_ _)
    simp only [dbStep, map_fst, dbCreateVertexFromType, txn]
    have h := createVertex_keeps ⟨id, t⟩ m
    generalize createVertex ⟨id, t⟩ m = u at h
    obtain ⟨m', res⟩ := u
    cases res with
    | ok b => cases b <;> exact h
    | error f => exact h
  | createEdge e => exact one (Grows.same (by simp only [dbStep, map_fst]; exact createEdge_keeps e m) _)
  | get q => exact one (Grows.same rfl _)
  | delete q =>
    refine one (Grows.same ?_ _)
    simp only [dbStep, dbDelete, map_fst]
    cases lastOutput ((txn K O .release).reads m) q with
    | error f => rfl
    | ok v =>
      cases v with
      | vertices vs => exact deleteVertices_keeps vs m
      | edges es => exact deleteEdges_keeps es m
      | vertexProperties l => exact deleteVertexProperties_keeps _ m
      | edgeProperties l => exact deleteEdgeProperties_keeps _ m
      | count n => rfl
  | setProperties q n x =>
    refine one ?_
    simp only [dbStep, dbSetProperties, map_fst]
    cases lastOutput ((txn K O .release).reads m) q with
    | error f => exact Grows.same rfl _
    | ok v =>
      cases v with
      | vertices vs => exact setVertexProperties_grows _ n x m
      | edges es => exact setEdgeProperties_grows es n x m
      | _ => exact Grows.same rfl _
  | bulkInsert items =>
    obtain ⟨h1, h2⟩ := bulkInsert_grows (K := K) items m
    refine ⟨⟨h1.keeps, fun n v x h => ?_⟩, h2⟩
    rcases h1.new n v x h with h | ⟨g, hg, h⟩
    · exact Or.inl h
    · exact Or.inr ⟨g, List.mem_cons_of_mem _ hg, h⟩
  | indexProperty n => exact one (indexProperty_grows n m w.distinct)

end Mem

open Mem
variable {K : HashEq}

/-- The index is explained by the databases satisfying `P`. -/
def Mem.Explained (K : HashEq) (P : Graph → Prop) (m : Mem) : Prop :=
  ∀ n v x, m.idx K n v x = true → ∃ g, P g ∧ Had K g n v x

/-- The index explains them all. -/
def Mem.Remembers (K : HashEq) (P : Graph → Prop) (m : Mem) : Prop := ∀ g, P g → Covers K g m

theorem past_ends (S : Store) (hist : List (S.Env × Op)) : ∀ s, S.graph (S.run hist s) ∈ S.past hist s := by
  induction hist with
  | nil => intro s; simp [Store.past, Store.run]
  | cons a r ih =>
    intro s
    obtain ⟨env, op⟩ := a
    rw [Store.past, Store.run]
    exact List.mem_cons_of_mem _ (List.mem_append_right _ (ih _))

theorem past_starts (S : Store) (hist : List (S.Env × Op)) (s : S.State) : S.graph s ∈ S.past hist s := by
  cases hist with
  | nil => simp [Store.past]
  | cons a r => obtain ⟨env, op⟩ := a; simp [Store.past]

theorem mem_past_cons (O : HashOrder) (op : Op) (r : List (HashOrder × Op)) (d : MemDb) (g : Graph) :
    g ∈ (memStore K .release).past ((O, op) :: r) d ↔ g = d.mem.graph ∨ g ∈ op.between d.mem.graph ∨
      g ∈ (memStore K .release).past r (MemDb.step K .release O op d).1 := by
  show g ∈ d.mem.graph :: (op.between d.mem.graph ++ _) ↔ _
  rw [List.mem_cons, List.mem_append]
  rfl

theorem explained_run (hist : List (HashOrder × Op)) : ∀ {d : MemDb} {P : Graph → Prop},
    (d.poisoned = false → MemDb.Inv K .release d) → Explained K P d.mem →
    (MemDb.run K .release hist d).poisoned = false →
    Explained K (fun g => P g ∨ g ∈ (memStore K .release).past hist d) (MemDb.run K .release hist d).mem := by
  induction hist with
  | nil =>
    intro d P _ he _ n v x h
    obtain ⟨g, hg, hh⟩ := he n v x h
    exact ⟨g, Or.inl hg, hh⟩
  | cons a r ih =>
    intro d P hi he hp
    obtain ⟨O, op⟩ := a
    rw [MemDb.run] at hp ⊢
    cases hd : d.poisoned with
    | true =>
      exfalso
      rw [MemDb.step_poisoned O op hd] at hp
      have : ∀ (l : List (HashOrder × Op)), (MemDb.run K .release l d).poisoned = true := by
        intro l
        induction l with
        | nil => exact hd
        | cons a r ih => obtain ⟨O, op⟩ := a; rw [MemDb.run, MemDb.step_poisoned O op hd]; exact ih
      rw [this r] at hp; exact absurd hp (by simp)
    | false =>
      have hw := (hi hd).wf
      obtain ⟨g1, _⟩ := dbStep_grows O op d.mem hw
      have hm := (memStep_eq (K := K) (b := .release) hd O op).1
      rw [← hm] at g1
      have he' : Explained K (fun g => P g ∨ g = (MemDb.step K .release O op d).1.mem.graph ∨ g ∈ op.between d.mem.graph)
          (MemDb.step K .release O op d).1.mem := by
        intro n v x h
        rcases g1.new n v x h with h | ⟨g, hg, h⟩
        · obtain ⟨g, hg, hh⟩ := he n v x h
          exact ⟨g, Or.inl hg, hh⟩
        · exact ⟨g, Or.inr (List.mem_cons.1 hg), h⟩
      have := ih (fun hq => MemDb.inv_step O op hi hq) he' hp
      intro n v x h
      obtain ⟨g, hg, hh⟩ := this n v x h
      refine ⟨g, ?_, hh⟩
      rcases hg with (hg | hg | hg) | hg
      · exact Or.inl hg
      · right
        refine (mem_past_cons O op r d g).2 (Or.inr (Or.inr ?_))
        rw [hg]; exact past_starts (memStore K .release) r _
      · right; exact (mem_past_cons O op r d g).2 (Or.inr (Or.inl hg))
      · right; exact (mem_past_cons O op r d g).2 (Or.inr (Or.inr hg))

theorem remembers_run (hist : List (HashOrder × Op)) : ∀ {d : MemDb} {P : Graph → Prop},
    (d.poisoned = false → MemDb.CInv K .release d) → Remembers K P d.mem →
    (memStore K .release).CheckedHist .release hist d →
    (MemDb.run K .release hist d).poisoned = false →
    Remembers K (fun g => P g ∨ g ∈ (memStore K .release).past hist d) (MemDb.run K .release hist d).mem := by
  induction hist with
  | nil =>
    intro d P hi hr _ hp g hg
    rcases hg with hg | hg
    · exact hr g hg
    · have hg' : g = d.mem.graph := List.mem_singleton.1 hg
      subst hg'
      exact covers_full.2 (hi hp).full
  | cons a r ih =>
    intro d P hi hr hc hp
    obtain ⟨O, op⟩ := a
    rw [MemDb.run] at hp ⊢
    cases hd : d.poisoned with
    | true =>
      exfalso
      rw [MemDb.step_poisoned O op hd] at hp
      have : ∀ (l : List (HashOrder × Op)), (MemDb.run K .release l d).poisoned = true := by
        intro l
        induction l with
        | nil => exact hd
        | cons a r ih => obtain ⟨O, op⟩ := a; rw [MemDb.run, MemDb.step_poisoned O op hd]; exact ih
      rw [this r] at hp; exact absurd hp (by simp)
    | false =>
      have hi' := hi hd
      obtain ⟨g1, g2⟩ := dbStep_grows O op d.mem hi'.wf
      have hm := (memStep_eq (K := K) (b := .release) hd O op).1
      rw [← hm] at g1 g2
      have hr' : Remembers K (fun g => P g ∨ g = d.mem.graph ∨ g ∈ op.between d.mem.graph)
          (MemDb.step K .release O op d).1.mem := by
        rintro g (hg | hg | hg)
        · exact (hr g hg).mono g1
        · subst hg; exact (covers_full.2 hi'.full).mono g1
        · exact g2 hi'.full g hg
      have := ih (fun hq => MemDb.cinv_step O op hi hc.1 hq) hr' hc.2 hp
      intro g hg
      refine this g ?_
      rcases hg with hg | hg
      · exact Or.inl (Or.inl hg)
      · rcases (mem_past_cons O op r d g).1 hg with hg | hg | hg
        · exact Or.inl (Or.inr (Or.inl hg))
        · exact Or.inl (Or.inr (Or.inr hg))
        · exact Or.inr hg

end IndraDB
