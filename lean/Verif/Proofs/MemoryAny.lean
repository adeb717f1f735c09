import Verif.Proofs.MemoryStore
import Verif.Proofs.MemorySync
import Verif.Proofs.JsonLaws
/-
The memory datastore when every call may find JSON keys in its own way (`Finder`): what it does to the graph does not
depend on that, as long as it does not panic.
-/
set_option linter.unusedSimpArgs false
namespace IndraDB
namespace Mem

/-- The same data and the same indexed names; the contents of the indexes may differ. -/
def Twin (m m' : Mem) : Prop :=
  ∃ p, m' = { m with propertyValues := p } ∧ ∀ n, p.contains n = m.propertyValues.contains n

theorem Twin.refl (m : Mem) : Twin m m := ⟨m.propertyValues, rfl, fun _ => rfl⟩

theorem Twin.graph {m m' : Mem} (h : Twin m m') : m'.graph = m.graph := by
  obtain ⟨p, rfl, hp⟩ := h
  ext i n w
  · rfl
  · rfl
  · rfl
  · rfl
  · exact hp i

theorem Twin.rev {m m' : Mem} (h : Twin m m') (hr : m'.RevOk) : m.RevOk := by
  obtain ⟨p, rfl, hp⟩ := h; exact hr

/-- The second call never panics here (release build); the first has the same effect on the data unless it panics, which
it can only do in a debug build. -/
def TwinUpd {α : Type} (b : Build) (u u' : Upd Mem α) : Prop :=
  (u.2 = .error .panic ∧ b = .debug) ∨ (u.2 = u'.2 ∧ Twin u.1 u'.1)

variable {F : Finder} {K : HashEq} {b : Build}

theorem TwinUpd.forEach {α β : Type} {f f' : α → Mem → Upd Mem β}
    (hf : ∀ a m m', Twin m m' → TwinUpd b (f a m) (f' a m')) :
    ∀ (l : List α) m m', Twin m m' → TwinUpd b (forEach f l m) (forEach f' l m')
  | [], _, _, h => Or.inr ⟨rfl, h⟩
  | a :: r, m, m', h => by
    have := hf a m m' h
    simp only [IndraDB.forEach]
    rcases h1 : f a m with ⟨s, x⟩
    rcases h2 : f' a m' with ⟨s', x'⟩
    rw [h1, h2] at this
    rcases this with ⟨h3, h4⟩ | ⟨h3, h4⟩
    · simp only at h3; subst h3; exact Or.inl ⟨rfl, h4⟩
    · simp only at h3 h4
      subst h3
      cases x with
      | error e => exact Or.inr ⟨rfl, h4⟩
      | ok _ => exact TwinUpd.forEach hf r s s' h4

theorem TwinUpd.map {α β : Type} {u u' : Upd Mem α} (h : TwinUpd b u u') (f : α → β) :
    TwinUpd b (Upd.map f u) (Upd.map f u') := by
  rcases h with ⟨h1, h2⟩ | ⟨h1, h2⟩
  · left; exact ⟨by simp [Upd.map, h1, Except.map], h2⟩
  · right; exact ⟨by simp [Upd.map, h1], h2⟩

theorem contains_insert_same {p : SMap Identifier Container} {n : Identifier} {c c' : Container} (h : p.get n = some c)
    (n' : Identifier) : (p.insert n c').contains n' = p.contains n' := by
  simp only [SMap.contains, SMap.get_insert]
  split
  · rename_i he; rw [he, h]; rfl
  · rfl

theorem Twin.unindex {m m' : Mem} (h : Twin m m') (n : Identifier) (v : Json) (x : Member) :
    TwinUpd b (Mem.unindex F b n v x m) (Mem.unindex K .release n v x m') := by
  have hr : Mem.unindex K .release n v x m' = (m', .ok ()) := by
    unfold Mem.unindex; cases m'.propertyValues.get n <;> rfl
  rw [hr]
  unfold Mem.unindex
  cases hc : m.propertyValues.get n with
  | none => exact Or.inr ⟨rfl, h⟩
  | some c =>
    cases b with
    | release => exact Or.inr ⟨rfl, h⟩
    | debug =>
      simp only
      cases hf : c.find F v with
      | none => exact Or.inl ⟨rfl, rfl⟩
      | some sub =>
        simp only
        split
        · right
          refine ⟨rfl, ?_⟩
          obtain ⟨p, rfl, hp⟩ := h
          exact ⟨p, rfl, fun n' => by rw [hp]; exact (contains_insert_same hc n').symm⟩
        · exact Or.inl ⟨rfl, rfl⟩

theorem Twin.deleteVertexProperty {m m' : Mem} (h : Twin m m') (p : Uuid × Identifier) :
    TwinUpd b (Mem.deleteVertexProperty F b p m) (Mem.deleteVertexProperty K .release p m') := by
  obtain ⟨pv, rfl, h⟩ := h
  simp only [Mem.deleteVertexProperty]
  cases m.vertexProperties.get p with
  | none => exact Or.inr ⟨rfl, pv, rfl, h⟩
  | some v => exact Twin.unindex (m := { m with vertexProperties := m.vertexProperties.erase p }) ⟨pv, rfl, h⟩ _ _ _

theorem Twin.deleteEdgeProperty {m m' : Mem} (h : Twin m m') (p : Edge × Identifier) :
    TwinUpd b (Mem.deleteEdgeProperty F b p m) (Mem.deleteEdgeProperty K .release p m') := by
  obtain ⟨pv, rfl, h⟩ := h
  simp only [Mem.deleteEdgeProperty]
  cases m.edgeProperties.get p with
  | none => exact Or.inr ⟨rfl, pv, rfl, h⟩
  | some v => exact Twin.unindex (m := { m with edgeProperties := m.edgeProperties.erase p }) ⟨pv, rfl, h⟩ _ _ _

theorem Twin.deleteVertexProperties {m m' : Mem} (h : Twin m m') (l : List (Uuid × Identifier)) :
    TwinUpd b (Mem.deleteVertexProperties F b l m) (Mem.deleteVertexProperties K .release l m') :=
  TwinUpd.forEach (fun a _ _ h => h.deleteVertexProperty a) l m m' h

theorem Twin.deleteEdgeProperties {m m' : Mem} (h : Twin m m') (l : List (Edge × Identifier)) :
    TwinUpd b (Mem.deleteEdgeProperties F b l m) (Mem.deleteEdgeProperties K .release l m') :=
  TwinUpd.forEach (fun a _ _ h => h.deleteEdgeProperty a) l m m' h

theorem Twin.deleteEdge {m m' : Mem} (h : Twin m m') (e : Edge) :
    TwinUpd b (Mem.deleteEdge F b e m) (Mem.deleteEdge K .release e m') := by
  obtain ⟨pv, rfl, h⟩ := h
  exact Twin.deleteEdgeProperties
    (m := { m with edges := m.edges.erase e, reversedEdges := m.reversedEdges.erase e.reversed }) ⟨pv, rfl, h⟩ _

theorem Twin.deleteEdges {m m' : Mem} (h : Twin m m') (l : List Edge) :
    TwinUpd b (Mem.deleteEdges F b l m) (Mem.deleteEdges K .release l m') :=
  TwinUpd.forEach (fun a _ _ h => h.deleteEdge a) l m m' h

theorem Twin.deleteVertex {m m' : Mem} (h : Twin m m') (v : Vertex) :
    TwinUpd b (Mem.deleteVertex F b v m) (Mem.deleteVertex K .release v m') := by
  obtain ⟨pv, rfl, h⟩ := h
  simp only [Mem.deleteVertex]
  have := Twin.deleteVertexProperties (b := b) (F := F) (K := K)
    (m := { m with vertices := m.vertices.erase v.id }) (m' := { m with vertices := m.vertices.erase v.id, propertyValues := pv })
    ⟨pv, rfl, h⟩ (((m.vertexProperties.rangeFrom (v.id, Identifier.empty)).map (·.1)).takeWhile (fun k => v.id = k.1))
  generalize Mem.deleteVertexProperties F b _ { m with vertices := m.vertices.erase v.id } = u at this ⊢
  generalize Mem.deleteVertexProperties K .release _ { m with vertices := m.vertices.erase v.id, propertyValues := pv } = u' at this ⊢
  obtain ⟨s, x⟩ := u
  obtain ⟨s', x'⟩ := u'
  rcases this with ⟨h1, h2⟩ | ⟨h1, h2⟩
  · simp only at h1; subst h1; exact Or.inl ⟨rfl, h2⟩
  · simp only at h1 h2
    subst h1
    cases x with
    | error f => exact Or.inr ⟨rfl, h2⟩
    | ok _ =>
      have he : s'.edges = s.edges := by obtain ⟨_, rfl, _⟩ := h2; rfl
      simp only [he]
      exact h2.deleteEdges _

theorem Twin.deleteVertices {m m' : Mem} (h : Twin m m') (l : List Vertex) :
    TwinUpd b (Mem.deleteVertices F b l m) (Mem.deleteVertices K .release l m') :=
  TwinUpd.forEach (fun a _ _ h => h.deleteVertex a) l m m' h

theorem Twin.createVertex {m m' : Mem} (h : Twin m m') (v : Vertex) :
    TwinUpd b (Mem.createVertex v m) (Mem.createVertex v m') := by
  obtain ⟨pv, rfl, h⟩ := h
  simp only [Mem.createVertex]
  cases m.vertices.get v.id with
  | none => exact Or.inr ⟨rfl, pv, rfl, h⟩
  | some t => exact Or.inr ⟨rfl, pv, rfl, h⟩

theorem Twin.createEdge {m m' : Mem} (h : Twin m m') (e : Edge) :
    TwinUpd b (Mem.createEdge e m) (Mem.createEdge e m') := by
  obtain ⟨pv, rfl, h⟩ := h
  simp only [Mem.createEdge]
  split
  · exact Or.inr ⟨rfl, pv, rfl, h⟩
  · exact Or.inr ⟨rfl, pv, rfl, h⟩

theorem Twin.indexProperty {O : HashOrder} {m m' : Mem} (h : Twin m m') (n : Identifier) :
    TwinUpd b (Mem.indexProperty F O n m) (Mem.indexProperty K O n m') := by
  obtain ⟨pv, rfl, h⟩ := h
  refine Or.inr ⟨rfl, _, rfl, ?_⟩
  intro n'
  simp only [Mem.indexProperty, SMap.contains, SMap.get_insert]
  split
  · rfl
  · exact h n'

theorem Twin.indexMembers {m m' : Mem} (h : Twin m m') (n : Identifier) (v : Json) (l : List Member) :
    Twin (Mem.indexMembers F n v l m) (Mem.indexMembers K n v l m') := by
  obtain ⟨pv, rfl, h⟩ := h
  have hn := h n
  simp only [Mem.indexMembers]
  cases hc : m.propertyValues.get n with
  | none => cases hc' : pv.get n with
    | none => exact ⟨pv, rfl, h⟩
    | some c' => simp [SMap.contains, hc, hc'] at hn
  | some c => cases hc' : pv.get n with
    | none => simp [SMap.contains, hc, hc'] at hn
    | some c' =>
      refine ⟨_, rfl, fun n' => ?_⟩
      exact (contains_insert_same hc' n').trans ((h n').trans (contains_insert_same hc n').symm)

theorem Twin.setVertexProperties {m m' : Mem} (h : Twin m m') (l : List Uuid) (n : Identifier) (v : Json) :
    TwinUpd b (Mem.setVertexProperties F b l n v m) (Mem.setVertexProperties K .release l n v m') := by
  have := h.deleteVertexProperties (b := b) (F := F) (K := K) (l.map (fun id => (id, n)))
  simp only [Mem.setVertexProperties]
  generalize Mem.deleteVertexProperties F b _ m = u at this ⊢
  generalize Mem.deleteVertexProperties K .release _ m' = u' at this ⊢
  obtain ⟨s, x⟩ := u
  obtain ⟨s', x'⟩ := u'
  rcases this with ⟨h1, h2⟩ | ⟨h1, h2⟩
  · simp only at h1; subst h1; exact Or.inl ⟨rfl, h2⟩
  · simp only at h1 h2
    subst h1
    cases x with
    | error f => exact Or.inr ⟨rfl, h2⟩
    | ok _ =>
      obtain ⟨pv, rfl, h2⟩ := h2
      exact Or.inr ⟨rfl, Twin.indexMembers
        (m := { s with vertexProperties := l.foldl (fun p id => p.insert (id, n) v) s.vertexProperties }) ⟨pv, rfl, h2⟩ _ _ _⟩

theorem Twin.setEdgeProperties {m m' : Mem} (h : Twin m m') (l : List Edge) (n : Identifier) (v : Json) :
    TwinUpd b (Mem.setEdgeProperties F b l n v m) (Mem.setEdgeProperties K .release l n v m') := by
  have := h.deleteEdgeProperties (b := b) (F := F) (K := K) (l.map (fun id => (id, n)))
  simp only [Mem.setEdgeProperties]
  generalize Mem.deleteEdgeProperties F b _ m = u at this ⊢
  generalize Mem.deleteEdgeProperties K .release _ m' = u' at this ⊢
  obtain ⟨s, x⟩ := u
  obtain ⟨s', x'⟩ := u'
  rcases this with ⟨h1, h2⟩ | ⟨h1, h2⟩
  · simp only at h1; subst h1; exact Or.inl ⟨rfl, h2⟩
  · simp only at h1 h2
    subst h1
    cases x with
    | error f => exact Or.inr ⟨rfl, h2⟩
    | ok _ =>
      obtain ⟨pv, rfl, h2⟩ := h2
      exact Or.inr ⟨rfl, Twin.indexMembers
        (m := { s with edgeProperties := l.foldl (fun p e => p.insert (e, n) v) s.edgeProperties }) ⟨pv, rfl, h2⟩ _ _ _⟩

theorem Twin.bulkItem {m m' : Mem} (h : Twin m m') (i : BulkInsertItem) :
    TwinUpd b (defaultBulkItem Mem.createVertex Mem.createEdge (Mem.setVertexProperties F b) (Mem.setEdgeProperties F b) i m)
      (defaultBulkItem Mem.createVertex Mem.createEdge (Mem.setVertexProperties K .release)
        (Mem.setEdgeProperties K .release) i m') := by
  cases i with
  | vertex v =>
    have := h.createVertex (b := b) v
    simp only [defaultBulkItem]
    generalize Mem.createVertex v m = u at this ⊢
    generalize Mem.createVertex v m' = u' at this ⊢
    obtain ⟨s, x⟩ := u
    obtain ⟨s', x'⟩ := u'
    rcases this with ⟨h1, h2⟩ | ⟨h1, h2⟩
    · simp only at h1; subst h1; exact Or.inl ⟨rfl, h2⟩
    · simp only at h1 h2; subst h1; cases x <;> exact Or.inr ⟨rfl, h2⟩
  | edge e =>
    have := h.createEdge (b := b) e
    simp only [defaultBulkItem]
    generalize Mem.createEdge e m = u at this ⊢
    generalize Mem.createEdge e m' = u' at this ⊢
    obtain ⟨s, x⟩ := u
    obtain ⟨s', x'⟩ := u'
    rcases this with ⟨h1, h2⟩ | ⟨h1, h2⟩
    · simp only at h1; subst h1; exact Or.inl ⟨rfl, h2⟩
    · simp only at h1 h2; subst h1; cases x <;> exact Or.inr ⟨rfl, h2⟩
  | vertexProperty id n v => exact h.setVertexProperties [id] n v
  | edgeProperty e n v => exact h.setEdgeProperties [e] n v

/-- Same data, all indexes empty. -/
def blank (m : Mem) : Mem := { m with propertyValues := loadMap (m.propertyValues.toList.map (fun e => (e.1, []))) }

theorem blank_get (m : Mem) (n : Identifier) (c : Container) :
    m.blank.propertyValues.get n = some c ↔ c = [] ∧ m.propertyValues.contains n = true := by
  have hn : ((m.propertyValues.toList.map (fun e => (e.1, ([] : Container)))).map (·.1)).Nodup := by
    rw [List.map_map]; exact m.propertyValues.nodup_keys
  show (loadMap _).get n = some c ↔ _
  rw [loadMap_get hn, List.mem_map]
  constructor
  · rintro ⟨e, he, heq⟩
    cases heq
    refine ⟨rfl, ?_⟩
    rw [SMap.mem_toList'] at he
    simp [SMap.contains, he]
  · rintro ⟨rfl, h⟩
    rw [SMap.contains_iff] at h
    obtain ⟨v, hv⟩ := h
    exact ⟨(n, v), SMap.mem_toList.2 hv, rfl⟩

theorem twin_blank (m : Mem) : Twin m m.blank := by
  refine ⟨_, rfl, fun n => ?_⟩
  rw [Bool.eq_iff_iff, SMap.contains_iff]
  constructor
  · rintro ⟨c, hc⟩; exact ((m.blank_get n c).1 hc).2
  · intro h; exact ⟨[], (m.blank_get n []).2 ⟨rfl, h⟩⟩

theorem wf_blank {m : Mem} (h : m.RevOk) : WF K .release m.blank where
  rev := h
  distinct := by
    intro n c hc
    rw [((m.blank_get n c).1 hc).1]; exact List.Pairwise.nil
  sound := fun h => absurd h (by simp)

/-- What a write does to the graph: as specified, or it panics in a debug build. -/
def GEff (b : Build) {α : Type} (φ : Graph → Graph) (m : Mem) (u : Upd Mem α) : Prop :=
  (u.2 = .error .panic ∧ b = .debug) ∨
  ((∃ a, u.2 = .ok a) ∧ u.1.graph = φ m.graph ∧ (m.RevOk → u.1.RevOk))

/-- The effect of a release build with fixed lookups is that of any other one. -/
theorem TwinUpd.geff {α : Type} {φ : Graph → Graph} {m m' : Mem} {u : Upd Mem α} {u' : Upd Mem α} (hm : Twin m m')
    (hw : m.RevOk → WF K .release m') (h : TwinUpd b u u') (he : Eff K .release φ m' u') : GEff b φ m u := by
  rcases h with h | ⟨h1, h2⟩
  · exact Or.inl h
  · rcases he.cases with ⟨a, h3, h4, h5, _⟩ | ⟨_, h3, _⟩
    · right
      exact ⟨⟨a, h1.trans h3⟩, by rw [← h2.graph, h4, hm.graph], fun hr => h2.rev (h5 (hw hr)).rev⟩
    · exact absurd h3 (by simp)

theorem deleteVertices_geff (l : List Vertex) (m : Mem) :
    GEff b (fun g => g.dropVertices (l.map (·.id))) m (Mem.deleteVertices F b l m) :=
  ((twin_blank m).deleteVertices (K := HashEq.byHash) l).geff (twin_blank m) wf_blank (deleteVertices_eff l _)

theorem deleteEdges_geff (l : List Edge) (m : Mem) : GEff b (fun g => g.dropEdges l) m (Mem.deleteEdges F b l m) :=
  ((twin_blank m).deleteEdges (K := HashEq.byHash) l).geff (twin_blank m) wf_blank (deleteEdges_eff l _)

theorem deleteVertexProperties_geff (l : List (Uuid × Identifier)) (m : Mem) :
    GEff b (fun g => g.dropVProps l) m (Mem.deleteVertexProperties F b l m) :=
  ((twin_blank m).deleteVertexProperties (K := HashEq.byHash) l).geff (twin_blank m) wf_blank (deleteVertexProperties_eff l _)

theorem deleteEdgeProperties_geff (l : List (Edge × Identifier)) (m : Mem) :
    GEff b (fun g => g.dropEProps l) m (Mem.deleteEdgeProperties F b l m) :=
  ((twin_blank m).deleteEdgeProperties (K := HashEq.byHash) l).geff (twin_blank m) wf_blank (deleteEdgeProperties_eff l _)

theorem setVertexProperties_geff (ids : List Uuid) (n : Identifier) (v : Json) (m : Mem) :
    GEff b (fun g => g.putVProps ids n v) m (Mem.setVertexProperties F b ids n v m) :=
  ((twin_blank m).setVertexProperties (K := HashEq.byHash) ids n v).geff (twin_blank m) wf_blank (setVertexProperties_eff ids n v _)

theorem setEdgeProperties_geff (es : List Edge) (n : Identifier) (v : Json) (m : Mem) :
    GEff b (fun g => g.putEProps es n v) m (Mem.setEdgeProperties F b es n v m) :=
  ((twin_blank m).setEdgeProperties (K := HashEq.byHash) es n v).geff (twin_blank m) wf_blank (setEdgeProperties_eff es n v _)

theorem bulkItem_geff (i : BulkInsertItem) (m : Mem) : GEff b (fun g => g.bulkItem i) m
    (defaultBulkItem Mem.createVertex Mem.createEdge (Mem.setVertexProperties F b) (Mem.setEdgeProperties F b) i m) :=
  (Twin.bulkItem (twin_blank m) i).geff (K := HashEq.byHash) (twin_blank m) wf_blank (bulkItem_eff i _)

theorem bulkInsert_geff (items : List BulkInsertItem) (m : Mem) :
    GEff b (fun g => items.foldl Graph.bulkItem g) m (Mem.bulkInsert F b items m) :=
  (TwinUpd.forEach (fun i _ _ h => Twin.bulkItem h i) items _ _ (twin_blank m)).geff (K := HashEq.byHash) (twin_blank m)
    wf_blank (bulkInsert_eff items _)

theorem createVertex_geff (v : Vertex) (m : Mem) : GEff b (fun g => g.createVertex v) m (Mem.createVertex v m) :=
  ((twin_blank m).createVertex v).geff (K := HashEq.byHash) (twin_blank m) wf_blank (createVertex_eff v _).1

theorem createEdge_geff (e : Edge) (m : Mem) : GEff b (fun g => g.createEdge e) m (Mem.createEdge e m) :=
  ((twin_blank m).createEdge e).geff (K := HashEq.byHash) (twin_blank m) wf_blank (createEdge_eff e _).1

theorem indexProperty_geff {O : HashOrder} (n : Identifier) (m : Mem) :
    GEff b (fun g => g.addIndex n) m (Mem.indexProperty F O n m) := by
  have := ((twin_blank m).indexProperty (b := b) (F := F) (K := HashEq.byHash) (O := O) n)
  obtain ⟨h1, h2, h3, _⟩ := indexProperty_eff (O := O) (K := HashEq.byHash) (b := .release) n m.blank
  rcases this with h | ⟨h4, h5⟩
  · exact Or.inl h
  · right
    exact ⟨⟨(), h4.trans h1⟩, by rw [← h5.graph, h2, (twin_blank m).graph], fun hr => h5.rev (h3 (wf_blank hr)).rev⟩

/-- One call, whatever its lookups find: it does to the graph what the specification says, or panics in a write. -/
theorem dbStep_any (F : Finder) (O : HashOrder) (op : Op) (m : Mem) (w : m.RevOk) :
    (StepWith Sem.intended m.graph (eval (reads F O m)) op (dbStep (txn F O b) op m).1.graph (dbStep (txn F O b) op m).2 ∧
      (dbStep (txn F O b) op m).1.RevOk) ∨
    ((dbStep (txn F O b) op m).2 = .error .panic ∧ b = .debug ∧
      ((∃ q, op = .delete q) ∨ (∃ q n x, op = .setProperties q n x) ∨ ∃ l, op = .bulkInsert l)) := by
  have wr : ∀ (φ : Graph → Graph) (u : Upd Mem Unit), GEff b φ m u →
      (Upd.map (fun _ => Reply.unit) u).2 = .ok .unit ∧ (Upd.map (fun _ => Reply.unit) u).1.graph = φ m.graph ∧
        (Upd.map (fun _ => Reply.unit) u).1.RevOk ∨
      ((Upd.map (fun _ => Reply.unit) u).2 = .error .panic ∧ b = .debug) := by
    intro φ u hu
    rcases hu with ⟨h1, h2⟩ | ⟨⟨a, h1⟩, h2, h3⟩
    · right; exact ⟨by simp [Upd.map, h1, Except.map], h2⟩
    · left; exact ⟨by simp [Upd.map, h1, Except.map], h2, h3 w⟩
  cases op with
  | sync => left; exact ⟨⟨rfl, rfl⟩, w⟩
  | createVertex v =>
    have h2 := (createVertex_eff (K := HashEq.byHash) (b := b) v m).2
    rcases createVertex_geff (b := b) v m with ⟨h1, _⟩ | ⟨_, hg, hr⟩
    · rw [h2] at h1; exact absurd h1 (by simp)
    · left; exact ⟨⟨hg, by simp [dbStep, txn, Upd.map, h2, Except.map]⟩, hr w⟩
  | createVertexFromType id t =>
    have h2 := (createVertex_eff (K := HashEq.byHash) (b := b) ⟨id, t⟩ m).2
    rcases createVertex_geff (b := b) ⟨id, t⟩ m with ⟨h1, _⟩ | ⟨_, hg, hr⟩
    · rw [h2] at h1; exact absurd h1 (by simp)
    · left
      have hs : (dbStep (txn F O b) (.createVertexFromType id t) m).1 = (Mem.createVertex ⟨id, t⟩ m).1 ∧
          (dbStep (txn F O b) (.createVertexFromType id t) m).2 =
            if m.graph.vertex id = none then .ok (.uuid id) else .error (.err .uuidTaken) := by
        simp only [dbStep, dbCreateVertexFromType, txn]
        generalize Mem.createVertex ⟨id, t⟩ m = u at h2
        obtain ⟨m', res⟩ := u
        simp only at h2
        subst h2
        by_cases hv : m.graph.vertex id = none
        · simp [hv, Upd.map, Except.map]
        · have : (m.graph.vertex id == none) = false := by
            cases hh : m.graph.vertex id with
            | none => exact absurd hh hv
            | some t => rfl
          simp [this, hv, Upd.map, Except.map]
      exact ⟨⟨by rw [hs.1]; exact hg, hs.2⟩, by rw [hs.1]; exact hr w⟩
  | createEdge e =>
    have h2 := (createEdge_eff (K := HashEq.byHash) (b := b) e m).2
    rcases createEdge_geff (b := b) e m with ⟨h1, _⟩ | ⟨_, hg, hr⟩
    · rw [h2] at h1; exact absurd h1 (by simp)
    · left; exact ⟨⟨hg, by simp [dbStep, txn, Upd.map, h2, Except.map]⟩, hr w⟩
  | get q =>
    left
    refine ⟨⟨rfl, ?_⟩, w⟩
    simp only [dbStep, txn, getQuery_eq]
    cases eval (reads F O m) q <;> rfl
  | delete q =>
    have hl : lastOutput (reads F O m) q = (eval (reads F O m) q).map (·.2) := lastOutput_eq _ q
    have hsw : ∀ m' r, (match eval (reads F O m) q with
      | .error f => m' = m.graph ∧ r = .error f
      | .ok (_, v) => DeleteValue Sem.intended m.graph v m' r) → StepWith Sem.intended m.graph (eval (reads F O m)) (.delete q) m' r := fun _ _ h => h
    generalize eval (reads F O m) q = a at hsw hl
    simp only [dbStep, dbDelete]
    have hT : (txn F O b).reads m = reads F O m := rfl
    rw [hT, hl]
    cases a with
    | error f => left; exact ⟨hsw _ _ ⟨rfl, rfl⟩, w⟩
    | ok p =>
      obtain ⟨inc, v⟩ := p
      simp only [Except.map]
      cases v with
      | vertices vs =>
        rcases wr _ _ (deleteVertices_geff (F := F) (b := b) vs m) with ⟨h1, h2, h3⟩ | h
        · left; exact ⟨hsw _ _ ⟨h2, h1⟩, h3⟩
        · right; exact ⟨h.1, h.2, Or.inl ⟨q, rfl⟩⟩
      | edges es =>
        rcases wr _ _ (deleteEdges_geff (F := F) (b := b) es m) with ⟨h1, h2, h3⟩ | h
        · left; exact ⟨hsw _ _ ⟨h2, h1⟩, h3⟩
        · right; exact ⟨h.1, h.2, Or.inl ⟨q, rfl⟩⟩
      | vertexProperties l =>
        rcases wr _ _ (deleteVertexProperties_geff (F := F) (b := b) (vertexPropertyKeys l) m) with ⟨h1, h2, h3⟩ | h
        · left; exact ⟨hsw _ _ ⟨h2, h1⟩, h3⟩
        · right; exact ⟨h.1, h.2, Or.inl ⟨q, rfl⟩⟩
      | edgeProperties l =>
        rcases wr _ _ (deleteEdgeProperties_geff (F := F) (b := b) (edgePropertyKeys l) m) with ⟨h1, h2, h3⟩ | h
        · left; exact ⟨hsw _ _ ⟨h2, h1⟩, h3⟩
        · right; exact ⟨h.1, h.2, Or.inl ⟨q, rfl⟩⟩
      | count n => left; exact ⟨hsw _ _ ⟨rfl, rfl⟩, w⟩
  | setProperties q n x =>
    have hl : lastOutput (reads F O m) q = (eval (reads F O m) q).map (·.2) := lastOutput_eq _ q
    have hsw : ∀ m' r, (match eval (reads F O m) q with
      | .error f => m' = m.graph ∧ r = .error f
      | .ok (_, v) => SetValue Sem.intended m.graph n x v m' r) → StepWith Sem.intended m.graph (eval (reads F O m)) (.setProperties q n x) m' r := fun _ _ h => h
    generalize eval (reads F O m) q = a at hsw hl
    simp only [dbStep, dbSetProperties]
    have hT : (txn F O b).reads m = reads F O m := rfl
    rw [hT, hl]
    cases a with
    | error f => left; exact ⟨hsw _ _ ⟨rfl, rfl⟩, w⟩
    | ok p =>
      obtain ⟨inc, v⟩ := p
      simp only [Except.map]
      cases v with
      | vertices vs =>
        rcases wr _ _ (setVertexProperties_geff (F := F) (b := b) (vs.map (·.id)) n x m) with ⟨h1, h2, h3⟩ | h
        · left; exact ⟨hsw _ _ ⟨h2, h1⟩, h3⟩
        · right; exact ⟨h.1, h.2, Or.inr (Or.inl ⟨q, n, x, rfl⟩)⟩
      | edges es =>
        rcases wr _ _ (setEdgeProperties_geff (F := F) (b := b) es n x m) with ⟨h1, h2, h3⟩ | h
        · left; exact ⟨hsw _ _ ⟨h2, h1⟩, h3⟩
        · right; exact ⟨h.1, h.2, Or.inr (Or.inl ⟨q, n, x, rfl⟩)⟩
      | _ => left; exact ⟨hsw _ _ ⟨rfl, rfl⟩, w⟩
  | bulkInsert items =>
    rcases wr _ _ (bulkInsert_geff (F := F) (b := b) items m) with ⟨h1, h2, h3⟩ | h
    · left; exact ⟨⟨h2, h1⟩, h3⟩
    · right; exact ⟨h.1, h.2, Or.inr (Or.inr ⟨items, rfl⟩)⟩
  | indexProperty n =>
    left
    rcases indexProperty_geff (O := O) (F := F) (b := b) n m with ⟨h1, _⟩ | ⟨⟨a, h1⟩, h2, h3⟩
    · exact absurd h1 (by simp [Mem.indexProperty])
    · exact ⟨⟨h2, by simp [dbStep, txn, Upd.map, h1, Except.map]⟩, h3 w⟩

end Mem

open Mem

/-- The memory datastore as a black box, when every call has its own hash iteration orders **and its own way of finding
JSON keys in hash maps**. -/
def memStoreAny (b : Build) : Store where
  State := MemDb
  Env := Finder × HashOrder
  init := MemDb.new
  step := fun e op d => MemDb.step e.1 b e.2 op d
  graph := fun d => d.mem.graph
  index := fun e d => d.mem.index e.1
  alive := fun d => !d.poisoned
  okValue := fun _ => True

variable {b : Build}

theorem memAny_ok (hist : List ((Finder × HashOrder) × Op)) : (memStoreAny b).OkHist hist := by
  rintro ⟨O, op⟩ _
  cases op <;> try trivial
  intro i _
  cases i <;> trivial

theorem memAny_valuesOk (op : Op) : op.ValuesOk (memStoreAny b).okValue := by
  cases op <;> try trivial
  intro i _
  cases i <;> trivial

theorem MemDb.step_poisoned_any (F : Finder) (O : HashOrder) (op : Op) {d : MemDb} (h : d.poisoned = true) :
    step F b O op d = (d, .error .panic) := by
  unfold step; rw [if_pos h]

theorem memStep_any {d : MemDb} (hp : d.poisoned = false) (F : Finder) (O : HashOrder) (op : Op) :
    (MemDb.step F b O op d).1.mem = (dbStep (txn F O b) op d.mem).1 ∧
    (MemDb.step F b O op d).2 = (dbStep (txn F O b) op d.mem).2 ∧
    ((MemDb.step F b O op d).1.poisoned = true ↔ (dbStep (txn F O b) op d.mem).2 = .error .panic) := by
  unfold MemDb.step
  rw [if_neg (by simp [hp])]
  generalize dbStep (txn F O b) op d.mem = u
  obtain ⟨m', r⟩ := u
  cases r with
  | ok a => simp
  | error f => cases f <;> simp

theorem memAny_run_rev (hist : List ((Finder × HashOrder) × Op)) : ∀ d : MemDb, (d.poisoned = false → d.mem.RevOk) →
    ((memStoreAny b).run hist d).poisoned = false → ((memStoreAny b).run hist d).mem.RevOk := by
  induction hist with
  | nil => intro d h; exact h
  | cons p r ih =>
    obtain ⟨⟨F, O⟩, op⟩ := p
    intro d h
    refine ih (MemDb.step F b O op d).1 ?_
    intro hp'
    cases hp : d.poisoned with
    | true => rw [MemDb.step_poisoned_any F O op hp] at hp'; rw [hp] at hp'; exact absurd hp' (by simp)
    | false =>
      have he := memStep_any (b := b) hp F O op
      rw [he.1]
      rcases dbStep_any (b := b) F O op d.mem (h hp) with ⟨_, h2⟩ | ⟨h2, _⟩
      · exact h2
      · rw [he.2.2.2 h2] at hp'; exact absurd hp' (by simp)

/-- The memory datastore, already in state `d₀`. -/
def memStoreAnyFrom (b : Build) (d₀ : MemDb) : Store := { memStoreAny b with init := d₀ }

theorem memAnyFrom_run (d₀ : MemDb) (hist : List ((Finder × HashOrder) × Op)) : ∀ d : MemDb,
    (memStoreAnyFrom b d₀).run hist d = (memStoreAny b).run hist d := by
  induction hist with
  | nil => intro d; rfl
  | cons p r ih => intro d; exact ih _

theorem memAnyFrom_reach {d₀ d : MemDb} (h₀ : d₀.poisoned = false → d₀.mem.RevOk)
    (h : (memStoreAnyFrom b d₀).Reach d) : d.poisoned = false ∧ d.mem.RevOk := by
  obtain ⟨hist, rfl, ha, _⟩ := h
  have e : (memStoreAnyFrom b d₀).run hist (memStoreAnyFrom b d₀).init = (memStoreAny b).run hist d₀ := memAnyFrom_run d₀ hist d₀
  have hp : ((memStoreAny b).run hist d₀).poisoned = false := by
    have ha' : (!((memStoreAny b).run hist d₀).poisoned) = true := (congrArg (fun d : MemDb => !d.poisoned) e).symm.trans ha
    simpa using ha'
  exact e ▸ ⟨hp, memAny_run_rev hist d₀ h₀ hp⟩

theorem memAny_reach {d : MemDb} (h : (memStoreAny b).Reach d) : d.poisoned = false ∧ d.mem.RevOk :=
  memAnyFrom_reach (d₀ := MemDb.new) (fun _ => (wf_empty (K := HashEq.byHash) (b := b)).rev) h

/-- The memory datastore conforms to the intended semantics, whatever its lookups find, from every usable state. -/
def memAnyConformsFrom (b : Build) (d₀ : MemDb) (h₀ : d₀.poisoned = false → d₀.mem.RevOk) :
    Conforms (memStoreAnyFrom b d₀) (memConv HashEq.byHash) Sem.intended where
  reads := fun e d => reads e.1 e.2 d.mem
  get_eq := by
    intro d hr e q
    exact (memStep_any (memAnyFrom_reach h₀ hr).1 e.1 e.2 (.get q)).2.1
  faithful := fun d hr e => faithful e.1 e.2 d.mem (memAnyFrom_reach h₀ hr).2
  step := by
    rintro d hr ⟨F, O⟩ op _
    obtain ⟨hp, hi⟩ := memAnyFrom_reach h₀ hr
    have he := memStep_any (b := b) hp F O op
    show StepWith _ _ _ _ (MemDb.step F b O op d).1.mem.graph (MemDb.step F b O op d).2 ∨ _
    rcases dbStep_any (b := b) F O op d.mem hi with ⟨h, _⟩ | ⟨h, _, h2⟩
    · left; rw [he.1, he.2.1]; exact h
    · right; exact ⟨he.2.1.trans h, h2⟩
  step_noWrite := by
    rintro d hr ⟨F, O⟩ op h
    obtain ⟨hp, hi⟩ := memAnyFrom_reach h₀ hr
    have he := memStep_any (b := b) hp F O op
    show StepWith _ _ _ _ (MemDb.step F b O op d).1.mem.graph (MemDb.step F b O op d).2
    rw [he.1, he.2.1]
    rcases h with ⟨q, rfl, ⟨f, hq⟩ | ⟨⟨inc, v⟩, hq, hk⟩⟩ | ⟨q, n, x, rfl, ⟨f, hq⟩ | ⟨⟨inc, v⟩, hq, hk1, hk2⟩⟩
    · have hl : lastOutput ((txn F O b).reads d.mem) q = .error f := by
        have := lastOutput_eq (reads F O d.mem) q; rw [hq] at this; exact this
      simp only [StepWith, hq, dbStep, dbDelete, hl]; exact ⟨rfl, rfl⟩
    · have hl : lastOutput ((txn F O b).reads d.mem) q = .ok v := by
        have := lastOutput_eq (reads F O d.mem) q; rw [hq] at this; exact this
      cases v <;> simp [Output.kind] at hk
      simp only [StepWith, hq, dbStep, dbDelete, hl]; exact ⟨rfl, rfl⟩
    · have hl : lastOutput ((txn F O b).reads d.mem) q = .error f := by
        have := lastOutput_eq (reads F O d.mem) q; rw [hq] at this; exact this
      simp only [StepWith, hq, dbStep, dbSetProperties, hl]; exact ⟨rfl, rfl⟩
    · have hl : lastOutput ((txn F O b).reads d.mem) q = .ok v := by
        have := lastOutput_eq (reads F O d.mem) q; rw [hq] at this; exact this
      cases v <;> simp [Output.kind] at hk1 hk2 <;>
      · simp only [StepWith, hq, dbStep, dbSetProperties, hl]; exact ⟨rfl, rfl⟩
  sem_index := (memConforms HashEq.byHash b).sem_index
  alive_back := by
    rintro d ⟨F, O⟩ op h
    show (!d.poisoned) = true
    cases hp : d.poisoned with
    | false => rfl
    | true =>
      have h' : (!(MemDb.step F b O op d).1.poisoned) = true := h
      rw [MemDb.step_poisoned_any F O op hp] at h'; rw [hp] at h'; simp at h'
  alive_ok := by
    rintro d hr ⟨F, O⟩ op _ h hpanic
    obtain ⟨hp, _⟩ := memAnyFrom_reach h₀ hr
    have he := memStep_any (b := b) hp F O op
    have h' : (!(MemDb.step F b O op d).1.poisoned) = true := h
    rw [he.2.2.2 (he.2.1.symm.trans hpanic)] at h'
    simp at h'

/-- The memory datastore conforms to the intended semantics, whatever its lookups find. -/
def memAnyConforms (b : Build) : Conforms (memStoreAny b) (memConv HashEq.byHash) Sem.intended :=
  memAnyConformsFrom b MemDb.new (fun _ => (wf_empty (K := HashEq.byHash) (b := b)).rev)

end IndraDB
