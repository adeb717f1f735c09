import Verif.Model.MemorySync
import Verif.Proofs.MemoryStore
/-
Reading back an image gives a database that behaves the same.
-/
set_option linter.unusedSimpArgs false
set_option linter.unusedVariables false
namespace IndraDB
open Mem
variable {K : HashEq} {b : Build}

/-! ### States that differ only in the order of hash-map entries -/

/-- Both absent, or both present and every lookup finds the same. -/
def ContEqv (K : HashEq) : Option Container → Option Container → Prop
  | none, none => True
  | some c, some c' => c.Distinct K ∧ c'.Distinct K ∧ ∀ v, c.find K v = c'.find K v
  | _, _ => False

def PvEqv (K : HashEq) (p p' : SMap Identifier Container) : Prop := ∀ n, ContEqv K (p.get n) (p'.get n)

/-- Same contents. -/
def Mem.Eqv (K : HashEq) (m m' : Mem) : Prop :=
  ∃ p, m' = { m with propertyValues := p } ∧ PvEqv K m.propertyValues p

theorem PvEqv.insert {p p' : SMap Identifier Container} (h : PvEqv K p p') (n : Identifier) {c c' : Container}
    (hc : ContEqv K (some c) (some c')) : PvEqv K (p.insert n c) (p'.insert n c') := by
  intro k
  rw [SMap.get_insert, SMap.get_insert]
  split
  · exact hc
  · exact h k

theorem ContEqv.upsert {c c' : Container} (h : ContEqv K (some c) (some c')) (v : Json) (f : SSet Member → SSet Member) :
    ContEqv K (some (c.upsert K v f)) (some (c'.upsert K v f)) := by
  obtain ⟨h1, h2, h3⟩ := h
  refine ⟨Container.distinct_upsert h1 v f, Container.distinct_upsert h2 v f, fun w => ?_⟩
  rw [Container.find_upsert, Container.find_upsert, h3, h3]

theorem ContEqv.update {c c' : Container} (h : ContEqv K (some c) (some c')) (v : Json) (f : SSet Member → SSet Member) :
    ContEqv K (some (c.update K v f)) (some (c'.update K v f)) := by
  obtain ⟨h1, h2, h3⟩ := h
  refine ⟨Container.distinct_update h1 v f, Container.distinct_update h2 v f, fun w => ?_⟩
  rw [Container.find_update, Container.find_update, h3]

theorem ContEqv.any {c c' : Container} (h : ContEqv K (some c) (some c')) (x : Member) : c.any x = c'.any x := by
  obtain ⟨h1, h2, h3⟩ := h
  rw [Bool.eq_iff_iff, Container.any_iff h1, Container.any_iff h2]
  constructor <;> rintro ⟨v, hv⟩ <;> refine ⟨v, ?_⟩
  · rw [Container.idx, ← h3]; exact hv
  · rw [Container.idx, h3]; exact hv

theorem ContEqv.ids {c c' : Container} (h : ContEqv K (some c) (some c')) : containerIds c = containerIds c' := by
  apply SSet.ext_contains
  intro x
  rw [contains_containerIds, contains_containerIds, h.any]

theorem ContEqv.edges {c c' : Container} (h : ContEqv K (some c) (some c')) : containerEdges c = containerEdges c' := by
  apply SSet.ext_contains
  intro x
  rw [contains_containerEdges, contains_containerEdges, h.any]

/-- All reads agree. -/
theorem Mem.Eqv.reads {m m' : Mem} (h : Eqv K m m') (O : HashOrder) : m.reads K O = m'.reads K O := by
  obtain ⟨p, rfl, h⟩ := h
  obtain ⟨ve, ed, re, vp, ep, pv⟩ := m
  have hV : Mem.vertexIdsWithProperty O ⟨ve, ed, re, vp, ep, pv⟩ = Mem.vertexIdsWithProperty O ⟨ve, ed, re, vp, ep, p⟩ := by
    funext n
    have := h n
    simp only [vertexIdsWithProperty] at this ⊢
    generalize pv.get n = a at this ⊢
    generalize p.get n = a' at this ⊢
    cases a <;> cases a' <;> first | exact this.elim | rfl | (simp only []; rw [this.ids])
  have hE : Mem.edgesWithProperty O ⟨ve, ed, re, vp, ep, pv⟩ = Mem.edgesWithProperty O ⟨ve, ed, re, vp, ep, p⟩ := by
    funext n
    have := h n
    simp only [edgesWithProperty] at this ⊢
    generalize pv.get n = a at this ⊢
    generalize p.get n = a' at this ⊢
    cases a <;> cases a' <;> first | exact this.elim | rfl | (simp only []; rw [this.edges])
  have hVV : Mem.vertexIdsWithPropertyValue K O ⟨ve, ed, re, vp, ep, pv⟩ =
      Mem.vertexIdsWithPropertyValue K O ⟨ve, ed, re, vp, ep, p⟩ := by
    funext n v
    have := h n
    simp only [vertexIdsWithPropertyValue] at this ⊢
    generalize pv.get n = a at this ⊢
    generalize p.get n = a' at this ⊢
    cases a <;> cases a' <;> first | exact this.elim | rfl | (simp only []; rw [this.2.2])
  have hEV : Mem.edgesWithPropertyValue K O ⟨ve, ed, re, vp, ep, pv⟩ =
      Mem.edgesWithPropertyValue K O ⟨ve, ed, re, vp, ep, p⟩ := by
    funext n v
    have := h n
    simp only [edgesWithPropertyValue] at this ⊢
    generalize pv.get n = a at this ⊢
    generalize p.get n = a' at this ⊢
    cases a <;> cases a' <;> first | exact this.elim | rfl | (simp only []; rw [this.2.2])
  simp only [Mem.reads, hV, hE, hVV, hEV]
  rfl

/-- Same effect and same result. -/
def UpdEqv {α : Type} (K : HashEq) (u u' : Upd Mem α) : Prop := Mem.Eqv K u.1 u'.1 ∧ u.2 = u'.2

theorem UpdEqv.forEach {α β : Type} {f : α → Mem → Upd Mem β}
    (hf : ∀ a m m', Mem.Eqv K m m' → UpdEqv K (f a m) (f a m')) :
    ∀ (l : List α) m m', Mem.Eqv K m m' → UpdEqv K (forEach f l m) (forEach f l m')
  | [], m, m', h => ⟨h, rfl⟩
  | a :: r, m, m', h => by
    have := hf a m m' h
    simp only [IndraDB.forEach]
    rcases h1 : f a m with ⟨s, x⟩
    rcases h2 : f a m' with ⟨s', x'⟩
    rw [h1, h2] at this
    obtain ⟨h3, h4⟩ := this
    simp only at h3 h4
    subst h4
    cases x with
    | error e => exact ⟨h3, rfl⟩
    | ok _ => exact UpdEqv.forEach hf r s s' h3

theorem Mem.Eqv.unindex {m m' : Mem} (h : Eqv K m m') (n : Identifier) (v : Json) (x : Member) :
    UpdEqv K (Mem.unindex K b n v x m) (Mem.unindex K b n v x m') := by
  obtain ⟨p, rfl, h⟩ := h
  have hn := h n
  simp only [Mem.unindex]
  cases hc : m.propertyValues.get n with
  | none => cases hc' : p.get n with
    | none => exact ⟨⟨p, rfl, h⟩, rfl⟩
    | some c' => rw [hc, hc'] at hn; exact hn.elim
  | some c => cases hc' : p.get n with
    | none => rw [hc, hc'] at hn; exact hn.elim
    | some c' =>
      rw [hc, hc'] at hn
      cases b with
      | release => exact ⟨⟨p, rfl, h⟩, rfl⟩
      | debug =>
        simp only [hn.2.2 v]
        cases c'.find K v with
        | none => exact ⟨⟨p, rfl, h⟩, rfl⟩
        | some sub =>
          simp only
          split
          · exact ⟨⟨_, rfl, h.insert n (hn.update v _)⟩, rfl⟩
          · exact ⟨⟨_, rfl, h.insert n (hn.update v _)⟩, rfl⟩

theorem Mem.Eqv.deleteVertexProperty {m m' : Mem} (h : Eqv K m m') (p : Uuid × Identifier) :
    UpdEqv K (Mem.deleteVertexProperty K b p m) (Mem.deleteVertexProperty K b p m') := by
  obtain ⟨pv, rfl, h⟩ := h
  simp only [Mem.deleteVertexProperty]
  cases m.vertexProperties.get p with
  | none => exact ⟨⟨pv, rfl, h⟩, rfl⟩
  | some v =>
    exact Mem.Eqv.unindex (m := { m with vertexProperties := m.vertexProperties.erase p }) ⟨pv, rfl, h⟩ _ _ _

theorem Mem.Eqv.deleteEdgeProperty {m m' : Mem} (h : Eqv K m m') (p : Edge × Identifier) :
    UpdEqv K (Mem.deleteEdgeProperty K b p m) (Mem.deleteEdgeProperty K b p m') := by
  obtain ⟨pv, rfl, h⟩ := h
  simp only [Mem.deleteEdgeProperty]
  cases m.edgeProperties.get p with
  | none => exact ⟨⟨pv, rfl, h⟩, rfl⟩
  | some v =>
    exact Mem.Eqv.unindex (m := { m with edgeProperties := m.edgeProperties.erase p }) ⟨pv, rfl, h⟩ _ _ _

theorem Mem.Eqv.deleteVertexProperties {m m' : Mem} (h : Eqv K m m') (l : List (Uuid × Identifier)) :
    UpdEqv K (Mem.deleteVertexProperties K b l m) (Mem.deleteVertexProperties K b l m') :=
  UpdEqv.forEach (fun a _ _ h => h.deleteVertexProperty a) l m m' h

theorem Mem.Eqv.deleteEdgeProperties {m m' : Mem} (h : Eqv K m m') (l : List (Edge × Identifier)) :
    UpdEqv K (Mem.deleteEdgeProperties K b l m) (Mem.deleteEdgeProperties K b l m') :=
  UpdEqv.forEach (fun a _ _ h => h.deleteEdgeProperty a) l m m' h

theorem Mem.Eqv.deleteEdge {m m' : Mem} (h : Eqv K m m') (e : Edge) :
    UpdEqv K (Mem.deleteEdge K b e m) (Mem.deleteEdge K b e m') := by
  obtain ⟨pv, rfl, h⟩ := h
  exact Mem.Eqv.deleteEdgeProperties
    (m := { m with edges := m.edges.erase e, reversedEdges := m.reversedEdges.erase e.reversed }) ⟨pv, rfl, h⟩ _

theorem Mem.Eqv.deleteEdges {m m' : Mem} (h : Eqv K m m') (l : List Edge) :
    UpdEqv K (Mem.deleteEdges K b l m) (Mem.deleteEdges K b l m') :=
  UpdEqv.forEach (fun a _ _ h => h.deleteEdge a) l m m' h

theorem Mem.Eqv.deleteVertex {m m' : Mem} (h : Eqv K m m') (v : Vertex) :
    UpdEqv K (Mem.deleteVertex K b v m) (Mem.deleteVertex K b v m') := by
  obtain ⟨pv, rfl, h⟩ := h
  simp only [Mem.deleteVertex]
  have := Mem.Eqv.deleteVertexProperties (b := b) (K := K)
    (m := { m with vertices := m.vertices.erase v.id }) (m' := { m with vertices := m.vertices.erase v.id, propertyValues := pv })
    ⟨pv, rfl, h⟩ (((m.vertexProperties.rangeFrom (v.id, Identifier.empty)).map (·.1)).takeWhile (fun k => v.id = k.1))
  obtain ⟨h1, h2⟩ := this
  generalize Mem.deleteVertexProperties K b _ { m with vertices := m.vertices.erase v.id } = u at h1 h2 ⊢
  generalize Mem.deleteVertexProperties K b _ { m with vertices := m.vertices.erase v.id, propertyValues := pv } = u' at h1 h2 ⊢
  obtain ⟨s, x⟩ := u
  obtain ⟨s', x'⟩ := u'
  simp only at h1 h2
  subst h2
  cases x with
  | error f => exact ⟨h1, rfl⟩
  | ok _ =>
    have he : s'.edges = s.edges := by obtain ⟨_, rfl, _⟩ := h1; rfl
    simp only [he]
    exact h1.deleteEdges _

theorem Mem.Eqv.deleteVertices {m m' : Mem} (h : Eqv K m m') (l : List Vertex) :
    UpdEqv K (Mem.deleteVertices K b l m) (Mem.deleteVertices K b l m') :=
  UpdEqv.forEach (fun a _ _ h => h.deleteVertex a) l m m' h

theorem Mem.Eqv.createVertex {m m' : Mem} (h : Eqv K m m') (v : Vertex) :
    UpdEqv K (Mem.createVertex v m) (Mem.createVertex v m') := by
  obtain ⟨pv, rfl, h⟩ := h
  simp only [Mem.createVertex]
  cases m.vertices.get v.id with
  | none => exact ⟨⟨pv, rfl, h⟩, rfl⟩
  | some t => exact ⟨⟨pv, rfl, h⟩, rfl⟩

theorem Mem.Eqv.createEdge {m m' : Mem} (h : Eqv K m m') (e : Edge) :
    UpdEqv K (Mem.createEdge e m) (Mem.createEdge e m') := by
  obtain ⟨pv, rfl, h⟩ := h
  simp only [Mem.createEdge]
  split
  · exact ⟨⟨pv, rfl, h⟩, rfl⟩
  · exact ⟨⟨pv, rfl, h⟩, rfl⟩

theorem ContEqv.merge (new : Container) : ∀ {c c' : Container}, ContEqv K (some c) (some c') →
    ContEqv K (some (mergeContainer K new c)) (some (mergeContainer K new c')) := by
  unfold mergeContainer
  induction new with
  | nil => intro c c' h; exact h
  | cons e r ih => intro c c' h; exact ih (h.upsert e.1 _)

theorem Mem.Eqv.indexProperty {O : HashOrder} {m m' : Mem} (h : Eqv K m m') (n : Identifier) :
    UpdEqv K (Mem.indexProperty K O n m) (Mem.indexProperty K O n m') := by
  obtain ⟨pv, rfl, h⟩ := h
  refine ⟨⟨_, rfl, ?_⟩, rfl⟩
  simp only [Mem.indexProperty]
  refine h.insert n ?_
  have hn := h n
  have e : ∀ c, Mem.edgeIndexEntries K n { m with propertyValues := pv } c = Mem.edgeIndexEntries K n m c := fun _ => rfl
  have e2 : ∀ c, Mem.vertexIndexEntries K n { m with propertyValues := pv } c = Mem.vertexIndexEntries K n m c := fun _ => rfl
  rw [e, e2]
  apply ContEqv.merge
  generalize m.propertyValues.get n = a at hn ⊢
  generalize pv.get n = a' at hn ⊢
  cases a <;> cases a' <;> first | exact hn.elim | skip
  · exact ⟨List.Pairwise.nil, List.Pairwise.nil, fun _ => rfl⟩
  · exact hn

theorem Mem.Eqv.indexMembers {m m' : Mem} (h : Eqv K m m') (n : Identifier) (v : Json) (l : List Member) :
    Eqv K (Mem.indexMembers K n v l m) (Mem.indexMembers K n v l m') := by
  obtain ⟨pv, rfl, h⟩ := h
  have hn := h n
  simp only [Mem.indexMembers]
  cases hc : m.propertyValues.get n with
  | none => cases hc' : pv.get n with
    | none => exact ⟨pv, rfl, h⟩
    | some c' => rw [hc, hc'] at hn; exact hn.elim
  | some c => cases hc' : pv.get n with
    | none => rw [hc, hc'] at hn; exact hn.elim
    | some c' =>
      rw [hc, hc'] at hn
      exact ⟨_, rfl, h.insert n (hn.upsert v _)⟩

theorem Mem.Eqv.setVertexProperties {m m' : Mem} (h : Eqv K m m') (l : List Uuid) (n : Identifier) (v : Json) :
    UpdEqv K (Mem.setVertexProperties K b l n v m) (Mem.setVertexProperties K b l n v m') := by
  obtain ⟨h1, h2⟩ := h.deleteVertexProperties (b := b) (l.map (fun id => (id, n)))
  simp only [Mem.setVertexProperties]
  generalize Mem.deleteVertexProperties K b _ m = u at h1 h2 ⊢
  generalize Mem.deleteVertexProperties K b _ m' = u' at h1 h2 ⊢
  obtain ⟨s, x⟩ := u
  obtain ⟨s', x'⟩ := u'
  simp only at h1 h2
  subst h2
  cases x with
  | error f => exact ⟨h1, rfl⟩
  | ok _ =>
    obtain ⟨pv, rfl, h1⟩ := h1
    exact ⟨Mem.Eqv.indexMembers
      (m := { s with vertexProperties := l.foldl (fun p id => p.insert (id, n) v) s.vertexProperties }) ⟨pv, rfl, h1⟩ _ _ _, rfl⟩

theorem Mem.Eqv.setEdgeProperties {m m' : Mem} (h : Eqv K m m') (l : List Edge) (n : Identifier) (v : Json) :
    UpdEqv K (Mem.setEdgeProperties K b l n v m) (Mem.setEdgeProperties K b l n v m') := by
  obtain ⟨h1, h2⟩ := h.deleteEdgeProperties (b := b) (l.map (fun id => (id, n)))
  simp only [Mem.setEdgeProperties]
  generalize Mem.deleteEdgeProperties K b _ m = u at h1 h2 ⊢
  generalize Mem.deleteEdgeProperties K b _ m' = u' at h1 h2 ⊢
  obtain ⟨s, x⟩ := u
  obtain ⟨s', x'⟩ := u'
  simp only at h1 h2
  subst h2
  cases x with
  | error f => exact ⟨h1, rfl⟩
  | ok _ =>
    obtain ⟨pv, rfl, h1⟩ := h1
    exact ⟨Mem.Eqv.indexMembers
      (m := { s with edgeProperties := l.foldl (fun p e => p.insert (e, n) v) s.edgeProperties }) ⟨pv, rfl, h1⟩ _ _ _, rfl⟩

theorem Mem.Eqv.bulkItem {m m' : Mem} (h : Eqv K m m') (i : BulkInsertItem) :
    UpdEqv K (defaultBulkItem Mem.createVertex Mem.createEdge (Mem.setVertexProperties K b) (Mem.setEdgeProperties K b) i m)
      (defaultBulkItem Mem.createVertex Mem.createEdge (Mem.setVertexProperties K b) (Mem.setEdgeProperties K b) i m') := by
  cases i with
  | vertex v =>
    obtain ⟨h1, h2⟩ := h.createVertex v
    simp only [defaultBulkItem]
    generalize Mem.createVertex v m = u at h1 h2 ⊢
    generalize Mem.createVertex v m' = u' at h1 h2 ⊢
    obtain ⟨s, x⟩ := u
    obtain ⟨s', x'⟩ := u'
    simp only at h1 h2
    subst h2
    cases x <;> exact ⟨h1, rfl⟩
  | edge e =>
    obtain ⟨h1, h2⟩ := h.createEdge e
    simp only [defaultBulkItem]
    generalize Mem.createEdge e m = u at h1 h2 ⊢
    generalize Mem.createEdge e m' = u' at h1 h2 ⊢
    obtain ⟨s, x⟩ := u
    obtain ⟨s', x'⟩ := u'
    simp only at h1 h2
    subst h2
    cases x <;> exact ⟨h1, rfl⟩
  | vertexProperty id n v => exact h.setVertexProperties [id] n v
  | edgeProperty e n v => exact h.setEdgeProperties [e] n v

theorem UpdEqv.map {α β : Type} {u u' : Upd Mem α} (h : UpdEqv K u u') (f : α → β) :
    UpdEqv K (Upd.map f u) (Upd.map f u') := ⟨h.1, by rw [Upd.map, Upd.map, h.2]⟩

/-- One call: same reply, and the states again have the same contents. -/
theorem Mem.Eqv.dbStep {m m' : Mem} (h : Eqv K m m') (O : HashOrder) (op : Op) :
    UpdEqv K (dbStep (txn K O b) op m) (dbStep (txn K O b) op m') := by
  have hr : (txn K O b).reads m' = (txn K O b).reads m := (h.reads O).symm
  cases op with
  | sync => exact ⟨h, rfl⟩
  | createVertex v => exact (h.createVertex v).map _
  | createVertexFromType id t =>
    refine UpdEqv.map ?_ _
    have := h.createVertex ⟨id, t⟩
    simp only [dbCreateVertexFromType, txn]
    generalize Mem.createVertex ⟨id, t⟩ m = u at this ⊢
    generalize Mem.createVertex ⟨id, t⟩ m' = u' at this ⊢
    obtain ⟨s, x⟩ := u
    obtain ⟨s', x'⟩ := u'
    obtain ⟨h1, h2⟩ := this
    simp only at h1 h2
    subst h2
    rcases x with f | (_ | _) <;> exact ⟨h1, rfl⟩
  | createEdge e => exact (h.createEdge e).map _
  | get q =>
    refine ⟨h, ?_⟩
    simp only [IndraDB.dbStep, hr]
  | delete q =>
    refine UpdEqv.map ?_ _
    simp only [dbDelete, hr]
    cases lastOutput ((txn K O b).reads m) q with
    | error f => exact ⟨h, rfl⟩
    | ok o => cases o with
      | vertices l => exact h.deleteVertices l
      | edges l => exact h.deleteEdges l
      | count n => exact ⟨h, rfl⟩
      | vertexProperties l => exact h.deleteVertexProperties _
      | edgeProperties l => exact h.deleteEdgeProperties _
  | setProperties q n v =>
    refine UpdEqv.map ?_ _
    simp only [dbSetProperties, hr]
    cases lastOutput ((txn K O b).reads m) q with
    | error f => exact ⟨h, rfl⟩
    | ok o => cases o with
      | vertices l => exact h.setVertexProperties _ n v
      | edges l => exact h.setEdgeProperties l n v
      | count n => exact ⟨h, rfl⟩
      | vertexProperties l => exact ⟨h, rfl⟩
      | edgeProperties l => exact ⟨h, rfl⟩
  | bulkInsert items => exact (UpdEqv.forEach (fun i _ _ h => h.bulkItem i) items m m' h).map _
  | indexProperty n => exact (h.indexProperty n).map _

/-! ### Loading an image -/

section
variable {κ α : Type} [Order κ] [DecidableEq κ]

theorem foldl_insert_get (l : List (κ × α)) (hn : (l.map (·.1)).Nodup) : ∀ (m : SMap κ α) (k : κ),
    (l.foldl (fun m e => m.insert e.1 e.2) m).get k =
      match l.find? (fun e => e.1 = k) with
      | some e => some e.2
      | none => m.get k := by
  induction l with
  | nil => intro m k; rfl
  | cons e r ih =>
    intro m k
    simp only [List.map_cons, List.nodup_cons] at hn
    rw [List.foldl_cons, ih hn.2, List.find?_cons]
    by_cases h : e.1 = k
    · have : r.find? (fun e => e.1 = k) = none := by
        rw [List.find?_eq_none]
        intro x hx hxk
        simp only [decide_eq_true_eq] at hxk
        exact hn.1 (List.mem_map.2 ⟨x, hx, by rw [hxk, h]⟩)
      rw [this]; simp [h, SMap.get_insert]
    · simp only [h, decide_false]
      cases r.find? (fun e => e.1 = k) with
      | some e => rfl
      | none => simp only; rw [SMap.get_insert, if_neg (fun e => h e.symm)]

theorem key_inj : ∀ {l : List (κ × α)}, (l.map (·.1)).Nodup → ∀ {a b}, a ∈ l → b ∈ l → a.1 = b.1 → a = b
  | [], _, _, _, ha, _, _ => by simp at ha
  | e :: r, hn, a, b, ha, hb, h => by
    simp only [List.map_cons, List.nodup_cons] at hn
    rcases List.mem_cons.1 ha with h1 | h1 <;> rcases List.mem_cons.1 hb with h2 | h2
    · rw [h1, h2]
    · exact absurd (List.mem_map.2 ⟨b, h2, by rw [← h, h1]⟩) hn.1
    · exact absurd (List.mem_map.2 ⟨a, h1, by rw [h, h2]⟩) hn.1
    · exact key_inj hn.2 h1 h2 h

theorem loadMap_get {l : List (κ × α)} (hn : (l.map (·.1)).Nodup) (k : κ) (v : α) :
    (loadMap l).get k = some v ↔ (k, v) ∈ l := by
  unfold loadMap
  rw [foldl_insert_get l hn]
  constructor
  · intro h
    split at h
    · rename_i e he
      have h1 := List.mem_of_find?_eq_some he
      have h2 := List.find?_some he
      simp only [decide_eq_true_eq] at h2
      obtain ⟨a, c⟩ := e
      simp only [Option.some.injEq] at h
      simp only at h2
      subst h h2; exact h1
    · simp at h
  · intro h
    split
    · rename_i e he
      have h1 := List.mem_of_find?_eq_some he
      have h2 := List.find?_some he
      simp only [decide_eq_true_eq] at h2
      have : e = (k, v) := key_inj hn h1 h h2
      rw [this]
    · rename_i he
      rw [List.find?_eq_none] at he
      exact absurd (by simp) (he _ h)

theorem loadMap_perm (m : SMap κ α) {l : List (κ × α)} (h : l.Perm m.toList) : loadMap l = m := by
  apply SMap.ext_get
  intro k
  have hn : (l.map (·.1)).Nodup := (h.map _).nodup_iff.2 m.nodup_keys
  rw [Option.ext_iff]
  intro v
  rw [loadMap_get hn, h.mem_iff, SMap.mem_toList]

theorem loadSet_perm (s : SSet κ) {l : List κ} (h : l.Perm s.elems) : loadSet l = s := by
  apply SSet.ext_contains
  intro k
  unfold loadSet
  rw [contains_foldl_add]
  rw [Bool.eq_iff_iff]
  simp [h.mem_iff, SSet.mem_elems]
end

/-- A rebuilt container finds what the old one did. -/
theorem loadContainer_eqv {c : Container} (hd : c.Distinct K) {l : Container} (h : List.Perm l c)
    (f : List Member → List Member) (hf : ∀ s, (f s).Perm s) :
    ContEqv K (some c) (some (loadContainer K (l.map (fun s => (s.1, f s.2.elems))))) := by
  -- the rebuilt container, entry by entry
  have key : ∀ (l : Container) (acc : Container), acc.Distinct K → l.Distinct K →
      (l.map (fun s => (s.1, f s.2.elems))).foldl (fun c e => c.upsert K e.1 (fun _ => loadSet e.2)) acc =
        l.foldl (fun c e => c.upsert K e.1 (fun _ => e.2)) acc := by
    intro l
    induction l with
    | nil => intro acc _ _; rfl
    | cons e r ih =>
      intro acc ha hl
      simp only [List.map_cons, List.foldl_cons]
      rw [loadSet_perm e.2 (hf _)]
      exact ih _ (Container.distinct_upsert ha _ _) (List.Pairwise.of_cons hl)
  have sym : ∀ a b : Json × SSet Member, K.same a.1 b.1 = false → K.same b.1 a.1 = false := by
    intro a b h; rw [K.same_comm]; exact h
  have hl : l.Distinct K := (List.Perm.pairwise_iff (fun {a b} h => sym a b h) h).2 hd
  -- lookups in the rebuilt container
  have key2 : ∀ (l : Container) (acc : Container), acc.Distinct K → l.Distinct K →
      (l.foldl (fun c e => c.upsert K e.1 (fun _ => e.2)) acc).Distinct K ∧
      ∀ v, Container.find K (l.foldl (fun c e => c.upsert K e.1 (fun _ => e.2)) acc) v =
        match Container.find K l v with
        | some s => some s
        | none => Container.find K acc v := by
    intro l
    induction l with
    | nil => intro acc ha _; exact ⟨ha, fun v => rfl⟩
    | cons e r ih =>
      intro acc ha hl
      have hcons := List.pairwise_cons.1 hl
      obtain ⟨h1, h2⟩ := ih (acc.upsert K e.1 (fun _ => e.2)) (Container.distinct_upsert ha _ _) hcons.2
      refine ⟨h1, fun v => ?_⟩
      rw [List.foldl_cons, h2, Container.find_cons, Container.find_upsert]
      by_cases hs : K.same e.1 v = true
      · have : Container.find K r v = none := by
          rw [Container.find_eq]
          rw [Option.map_eq_none_iff, List.find?_eq_none]
          intro x hx hxv
          have := hcons.1 x hx
          have h3 := K.trans _ _ _ hs (K.symm _ _ hxv)
          rw [h3] at this; cases this
        rw [this]; simp [hs]
      · simp [hs]
  have fin := key2 l [] List.Pairwise.nil hl
  unfold loadContainer
  rw [key l [] List.Pairwise.nil hl]
  refine ⟨hd, fin.1, fun v => ?_⟩
  rw [fin.2]
  -- lookups do not depend on the order of a distinct container
  have hfind : ∀ (c : Container), c.Distinct K → ∀ s, Container.find K c v = some s ↔ ∃ k, (k, s) ∈ c ∧ K.same k v = true := by
    intro c hc s
    constructor
    · intro h
      rw [Container.find_eq] at h
      rw [Option.map_eq_some_iff] at h
      obtain ⟨e, he, rfl⟩ := h
      exact ⟨e.1, List.mem_of_find?_eq_some he, by have := List.find?_some he; exact this⟩
    · rintro ⟨k, hk, hs⟩
      induction c with
      | nil => simp at hk
      | cons e r ih =>
        have hcons := List.pairwise_cons.1 hc
        rw [Container.find_cons]
        rcases List.mem_cons.1 hk with rfl | hk
        · simp [hs]
        · have := hcons.1 _ hk
          rw [if_neg]
          · exact ih hcons.2 hk
          · intro h3
            have := K.trans _ _ _ h3 (K.symm _ _ hs)
            simp_all
  have : Container.find K c v = Container.find K l v := by
    rw [Option.ext_iff]
    intro s
    rw [hfind c hd, hfind l hl]
    constructor <;> rintro ⟨k, hk, hs⟩
    · exact ⟨k, h.mem_iff.2 hk, hs⟩
    · exact ⟨k, h.mem_iff.1 hk, hs⟩
  rw [this]
  cases Container.find K l v <;> rfl

/-- Loading the image of a state gives a state with the same contents. -/
theorem Mem.image_load {m : Mem} (hd : AllDistinct K m) (Q : ImageOrder) : Mem.Eqv K m ((m.image Q).load K) := by
  have hn : ((Q.names m.propertyValues.toList).map (·.1)).Nodup :=
    ((Q.names_perm m.propertyValues.toList).map _).nodup_iff.2 m.propertyValues.nodup_keys
  refine ⟨((m.image Q).load K).propertyValues, ?_, ?_⟩
  · simp only [Image.load, Mem.image, loadMap_perm _ (List.Perm.refl _), loadSet_perm _ (List.Perm.refl _)]
  · intro n
    simp only [Image.load, Mem.image, List.map_map]
    have hn2 : (((Q.names m.propertyValues.toList).map ((fun e => (e.1, loadContainer K e.2)) ∘ fun e =>
        (e.1, (Q.values e.2).map (fun s => (s.1, Q.members s.2.elems))))).map (·.1)).Nodup := by
      rw [List.map_map]; exact hn
    cases hc : m.propertyValues.get n with
    | some c =>
      have : (n, c) ∈ Q.names m.propertyValues.toList := by
        rw [(Q.names_perm _).mem_iff, SMap.mem_toList]; exact hc
      have h2 := (loadMap_get hn2 n _).2 (List.mem_map.2 ⟨(n, c), this, rfl⟩)
      rw [h2]
      exact loadContainer_eqv (hd n c hc) (Q.values_perm c) _ Q.members_perm
    | none =>
      cases hc' : (loadMap ((Q.names m.propertyValues.toList).map ((fun e => (e.1, loadContainer K e.2)) ∘ fun e =>
        (e.1, (Q.values e.2).map (fun s => (s.1, Q.members s.2.elems)))))).get n with
      | none => trivial
      | some c =>
        rw [loadMap_get hn2, List.mem_map] at hc'
        obtain ⟨e, he, h3⟩ := hc'
        rw [(Q.names_perm _).mem_iff, SMap.mem_toList'] at he
        have : e.1 = n := congrArg Prod.fst h3
        rw [this, hc] at he; cases he

end IndraDB
