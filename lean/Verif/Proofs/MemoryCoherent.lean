import Verif.Proofs.MemoryAny
import Verif.Spec.Server
import Verif.Spec.Coherent
/-
If equal JSON values always have the same hash input, it does not matter how hash maps find them.
-/
set_option linter.unusedSimpArgs false
namespace IndraDB

variable {F : Finder} {K : HashEq} {b : Build} {V : Json → Prop}

/-- The keys of the container satisfy `V`. -/
def Container.KeysIn (V : Json → Prop) (c : Container) : Prop := ∀ e ∈ c, V e.1

namespace Container

theorem pairwise_idx {c : Container} (hd : c.Distinct K) {i j : Nat} {e e' : Json × SSet Member} (hi : c[i]? = some e)
    (hj : c[j]? = some e') (hs : K.same e.1 e'.1 = true) : i = j := by
  have key : ∀ {i j : Nat} {e e' : Json × SSet Member}, c[i]? = some e → c[j]? = some e' → i < j →
      K.same e.1 e'.1 = false := by
    intro i j e e' hi hj hlt
    obtain ⟨h1, rfl⟩ := List.getElem?_eq_some_iff.1 hi
    obtain ⟨h2, rfl⟩ := List.getElem?_eq_some_iff.1 hj
    exact (List.pairwise_iff_getElem.1 hd) i j h1 h2 hlt
  rcases Nat.lt_trichotomy i j with h | h | h
  · rw [key hi hj h] at hs; exact absurd hs (by simp)
  · exact h
  · have := key hj hi h
    rw [K.same_comm, hs] at this; exact absurd this (by simp)

/-- With coherent keys every lookup finds the same entry. -/
theorem at_eq (hV : Coherent V) {c : Container} (hd : c.Distinct K) (hk : c.KeysIn V) {v : Json} (hv : V v) :
    F.at c v = K.finder.at c v := by
  have same : ∀ e ∈ c, Json.eq e.1 v = true → K.same e.1 v = true := fun e he h =>
    K.complete _ _ (hV _ _ (hk e he) hv h) h
  cases h1 : F.at c v with
  | none =>
    cases h2 : K.finder.at c v with
    | none => rfl
    | some j =>
      obtain ⟨e, he, heq⟩ := K.finder.sound _ _ _ h2
      have hm := List.mem_of_getElem? he
      exact absurd h1 (F.complete c v e hm (hV _ _ (hk e hm) hv heq) heq)
  | some i =>
    obtain ⟨e, he, heq⟩ := F.sound _ _ _ h1
    have hm := List.mem_of_getElem? he
    cases h2 : K.finder.at c v with
    | none => exact absurd h2 (K.finder.complete c v e hm (hV _ _ (hk e hm) hv heq) heq)
    | some j =>
      obtain ⟨e', he', heq'⟩ := K.finder.sound _ _ _ h2
      have hm' := List.mem_of_getElem? he'
      rw [pairwise_idx hd he he' (K.trans _ _ _ (same e hm heq) (K.symm _ _ (same e' hm' heq')))]

section
variable (hV : Coherent V) {c : Container} (hd : c.Distinct K) (hk : c.KeysIn V) {v : Json} (hv : V v)
include hV hd hk hv

theorem find_any : c.find F v = c.find K v := by unfold find; rw [at_eq (K := K) hV hd hk hv]

theorem update_any (f : SSet Member → SSet Member) : c.update F v f = c.update K v f := by
  unfold update; rw [at_eq (K := K) hV hd hk hv]

theorem upsert_any (f : SSet Member → SSet Member) : c.upsert F v f = c.upsert K v f := by
  unfold upsert; rw [at_eq (K := K) hV hd hk hv]
end

theorem KeysIn.upsert {c : Container} (hk : c.KeysIn V) {v : Json} (hv : V v) (f : SSet Member → SSet Member) :
    (c.upsert K v f).KeysIn V := by
  intro e he
  rcases keys_upsert c v f e he with h | ⟨e', he', h⟩
  · rw [h]; exact hv
  · rw [← h]; exact hk e' he'

theorem KeysIn.update {c : Container} (hk : c.KeysIn V) (v : Json) (f : SSet Member → SSet Member) :
    (c.update K v f).KeysIn V := by
  intro e he
  obtain ⟨e', he', h⟩ := keys_update c v f e he
  rw [← h]; exact hk e' he'

/-- A fold of insertions of coherent keys. -/
theorem foldl_any {α : Type} {f g : Container → α → Container} {l : List α}
    (h : ∀ a ∈ l, ∀ c, c.Distinct K → KeysIn V c → f c a = g c a ∧ (g c a).Distinct K ∧ KeysIn V (g c a)) :
    ∀ c : Container, c.Distinct K → KeysIn V c →
      l.foldl f c = l.foldl g c ∧ (l.foldl g c).Distinct K ∧ KeysIn V (l.foldl g c) := by
  induction l with
  | nil => intro c h1 h2; exact ⟨rfl, h1, h2⟩
  | cons a r ih =>
    intro c h1 h2
    obtain ⟨e, h3, h4⟩ := h a List.mem_cons_self c h1 h2
    rw [List.foldl_cons, List.foldl_cons, e]
    exact ih (fun x hx => h x (List.mem_cons_of_mem _ hx)) _ h3 h4

end Container

namespace Mem
open Container

/-- All values in the state satisfy `V`, and no lookup fits two keys. -/
structure Tidy (K : HashEq) (V : Json → Prop) (m : Mem) : Prop where
  distinct : AllDistinct K m
  keys : ∀ n c, m.propertyValues.get n = some c → c.KeysIn V
  vprops : ∀ p v, m.vertexProperties.get p = some v → V v
  eprops : ∀ p v, m.edgeProperties.get p = some v → V v

/-- The same outcome, in a tidy state. -/
def Same {α : Type} (K : HashEq) (V : Json → Prop) (u u' : Upd Mem α) : Prop := u = u' ∧ Tidy K V u'.1

theorem Same.forEach {α β : Type} {f g : α → Mem → Upd Mem β} {l : List α}
    (h : ∀ a ∈ l, ∀ m, Tidy K V m → Same K V (f a m) (g a m)) :
    ∀ m, Tidy K V m → Same K V (IndraDB.forEach f l m) (IndraDB.forEach g l m) := by
  induction l with
  | nil => intro m hm; exact ⟨rfl, hm⟩
  | cons a r ih =>
    intro m hm
    obtain ⟨h1, h2⟩ := h a List.mem_cons_self m hm
    simp only [IndraDB.forEach]
    rw [h1]
    generalize g a m = u at h2
    obtain ⟨m', res⟩ := u
    cases res with
    | ok _ => exact ih (fun x hx => h x (List.mem_cons_of_mem _ hx)) m' h2
    | error _ => exact ⟨rfl, h2⟩

theorem Same.map {α β : Type} {u u' : Upd Mem α} (h : Same K V u u') (f : α → β) :
    Same K V (Upd.map f u) (Upd.map f u') := ⟨by rw [h.1], h.2⟩

theorem Tidy.insertIndex {m : Mem} (h : Tidy K V m) (n : Identifier) {c : Container} (hd : c.Distinct K) (hk : c.KeysIn V) :
    Tidy K V { m with propertyValues := m.propertyValues.insert n c } where
  distinct := by
    intro n' c' hc
    simp only [SMap.get_insert] at hc
    split at hc
    · cases hc; exact hd
    · exact h.distinct n' c' hc
  keys := by
    intro n' c' hc
    simp only [SMap.get_insert] at hc
    split at hc
    · cases hc; exact hk
    · exact h.keys n' c' hc
  vprops := h.vprops
  eprops := h.eprops

theorem Tidy.eraseV {m : Mem} (h : Tidy K V m) (p : Uuid × Identifier) :
    Tidy K V { m with vertexProperties := m.vertexProperties.erase p } where
  distinct := h.distinct
  keys := h.keys
  vprops := by
    intro p' v hv
    simp only [SMap.get_erase] at hv
    split at hv
    · cases hv
    · exact h.vprops p' v hv
  eprops := h.eprops

theorem Tidy.eraseE {m : Mem} (h : Tidy K V m) (p : Edge × Identifier) :
    Tidy K V { m with edgeProperties := m.edgeProperties.erase p } where
  distinct := h.distinct
  keys := h.keys
  vprops := h.vprops
  eprops := by
    intro p' v hv
    simp only [SMap.get_erase] at hv
    split at hv
    · cases hv
    · exact h.eprops p' v hv

theorem Tidy.struct {m : Mem} (h : Tidy K V m) (vs : SMap Uuid Identifier) (es rs : SSet Edge) :
    Tidy K V { m with vertices := vs, edges := es, reversedEdges := rs } := ⟨h.distinct, h.keys, h.vprops, h.eprops⟩

theorem foldl_insert_V {κ α : Type} [Order κ] [DecidableEq κ] (key : α → κ) {x : Json} (hx : V x) (l : List α) :
    ∀ p : SMap κ Json, (∀ k v, p.get k = some v → V v) →
      ∀ k v, (l.foldl (fun p a => p.insert (key a) x) p).get k = some v → V v := by
  induction l with
  | nil => intro p h; exact h
  | cons a r ih =>
    intro p h
    refine ih _ ?_
    intro k v hv
    rw [SMap.get_insert] at hv
    split at hv
    · cases hv; exact hx
    · exact h k v hv

variable (hV : Coherent V)
include hV

theorem unindex_any {m : Mem} (h : Tidy K V m) (n : Identifier) {v : Json} (hv : V v) (x : Member) :
    Same K V (unindex F b n v x m) (unindex K b n v x m) := by
  unfold unindex
  cases hc : m.propertyValues.get n with
  | none => exact ⟨rfl, h⟩
  | some c =>
    cases b with
    | release => exact ⟨rfl, h⟩
    | debug =>
      simp only
      rw [find_any (K := K) hV (h.distinct n c hc) (h.keys n c hc) hv]
      cases hf : c.find K v with
      | none => exact ⟨rfl, h⟩
      | some sub =>
        simp only
        rw [update_any (K := K) hV (h.distinct n c hc) (h.keys n c hc) hv]
        refine ⟨rfl, ?_⟩
        have := h.insertIndex n (c := c.update K v (fun s => s.erase x)) (distinct_update (h.distinct n c hc) v _)
          ((h.keys n c hc).update v _)
        split <;> exact this

theorem deleteVertexProperty_any {m : Mem} (h : Tidy K V m) (p : Uuid × Identifier) :
    Same K V (deleteVertexProperty F b p m) (deleteVertexProperty K b p m) := by
  unfold deleteVertexProperty
  cases hp : m.vertexProperties.get p with
  | none => exact ⟨rfl, h⟩
  | some v => exact unindex_any hV (h.eraseV p) p.2 (h.vprops p v hp) _

theorem deleteEdgeProperty_any {m : Mem} (h : Tidy K V m) (p : Edge × Identifier) :
    Same K V (deleteEdgeProperty F b p m) (deleteEdgeProperty K b p m) := by
  unfold deleteEdgeProperty
  cases hp : m.edgeProperties.get p with
  | none => exact ⟨rfl, h⟩
  | some v => exact unindex_any hV (h.eraseE p) p.2 (h.eprops p v hp) _

theorem deleteVertexProperties_any {m : Mem} (h : Tidy K V m) (l : List (Uuid × Identifier)) :
    Same K V (deleteVertexProperties F b l m) (deleteVertexProperties K b l m) :=
  Same.forEach (fun p _ _ h => deleteVertexProperty_any hV h p) m h

theorem deleteEdgeProperties_any {m : Mem} (h : Tidy K V m) (l : List (Edge × Identifier)) :
    Same K V (deleteEdgeProperties F b l m) (deleteEdgeProperties K b l m) :=
  Same.forEach (fun p _ _ h => deleteEdgeProperty_any hV h p) m h

theorem deleteEdge_any {m : Mem} (h : Tidy K V m) (e : Edge) : Same K V (deleteEdge F b e m) (deleteEdge K b e m) := by
  unfold deleteEdge
  exact deleteEdgeProperties_any hV (h.struct m.vertices _ _) _

theorem deleteEdges_any {m : Mem} (h : Tidy K V m) (l : List Edge) : Same K V (deleteEdges F b l m) (deleteEdges K b l m) :=
  Same.forEach (fun p _ _ h => deleteEdge_any hV h p) m h

theorem deleteVertex_any {m : Mem} (h : Tidy K V m) (v : Vertex) : Same K V (deleteVertex F b v m) (deleteVertex K b v m) := by
  unfold deleteVertex
  simp only
  have := deleteVertexProperties_any (F := F) (b := b) hV (h.struct (m.vertices.erase v.id) m.edges m.reversedEdges)
    (((m.vertexProperties.rangeFrom (v.id, Identifier.empty)).map (·.1)).takeWhile (fun k => v.id = k.1))
  obtain ⟨h1, h2⟩ := this
  have h1' : deleteVertexProperties F b (((m.vertexProperties.rangeFrom (v.id, Identifier.empty)).map (·.1)).takeWhile
      (fun k => v.id = k.1)) { m with vertices := m.vertices.erase v.id } = _ := h1
  rw [h1']
  generalize deleteVertexProperties K b _ _ = u at h2
  obtain ⟨m', res⟩ := u
  cases res with
  | error _ => exact ⟨rfl, h2⟩
  | ok _ => exact deleteEdges_any hV h2 _

theorem deleteVertices_any {m : Mem} (h : Tidy K V m) (l : List Vertex) :
    Same K V (deleteVertices F b l m) (deleteVertices K b l m) :=
  Same.forEach (fun p _ _ h => deleteVertex_any hV h p) m h

omit hV in
theorem createVertex_tidy {m : Mem} (h : Tidy K V m) (v : Vertex) : Tidy K V (createVertex v m).1 := by
  unfold createVertex
  split
  · exact h
  · exact h.struct _ m.edges m.reversedEdges

omit hV in
theorem createEdge_tidy {m : Mem} (h : Tidy K V m) (e : Edge) : Tidy K V (createEdge e m).1 := by
  unfold createEdge
  split
  · exact h
  · exact h.struct m.vertices _ _

theorem indexMembers_any {m : Mem} (h : Tidy K V m) (n : Identifier) {v : Json} (hv : V v) (l : List Member) :
    indexMembers F n v l m = indexMembers K n v l m ∧ Tidy K V (indexMembers K n v l m) := by
  unfold indexMembers
  cases hc : m.propertyValues.get n with
  | none => exact ⟨rfl, h⟩
  | some c =>
    simp only
    rw [upsert_any (K := K) hV (h.distinct n c hc) (h.keys n c hc) hv]
    exact ⟨rfl, h.insertIndex n (distinct_upsert (h.distinct n c hc) v _) ((h.keys n c hc).upsert hv _)⟩

theorem setVertexProperties_any {m : Mem} (h : Tidy K V m) (l : List Uuid) (n : Identifier) {v : Json} (hv : V v) :
    Same K V (setVertexProperties F b l n v m) (setVertexProperties K b l n v m) := by
  unfold setVertexProperties
  obtain ⟨h1, h2⟩ := deleteVertexProperties_any (F := F) (b := b) hV h (l.map (fun id => (id, n)))
  rw [h1]
  generalize deleteVertexProperties K b _ m = u at h2
  obtain ⟨m', res⟩ := u
  cases res with
  | error _ => exact ⟨rfl, h2⟩
  | ok _ =>
    have h3 : Tidy K V { m' with vertexProperties := l.foldl (fun p id => p.insert (id, n) v) m'.vertexProperties } :=
      ⟨h2.distinct, h2.keys, foldl_insert_V (fun id => (id, n)) hv l _ h2.vprops, h2.eprops⟩
    obtain ⟨h4, h5⟩ := indexMembers_any (F := F) hV h3 n hv (l.map .inl)
    exact ⟨by simp only; rw [h4], h5⟩

theorem setEdgeProperties_any {m : Mem} (h : Tidy K V m) (l : List Edge) (n : Identifier) {v : Json} (hv : V v) :
    Same K V (setEdgeProperties F b l n v m) (setEdgeProperties K b l n v m) := by
  unfold setEdgeProperties
  obtain ⟨h1, h2⟩ := deleteEdgeProperties_any (F := F) (b := b) hV h (l.map (fun id => (id, n)))
  rw [h1]
  generalize deleteEdgeProperties K b _ m = u at h2
  obtain ⟨m', res⟩ := u
  cases res with
  | error _ => exact ⟨rfl, h2⟩
  | ok _ =>
    have h3 : Tidy K V { m' with edgeProperties := l.foldl (fun p id => p.insert (id, n) v) m'.edgeProperties } :=
      ⟨h2.distinct, h2.keys, h2.vprops, foldl_insert_V (fun id => (id, n)) hv l _ h2.eprops⟩
    obtain ⟨h4, h5⟩ := indexMembers_any (F := F) hV h3 n hv (l.map .inr)
    exact ⟨by simp only; rw [h4], h5⟩

theorem bulkInsert_any {m : Mem} (h : Tidy K V m) (items : List BulkInsertItem) (hi : ∀ i ∈ items, i.Values V) :
    Same K V (bulkInsert F b items m) (bulkInsert K b items m) := by
  refine Same.forEach ?_ m h
  intro i him m h
  cases i with
  | vertex v =>
    refine ⟨rfl, ?_⟩
    have := createVertex_tidy h v
    simp only [defaultBulkItem]
    generalize createVertex v m = u at this
    obtain ⟨m', res⟩ := u
    cases res <;> exact this
  | edge e =>
    refine ⟨rfl, ?_⟩
    have := createEdge_tidy h e
    simp only [defaultBulkItem]
    generalize createEdge e m = u at this
    obtain ⟨m', res⟩ := u
    cases res <;> exact this
  | vertexProperty id n v => exact setVertexProperties_any hV h _ _ (hi _ him)
  | edgeProperty e n v => exact setEdgeProperties_any hV h _ _ (hi _ him)

theorem indexProperty_any {O : HashOrder} {m : Mem} (h : Tidy K V m) (n : Identifier) :
    Same K V (indexProperty F O n m) (indexProperty K O n m) := by
  have hold : Container.Distinct K ((m.propertyValues.get n).getD []) ∧ KeysIn V ((m.propertyValues.get n).getD []) := by
    cases hc : m.propertyValues.get n with
    | none => exact ⟨List.Pairwise.nil, fun _ he => by cases he⟩
    | some c => exact ⟨h.distinct n c hc, h.keys n c hc⟩
  have h1 := foldl_any (K := K) (V := V) (l := m.vertices.toList)
    (f := fun c e => match m.vertexProperties.get (e.1, n) with
      | some value => c.upsert F value (fun s => s.add (.inl e.1))
      | none => c)
    (g := fun c e => match m.vertexProperties.get (e.1, n) with
      | some value => c.upsert K value (fun s => s.add (.inl e.1))
      | none => c)
    (by
      intro e _ c hd hk
      cases hp : m.vertexProperties.get (e.1, n) with
      | none => exact ⟨rfl, hd, hk⟩
      | some v =>
        have hv := h.vprops _ v hp
        exact ⟨upsert_any hV hd hk hv _, distinct_upsert hd v _, hk.upsert hv _⟩)
    [] List.Pairwise.nil (fun _ he => by cases he)
  obtain ⟨e1, d1, k1⟩ := h1
  have h2 := foldl_any (K := K) (V := V) (l := m.edges.elems)
    (f := fun c e => match m.edgeProperties.get (e, n) with
      | some value => c.upsert F value (fun s => s.add (.inr e))
      | none => c)
    (g := fun c e => match m.edgeProperties.get (e, n) with
      | some value => c.upsert K value (fun s => s.add (.inr e))
      | none => c)
    (by
      intro e _ c hd hk
      cases hp : m.edgeProperties.get (e, n) with
      | none => exact ⟨rfl, hd, hk⟩
      | some v =>
        have hv := h.eprops _ v hp
        exact ⟨upsert_any hV hd hk hv _, distinct_upsert hd v _, hk.upsert hv _⟩)
    (vertexIndexEntries K n m []) d1 k1
  obtain ⟨e2, d2, k2⟩ := h2
  have h3 := foldl_any (K := K) (V := V) (l := O.entries (edgeIndexEntries K n m (vertexIndexEntries K n m [])))
    (f := fun c e => c.upsert F e.1 (fun s => e.2.elems.foldl (fun s mem => s.add mem) s))
    (g := fun c e => c.upsert K e.1 (fun s => e.2.elems.foldl (fun s mem => s.add mem) s))
    (by
      intro e he c hd hk
      have hv := k2 e ((O.entries_perm _).mem_iff.1 he)
      exact ⟨upsert_any hV hd hk hv _, distinct_upsert hd _ _, hk.upsert hv _⟩)
    _ hold.1 hold.2
  obtain ⟨e3, d3, k3⟩ := h3
  have hF : indexProperty F O n m =
      (let c := mergeContainer F (O.entries (edgeIndexEntries F n m (vertexIndexEntries F n m []))) ((m.propertyValues.get n).getD [])
       ({ m with propertyValues := m.propertyValues.insert n c }, Except.ok ())) := rfl
  have hK : indexProperty K O n m =
      (let c := mergeContainer K (O.entries (edgeIndexEntries K n m (vertexIndexEntries K n m []))) ((m.propertyValues.get n).getD [])
       ({ m with propertyValues := m.propertyValues.insert n c }, Except.ok ())) := rfl
  have e1' : vertexIndexEntries F n m [] = vertexIndexEntries K n m [] := e1
  have e2' : edgeIndexEntries F n m (vertexIndexEntries K n m []) = edgeIndexEntries K n m (vertexIndexEntries K n m []) := e2
  have e3' : mergeContainer F (O.entries (edgeIndexEntries K n m (vertexIndexEntries K n m []))) ((m.propertyValues.get n).getD []) =
    mergeContainer K (O.entries (edgeIndexEntries K n m (vertexIndexEntries K n m []))) ((m.propertyValues.get n).getD []) := e3
  refine ⟨?_, ?_⟩
  · rw [hF, hK, e1', e2', e3']
  · rw [hK]; exact h.insertIndex n d3 k3


theorem vertexIdsWithPropertyValue_any (O : HashOrder) {m : Mem} (h : Tidy K V m) (n : Identifier) {v : Json} (hv : V v) :
    m.vertexIdsWithPropertyValue F O n v = m.vertexIdsWithPropertyValue K O n v := by
  unfold vertexIdsWithPropertyValue
  cases hc : m.propertyValues.get n with
  | none => rfl
  | some c => simp only; rw [find_any (K := K) hV (h.distinct n c hc) (h.keys n c hc) hv]

theorem edgesWithPropertyValue_any (O : HashOrder) {m : Mem} (h : Tidy K V m) (n : Identifier) {v : Json} (hv : V v) :
    m.edgesWithPropertyValue F O n v = m.edgesWithPropertyValue K O n v := by
  unfold edgesWithPropertyValue
  cases hc : m.propertyValues.get n with
  | none => rfl
  | some c => simp only; rw [find_any (K := K) hV (h.distinct n c hc) (h.keys n c hc) hv]

omit hV in
theorem stagePipe_reads (O : HashOrder) (m : Mem) : stagePipe (reads F O m) = stagePipe (reads K O m) := by
  have h : ∀ d l t vs es, pipeVertices (reads F O m) d l t vs es = pipeVertices (reads K O m) d l t vs es := by
    intro d l t vs
    induction vs with
    | nil => intro es; rfl
    | cons v r ih => intro es; simp only [pipeVertices, ih]; rfl
  funext d l t o
  cases o <;> simp only [stagePipe, h] <;> rfl

omit hV in
theorem stageProperty_reads (O : HashOrder) (m : Mem) : stageProperty (reads F O m) = stageProperty (reads K O m) := by
  have h : ∀ n vs, pipeVertexProps (reads F O m) n vs = pipeVertexProps (reads K O m) n vs := by
    intro n vs
    induction vs with
    | nil => rfl
    | cons v r ih => simp only [pipeVertexProps, ih]; rfl
  have h' : ∀ n vs, pipeEdgeProps (reads F O m) n vs = pipeEdgeProps (reads K O m) n vs := by
    intro n vs
    induction vs with
    | nil => rfl
    | cons v r ih => simp only [pipeEdgeProps, ih]; rfl
  funext n o
  cases o <;> simp only [stageProperty, h, h']

/-- A query for coherent values gives the same whatever is found. -/
theorem query_any {I : Identifier → Prop} (O : HashOrder) {m : Mem} (h : Tidy K V m) :
    ∀ (q : Query) (out : List Output), q.All I V → query (reads F O m) q out = query (reads K O m) q out := by
  have hv := fun n v hv => vertexIdsWithPropertyValue_any (F := F) (K := K) hV O h n (v := v) hv
  have he := fun n v hv => edgesWithPropertyValue_any (F := F) (K := K) hV O h n (v := v) hv
  intro q
  induction q with
  | pipe q d l t ih => intro out hq; simp only [query, ih out hq.1, stagePipe_reads (F := F) (K := K)]
  | pipeProperty q n ih => intro out hq; simp only [query, ih out hq.1, stageProperty_reads (F := F) (K := K)]
  | vertexWithPropertyValue n v =>
    intro out hq
    have : (reads F O m).vertexIdsWithPropertyValue n v = (reads K O m).vertexIdsWithPropertyValue n v := hv n v hq.2
    simp only [query, this]; rfl
  | edgeWithPropertyValue n v =>
    intro out hq
    have : (reads F O m).edgesWithPropertyValue n v = (reads K O m).edgesWithPropertyValue n v := he n v hq.2
    simp only [query, this]
  | pipeWithPropertyPresence q n x ih => intro out hq; simp only [query, ih out hq.1]; rfl
  | pipeWithPropertyValue q n v x ih =>
    intro out hq
    have h1 : (reads F O m).vertexIdsWithPropertyValue n v = (reads K O m).vertexIdsWithPropertyValue n v := hv n v hq.2.2
    have h2 : (reads F O m).edgesWithPropertyValue n v = (reads K O m).edgesWithPropertyValue n v := he n v hq.2.2
    simp only [query, ih out hq.1, h1, h2]
  | incl q ih => intro out hq; simp only [query, ih out hq]
  | count q ih =>
    intro out hq
    have := ih out hq
    cases q <;> first | rfl | (simp only [query] at this ⊢; rw [this])
  | _ => intro out _; rfl

theorem lastOutput_any {I : Identifier → Prop} (O : HashOrder) {m : Mem} (h : Tidy K V m) {q : Query} (hq : q.All I V) :
    lastOutput (reads F O m) q = lastOutput (reads K O m) q := by
  unfold lastOutput; rw [query_any hV O h q [] hq]

/-- A call with coherent values does the same whatever its lookups find. -/
theorem dbStep_coherent {I : Identifier → Prop} (O : HashOrder) {m : Mem} (h : Tidy K V m) {op : Op} (ho : op.All I V) :
    Same K V (dbStep (txn F O b) op m) (dbStep (txn K O b) op m) := by
  cases op with
  | sync => exact ⟨rfl, h⟩
  | createVertex v => exact ⟨rfl, createVertex_tidy h v⟩
  | createVertexFromType id t =>
    refine ⟨rfl, ?_⟩
    have := createVertex_tidy h ⟨id, t⟩
    simp only [dbStep, dbCreateVertexFromType, txn]
    generalize createVertex ⟨id, t⟩ m = u at this
    obtain ⟨m', res⟩ := u
    cases res with
    | error _ => exact this
    | ok x => cases x <;> exact this
  | createEdge e => exact ⟨rfl, createEdge_tidy h e⟩
  | get q => exact ⟨by simp only [dbStep, txn, getQuery, query_any (F := F) hV O h q [] ho], h⟩
  | delete q =>
    simp only [dbStep]
    refine Same.map ?_ _
    simp only [dbDelete, txn, lastOutput_any (F := F) hV O h ho]
    cases lastOutput (reads K O m) q with
    | error f => exact ⟨rfl, h⟩
    | ok v =>
      cases v with
      | vertices vs => exact deleteVertices_any hV h _
      | edges es => exact deleteEdges_any hV h _
      | vertexProperties l => exact deleteVertexProperties_any hV h _
      | edgeProperties l => exact deleteEdgeProperties_any hV h _
      | count n => exact ⟨rfl, h⟩
  | setProperties q n x =>
    simp only [dbStep]
    refine Same.map ?_ _
    simp only [dbSetProperties, txn, lastOutput_any (F := F) hV O h ho.1]
    cases lastOutput (reads K O m) q with
    | error f => exact ⟨rfl, h⟩
    | ok v =>
      cases v with
      | vertices vs => exact setVertexProperties_any hV h _ _ ho.2.2
      | edges es => exact setEdgeProperties_any hV h _ _ ho.2.2
      | _ => exact ⟨rfl, h⟩
  | bulkInsert items =>
    simp only [dbStep]
    refine Same.map (bulkInsert_any hV h items ?_) _
    intro i hi
    have := ho i hi
    cases i with
    | vertex v => trivial
    | edge e => trivial
    | vertexProperty id n v => exact this.2
    | edgeProperty e n v => exact this.2.2
  | indexProperty n => exact Same.map (indexProperty_any hV h n) _

omit hV in
theorem tidy_empty : Tidy K V Mem.empty where
  distinct := by intro n c hc; simp [Mem.empty] at hc
  keys := by intro n c hc; simp [Mem.empty] at hc
  vprops := by intro n c hc; simp [Mem.empty] at hc
  eprops := by intro n c hc; simp [Mem.empty] at hc

/-- One call on a database. -/
theorem step_coherent {I : Identifier → Prop} (O : HashOrder) {d : MemDb} (h : Tidy K V d.mem) {op : Op} (ho : op.All I V) :
    MemDb.step F b O op d = MemDb.step K b O op d ∧ Tidy K V (MemDb.step K b O op d).1.mem := by
  have := dbStep_coherent (F := F) (b := b) hV O h ho
  unfold MemDb.step
  split
  · exact ⟨rfl, h⟩
  · rw [this.1]
    refine ⟨rfl, ?_⟩
    have h2 := this.2
    generalize dbStep (txn K O b) op d.mem = u at h2
    obtain ⟨m', r⟩ := u
    cases r with
    | ok a => exact h2
    | error f => cases f <;> exact h2

end Mem

open Mem

/-- The history with the ways of finding keys dropped. -/
def plain {α β γ : Type} (hist : List ((α × β) × γ)) : List (β × γ) := hist.map (fun p => (p.1.2, p.2))

/-- A history with coherent values leads to the same state whatever the lookups find. -/
theorem memAny_run_coherent (K : HashEq) {I : Identifier → Prop} (hV : Coherent V)
    (hist : List ((Finder × HashOrder) × Op)) (hh : ∀ p ∈ hist, p.2.All I V) :
    ∀ d : MemDb, Tidy K V d.mem → (memStoreAny b).run hist d = (memStore K b).run (plain hist) d ∧
      Tidy K V ((memStore K b).run (plain hist) d).mem := by
  induction hist with
  | nil => intro d h; exact ⟨rfl, h⟩
  | cons p r ih =>
    obtain ⟨⟨F, O⟩, op⟩ := p
    intro d h
    have h1 := step_coherent (F := F) (K := K) (b := b) hV O h (hh _ List.mem_cons_self)
    have h2 := ih (fun p hp => hh p (List.mem_cons_of_mem _ hp)) (MemDb.step K b O op d).1 h1.2
    refine ⟨?_, h2.2⟩
    show (memStoreAny b).run r (MemDb.step F b O op d).1 = _
    rw [h1.1]
    exact h2.1

/-- In a tidy state, queries for coherent values are answered the same whatever the lookups find. -/
theorem memAny_value_coherent {I : Identifier → Prop} (hV : Coherent V) {d : MemDb} (h : Tidy K V d.mem) (F : Finder)
    (O : HashOrder) {q : Query} (hq : q.All I V) :
    (memStoreAny b).value (F, O) q d = (memStore K b).value O q d := by
  have : (memStoreAny b).ask (F, O) q d = (memStore K b).ask O q d := by
    have h1 := (step_coherent (F := F) (K := K) (b := b) hV O h (op := .get q) (I := I) hq).1
    have h2 : (memStoreAny b).step (F, O) (.get q) d = (memStore K b).step O (.get q) d := h1
    unfold Store.ask
    exact congrArg (fun u => match Prod.snd u with
      | .ok (.outputs l) => (.ok l : Res (List Output))
      | .ok _ => .error .panic
      | .error f => .error f) h2
  unfold Store.value
  rw [this]

/-- Being checked is a matter of the states only. -/
theorem memAny_checked_coherent (K : HashEq) {I : Identifier → Prop} (hV : Coherent V) (b' : Build)
    (hist : List ((Finder × HashOrder) × Op)) (hh : ∀ p ∈ hist, p.2.All I V) :
    ∀ d : MemDb, Tidy K V d.mem →
      ((memStoreAny b).CheckedHist b' hist d ↔ (memStore K b).CheckedHist b' (plain hist) d) := by
  induction hist with
  | nil => intro d h; exact Iff.rfl
  | cons p r ih =>
    obtain ⟨⟨F, O⟩, op⟩ := p
    intro d h
    have h1 := step_coherent (F := F) (K := K) (b := b) hV O h (hh _ List.mem_cons_self)
    refine and_congr Iff.rfl ?_
    have h2 := ih (fun p hp => hh p (List.mem_cons_of_mem _ hp)) (MemDb.step K b O op d).1 h1.2
    show (memStoreAny b).CheckedHist b' r (MemDb.step F b O op d).1 ↔ _
    rw [h1.1]
    exact h2

theorem memAny_replies_coherent (K : HashEq) {I : Identifier → Prop} (hV : Coherent V)
    (hist : List ((Finder × HashOrder) × Op)) (hh : ∀ p ∈ hist, p.2.All I V) :
    ∀ d : MemDb, Tidy K V d.mem → (memStoreAny b).replies hist d = (memStore K b).replies (plain hist) d := by
  induction hist with
  | nil => intro d h; rfl
  | cons p r ih =>
    obtain ⟨⟨F, O⟩, op⟩ := p
    intro d h
    have h1 := step_coherent (F := F) (K := K) (b := b) hV O h (hh _ List.mem_cons_self)
    have h2 := ih (fun p hp => hh p (List.mem_cons_of_mem _ hp)) (MemDb.step K b O op d).1 h1.2
    show (MemDb.step F b O op d).2 :: (memStoreAny b).replies r (MemDb.step F b O op d).1 = _
    rw [h1.1]
    exact congrArg _ h2

theorem coherent_same (K : HashEq) (hV : Coherent V) {a c : Json} (ha : V a) (hc : V c) : K.same a c = Json.eq a c := by
  cases h : Json.eq a c with
  | true => exact K.complete _ _ (hV _ _ ha hc h) h
  | false =>
    cases h2 : K.same a c with
    | false => rfl
    | true => rw [K.sound _ _ h2] at h; exact absurd h (by simp)

end IndraDB
