import Verif.Spec.Msgpack
import Verif.Proofs.ClosedMemory
import Verif.Proofs.MemoryAny
/-
The memory datastore, whatever its lookups find, holds only identifiers and values that were put in; so does the image `sync` writes.
-/
namespace IndraDB
variable {I : Identifier → Prop} {V : Json → Prop} {F : Finder} {b : Build}

/-- The set lists only edges of good types. -/
def SetHeld (I : Identifier → Prop) (s : SSet Member) : Prop := ∀ x, SMap.contains s x = true → Member.Holds I x

/-- Good keys and good members. -/
def Container.Held (I : Identifier → Prop) (V : Json → Prop) (c : Container) : Prop := ∀ p ∈ c, V p.1 ∧ SetHeld I p.2

theorem SetHeld.empty : SetHeld I SMap.empty := fun x h => by simp at h

theorem SetHeld.add {s : SSet Member} (h : SetHeld I s) {x : Member} (hx : Member.Holds I x) : SetHeld I (s.add x) := by
  intro e he
  simp only [SSet.contains_add, Bool.or_eq_true, decide_eq_true_eq] at he
  rcases he with rfl | he
  · exact hx
  · exact h e he

theorem SetHeld.addAll (l : List Member) : ∀ {s : SSet Member}, SetHeld I s → (∀ x ∈ l, Member.Holds I x) →
    SetHeld I (l.foldl (fun s x => s.add x) s) := by
  induction l with
  | nil => intro s h _; exact h
  | cons a r ih =>
    intro s h hl
    exact ih (h.add (hl a List.mem_cons_self)) (fun x hx => hl x (List.mem_cons_of_mem _ hx))

theorem SetHeld.erase {s : SSet Member} (h : SetHeld I s) (x : Member) : SetHeld I (SMap.erase s x) := by
  intro e he
  simp only [SSet.contains_erase, Bool.and_eq_true] at he
  exact h e he.2

theorem Container.Held.modify {c : Container} (h : c.Held I V) (i : Nat) {f : SSet Member → SSet Member}
    (hf : ∀ s, SetHeld I s → SetHeld I (f s)) : Container.Held I V (List.modify c i (fun e => (e.1, f e.2))) := by
  intro p hp
  obtain ⟨j, hj⟩ := List.mem_iff_getElem?.1 hp
  rw [List.getElem?_modify] at hj
  cases hc : c[j]? with
  | none => rw [hc] at hj; cases hj
  | some e =>
    rw [hc] at hj
    have he := h e (List.mem_of_getElem? hc)
    have hj := Option.some.inj hj
    simp only at hj
    split at hj
    · subst hj; exact ⟨he.1, hf _ he.2⟩
    · subst hj; exact he

theorem Container.Held.upsert {c : Container} (h : c.Held I V) {v : Json} (hv : V v) {f : SSet Member → SSet Member}
    (hf : ∀ s, SetHeld I s → SetHeld I (f s)) : (c.upsert F v f).Held I V := by
  unfold Container.upsert
  split
  · exact h.modify _ hf
  · intro p hp
    rcases List.mem_append.1 hp with hp | hp
    · exact h p hp
    · rw [List.mem_singleton] at hp
      subst hp
      exact ⟨hv, hf _ SetHeld.empty⟩

theorem Container.Held.update {c : Container} (h : c.Held I V) (v : Json) {f : SSet Member → SSet Member}
    (hf : ∀ s, SetHeld I s → SetHeld I (f s)) : (c.update F v f).Held I V := by
  unfold Container.update
  split
  · exact h.modify _ hf
  · exact h

theorem Container.Held.foldl {α : Type} {f : Container → α → Container} {l : List α}
    (hf : ∀ a ∈ l, ∀ c, Container.Held I V c → (f c a).Held I V) : ∀ c, Container.Held I V c → (l.foldl f c).Held I V := by
  induction l with
  | nil => intro c h; exact h
  | cons a r ih =>
    intro c h
    exact ih (fun x hx => hf x (List.mem_cons_of_mem _ hx)) _ (hf a List.mem_cons_self c h)

namespace Mem

/-- The index has only good names, values and edges. -/
def IdxHeld (I : Identifier → Prop) (V : Json → Prop) (m : Mem) : Prop :=
  ∀ n c, m.propertyValues.get n = some c → I n ∧ c.Held I V

theorem IdxHeld.set {m : Mem} (h : IdxHeld I V m) {n : Identifier} (hn : I n) {c : Container} (hc : c.Held I V) :
    IdxHeld I V { m with propertyValues := m.propertyValues.insert n c } := by
  intro n' c' h'
  simp only [SMap.get_insert] at h'
  split at h'
  · next e => cases h'; exact ⟨e ▸ hn, hc⟩
  · exact h n' c' h'

theorem IdxHeld.same {m m' : Mem} (h : IdxHeld I V m) (e : m'.propertyValues = m.propertyValues) : IdxHeld I V m' := by
  intro n c hc; rw [e] at hc; exact h n c hc

theorem IdxHeld.forEach {α β : Type} {f : α → Mem → Upd Mem β} {l : List α}
    (hf : ∀ a ∈ l, ∀ m, IdxHeld I V m → IdxHeld I V (f a m).1) : ∀ m, IdxHeld I V m → IdxHeld I V (forEach f l m).1 := by
  induction l with
  | nil => intro m h; exact h
  | cons a r ih =>
    intro m h
    have h1 := hf a List.mem_cons_self m h
    simp only [IndraDB.forEach]
    generalize f a m = u at h1
    obtain ⟨m', res⟩ := u
    cases res with
    | ok _ => exact ih (fun x hx => hf x (List.mem_cons_of_mem _ hx)) m' h1
    | error _ => exact h1

theorem IdxHeld.unindex {m : Mem} (h : IdxHeld I V m) (n : Identifier) (v : Json) (x : Member) :
    IdxHeld I V (unindex F b n v x m).1 := by
  unfold Mem.unindex
  cases hc : m.propertyValues.get n with
  | none => exact h
  | some c =>
    cases b with
    | release => exact h
    | debug =>
      simp only
      cases hf : c.find F v with
      | none => exact h
      | some sub =>
        simp only
        have := h.set (h n c hc).1 (Container.Held.update (F := F) (h n c hc).2 v (f := fun s => SMap.erase s x) (fun s hs => hs.erase x))
        split <;> exact this

theorem IdxHeld.deleteVertexProperties {m : Mem} (h : IdxHeld I V m) (l : List (Uuid × Identifier)) :
    IdxHeld I V (deleteVertexProperties F b l m).1 := by
  refine IdxHeld.forEach ?_ m h
  intro p _ m h
  unfold deleteVertexProperty
  cases m.vertexProperties.get p with
  | none => exact h
  | some v => refine IdxHeld.unindex ?_ _ _ _; exact h.same rfl

theorem IdxHeld.deleteEdgeProperties {m : Mem} (h : IdxHeld I V m) (l : List (Edge × Identifier)) :
    IdxHeld I V (deleteEdgeProperties F b l m).1 := by
  refine IdxHeld.forEach ?_ m h
  intro p _ m h
  unfold deleteEdgeProperty
  cases m.edgeProperties.get p with
  | none => exact h
  | some v => refine IdxHeld.unindex ?_ _ _ _; exact h.same rfl

theorem IdxHeld.deleteEdges {m : Mem} (h : IdxHeld I V m) (l : List Edge) : IdxHeld I V (deleteEdges F b l m).1 := by
  refine IdxHeld.forEach ?_ m h
  intro p _ m h
  unfold deleteEdge
  refine IdxHeld.deleteEdgeProperties ?_ _
  exact h.same rfl

theorem IdxHeld.deleteVertices {m : Mem} (h : IdxHeld I V m) (l : List Vertex) : IdxHeld I V (deleteVertices F b l m).1 := by
  refine IdxHeld.forEach ?_ m h
  intro v _ m h
  unfold deleteVertex
  simp only
  generalize hu : Mem.deleteVertexProperties F b _ { m with vertices := _ } = u
  have h1 : IdxHeld I V u.1 := by rw [← hu]; refine IdxHeld.deleteVertexProperties ?_ _; exact h.same rfl
  obtain ⟨m', res⟩ := u
  cases res with
  | ok _ => exact IdxHeld.deleteEdges h1 _
  | error _ => exact h1

theorem IdxHeld.indexMembers {m : Mem} (h : IdxHeld I V m) (n : Identifier) {v : Json} (hv : V v) (l : List Member)
    (hl : ∀ x ∈ l, Member.Holds I x) : IdxHeld I V (indexMembers F n v l m) := by
  unfold Mem.indexMembers
  cases hc : m.propertyValues.get n with
  | none => exact h
  | some c => exact h.set (h n c hc).1 ((h n c hc).2.upsert hv (fun s hs => SetHeld.addAll l hs hl))

theorem IdxHeld.setVertexProperties {m : Mem} (h : IdxHeld I V m) (l : List Uuid) (n : Identifier) {v : Json} (hv : V v) :
    IdxHeld I V (setVertexProperties F b l n v m).1 := by
  unfold Mem.setVertexProperties
  have h1 := IdxHeld.deleteVertexProperties (F := F) (b := b) h (l.map (fun id => (id, n)))
  generalize Mem.deleteVertexProperties F b (l.map (fun id => (id, n))) m = u at h1
  obtain ⟨m', res⟩ := u
  cases res with
  | error _ => exact h1
  | ok _ =>
    refine IdxHeld.indexMembers ?_ _ hv _ ?_
    · exact h1.same rfl
    intro x hx
    obtain ⟨_, _, rfl⟩ := List.mem_map.1 hx
    trivial

theorem IdxHeld.setEdgeProperties {m : Mem} (h : IdxHeld I V m) (l : List Edge) (n : Identifier) {v : Json} (hv : V v)
    (hl : ∀ e ∈ l, I e.t) : IdxHeld I V (setEdgeProperties F b l n v m).1 := by
  unfold Mem.setEdgeProperties
  have h1 := IdxHeld.deleteEdgeProperties (F := F) (b := b) h (l.map (fun id => (id, n)))
  generalize Mem.deleteEdgeProperties F b (l.map (fun id => (id, n))) m = u at h1
  obtain ⟨m', res⟩ := u
  cases res with
  | error _ => exact h1
  | ok _ =>
    refine IdxHeld.indexMembers ?_ _ hv _ ?_
    · exact h1.same rfl
    intro x hx
    obtain ⟨e, he, rfl⟩ := List.mem_map.1 hx
    exact hl e he

theorem IdxHeld.createVertex {m : Mem} (h : IdxHeld I V m) (v : Vertex) : IdxHeld I V (createVertex v m).1 := by
  unfold Mem.createVertex
  split
  · exact h
  · exact h.same rfl

theorem IdxHeld.createEdge {m : Mem} (h : IdxHeld I V m) (e : Edge) : IdxHeld I V (createEdge e m).1 := by
  unfold Mem.createEdge
  split
  · exact h
  · exact h.same rfl

theorem IdxHeld.bulkInsert {m : Mem} (h : IdxHeld I V m) (items : List BulkInsertItem)
    (hl : ∀ i ∈ items, i.All I V) : IdxHeld I V (bulkInsert F b items m).1 := by
  refine IdxHeld.forEach ?_ m h
  intro i hi m h
  have hi := hl i hi
  cases i with
  | vertex v =>
    have := h.createVertex v
    simp only [defaultBulkItem]
    generalize Mem.createVertex v m = u at this
    obtain ⟨m', res⟩ := u
    cases res <;> exact this
  | edge e =>
    have := h.createEdge e
    simp only [defaultBulkItem]
    generalize Mem.createEdge e m = u at this
    obtain ⟨m', res⟩ := u
    cases res <;> exact this
  | vertexProperty id n v => exact h.setVertexProperties _ _ hi.2
  | edgeProperty e n v =>
    exact h.setEdgeProperties _ _ hi.2.2 (by intro x hx; rw [List.mem_singleton.1 hx]; exact hi.1)

theorem IdxHeld.indexProperty {O : HashOrder} {m : Mem} (h : IdxHeld I V m) {n : Identifier} (hn : I n) (hg : m.graph.Holds I V) :
    IdxHeld I V (indexProperty F O n m).1 := by
  refine h.set hn ?_
  have hold : Container.Held I V ((m.propertyValues.get n).getD []) := by
    cases hc : m.propertyValues.get n with
    | none => intro p hp; cases hp
    | some c => exact (h n c hc).2
  have hnew : Container.Held I V (edgeIndexEntries F n m (vertexIndexEntries F n m [])) := by
    refine Container.Held.foldl ?_ _ (Container.Held.foldl ?_ _ (by intro p hp; cases hp))
    · intro e he c hc
      split
      · next x hx =>
        refine hc.upsert ?_ (fun s hs => hs.add ?_)
        · exact (hg.eprop e n x hx).2.2
        · exact hg.edge e (SSet.mem_elems.1 he)
      · exact hc
    · intro e he c hc
      split
      · next x hx => exact hc.upsert (hg.vprop e.1 n x hx).2 (fun s hs => hs.add trivial)
      · exact hc
  refine Container.Held.foldl ?_ _ hold
  intro p hp c hc
  obtain ⟨h1, h2⟩ := hnew p ((O.entries_perm _).mem_iff.1 hp)
  exact hc.upsert h1 (fun s hs => SetHeld.addAll _ hs (fun x hx => h2 x (SSet.mem_elems.1 hx)))

theorem IdxHeld.index {m : Mem} (h : IdxHeld I V m) : (m.index F).Holds I where
  present := by
    intro n e he
    have he : m.listed n (.inr e) = true := he
    unfold listed at he
    cases hc : m.propertyValues.get n with
    | none => rw [hc] at he; cases he
    | some c =>
      rw [hc] at he
      simp only [Container.any, List.any_eq_true] at he
      obtain ⟨p, hp, hpe⟩ := he
      exact ((h n c hc).2 p hp).2 _ hpe
  value := by
    intro n x e he
    have he : (m.idx F n x (.inr e) && m.edges.contains e) = true := he
    rw [Bool.and_eq_true] at he
    have he := he.1
    unfold idx at he
    cases hc : m.propertyValues.get n with
    | none => rw [hc] at he; cases he
    | some c =>
      rw [hc] at he
      simp only [Container.idx, Container.find] at he
      cases hf : F.at c x with
      | none => rw [hf] at he; cases he
      | some i =>
        rw [hf] at he
        simp only [Option.bind_some] at he
        cases hi : c[i]? with
        | none => rw [hi] at he; cases he
        | some p => rw [hi] at he; exact ((h n c hc).2 p (List.mem_of_getElem? hi)).2 _ he

/-- One call keeps the index good. -/
theorem IdxHeld.dbStep {m : Mem} (O : HashOrder) (op : Op) (h : IdxHeld I V m) (hg : m.graph.Holds I V)
    (ho : op.All I V) (hq : ∀ q, OutAll I V (eval (reads F O m) q)) :
    IdxHeld I V (dbStep (txn F O b) op m).1 := by
  cases op with
  | sync => exact h
  | createVertex v => exact h.createVertex v
  | createVertexFromType id t =>
    have := h.createVertex ⟨id, t⟩
    show IdxHeld _ _ (dbCreateVertexFromType (txn F O b) id t m).1
    simp only [dbCreateVertexFromType, txn]
    generalize Mem.createVertex ⟨id, t⟩ m = u at this
    obtain ⟨m', res⟩ := u
    cases res with
    | error f => exact this
    | ok x => cases x <;> exact this
  | createEdge e => exact h.createEdge e
  | get q => exact h
  | delete q =>
    show IdxHeld _ _ (dbDelete (txn F O b) q m).1
    unfold dbDelete
    cases lastOutput ((txn F O b).reads m) q with
    | error f => exact h
    | ok v =>
      cases v with
      | vertices vs => exact h.deleteVertices vs
      | edges es => exact h.deleteEdges es
      | vertexProperties l => exact h.deleteVertexProperties _
      | edgeProperties l => exact h.deleteEdgeProperties _
      | count n => exact h
  | setProperties q n x =>
    show IdxHeld _ _ (dbSetProperties (txn F O b) q n x m).1
    have hl : lastOutput (reads F O m) q = (eval (reads F O m) q).map (·.2) := lastOutput_eq _ q
    unfold dbSetProperties
    rw [show lastOutput ((txn F O b).reads m) q = _ from hl]
    cases he : eval (reads F O m) q with
    | error f => exact h
    | ok p =>
      obtain ⟨inc, v⟩ := p
      cases v with
      | vertices vs => exact h.setVertexProperties _ _ ho.2.2
      | edges es => exact h.setEdgeProperties _ _ ho.2.2 (hq q inc _ he).2
      | _ => exact h
  | bulkInsert items => exact h.bulkInsert items ho
  | indexProperty n => exact h.indexProperty ho hg

/-- Everything in the database is good: what `sync` writes has only good identifiers and values. -/
theorem image_holds {m : Mem} (hr : m.RevOk) (hg : m.graph.Holds I V) (hx : IdxHeld I V m)
    (Q : ImageOrder) :
    (m.image Q).Holds I V where
  vertices := fun e h => hg.vertex _ _ (SMap.mem_toList'.1 h)
  edges := fun e h => hg.edge e (SSet.mem_elems.1 h)
  reversedEdges := fun e h => by
    have h : m.reversedEdges.contains e = true := SSet.mem_elems.1 h
    rw [hr e] at h
    exact hg.edge e.reversed h
  vertexProperties := fun e h => hg.vprop e.1.1 e.1.2 e.2 (SMap.mem_toList'.1 h)
  edgeProperties := fun e h => hg.eprop e.1.1 e.1.2 e.2 (SMap.mem_toList'.1 h)
  propertyValues := fun e h => by
    obtain ⟨p, hp, rfl⟩ := List.mem_map.1 h
    rw [(Q.names_perm _).mem_iff, SMap.mem_toList'] at hp
    obtain ⟨h1, h2⟩ := hx p.1 p.2 hp
    refine ⟨h1, fun s hs => ?_⟩
    obtain ⟨s', hs', rfl⟩ := List.mem_map.1 hs
    obtain ⟨h3, h4⟩ := h2 s' ((Q.values_perm _).mem_iff.1 hs')
    exact ⟨h3, fun x hx => h4 x (SSet.mem_elems.1 ((Q.members_perm _).mem_iff.1 hx))⟩

end Mem

/-- What is good about the memory datastore after calls with good arguments. -/
structure MemDb.Held (I : Identifier → Prop) (V : Json → Prop) (d : MemDb) : Prop where
  rev : d.mem.RevOk
  graph : d.mem.graph.Holds I V
  idx : Mem.IdxHeld I V d.mem

theorem MemDb.held_new : MemDb.Held I V MemDb.new where
  rev := fun _ => rfl
  graph := by
    rw [show MemDb.new.mem.graph = Graph.empty from Mem.graph_empty]
    exact ⟨by simp [Graph.empty], by simp [Graph.empty], by simp [Graph.empty], by simp [Graph.empty]⟩
  idx := by intro n c hc; simp [MemDb.new, Mem.empty] at hc

open Mem

/-- One call. -/
theorem MemDb.Held.step {d : MemDb} (hp : d.poisoned = false) (h : d.Held I V) (F : Finder) (O : HashOrder) {op : Op}
    (ho : op.All I V) (hp' : (MemDb.step F b O op d).1.poisoned = false) :
    (MemDb.step F b O op d).1.Held I V ∧ ∀ r, (MemDb.step F b O op d).2 = .ok r → r.All I V := by
  have hout : ∀ q, OutAll I V (eval (Mem.reads F O d.mem) q) := fun q =>
    answers_holds h.graph (h.idx.index (F := F)) q _ (eval_answers (Mem.faithful (K := HashEq.byHash) F O d.mem h.rev) q)
  obtain ⟨h1, h2, h3⟩ := memStep_any (b := b) hp F O op
  have hne : (dbStep (txn F O b) op d.mem).2 ≠ .error .panic := fun e => by rw [h3.2 e] at hp'; cases hp'
  rcases dbStep_any (b := b) F O op d.mem h.rev with ⟨hs, hr⟩ | ⟨e, _⟩
  · obtain ⟨hg, hr'⟩ := stepWith_holds Sem.intended_holds h.graph hout ho hs
    exact ⟨⟨by rw [h1]; exact hr, by rw [h1]; exact hg, by rw [h1]; exact h.idx.dbStep O op h.graph ho hout⟩, by rw [h2]; exact hr'⟩
  · exact absurd e hne

/-- Any history. -/
theorem memAny_held (hist : List ((Finder × HashOrder) × Op)) (hh : ∀ p ∈ hist, p.2.All I V) :
    ∀ d : MemDb, (d.poisoned = false → d.Held I V) →
      (((memStoreAny b).run hist d).poisoned = false → ((memStoreAny b).run hist d).Held I V) ∧
      ∀ r, .ok r ∈ (memStoreAny b).replies hist d → r.All I V := by
  induction hist with
  | nil => intro d h; exact ⟨h, fun r hr => by cases hr⟩
  | cons p rest ih =>
    obtain ⟨⟨F, O⟩, op⟩ := p
    intro d h
    have hop : op.All I V := hh ((F, O), op) List.mem_cons_self
    have hrest := ih (fun p hp => hh p (List.mem_cons_of_mem _ hp))
    cases hp : d.poisoned with
    | true =>
      have hs : MemDb.step F b O op d = (d, .error .panic) := MemDb.step_poisoned_any F O op hp
      have := hrest (MemDb.step F b O op d).1 (by rw [hs]; exact h)
      refine ⟨this.1, fun r hr => ?_⟩
      rcases List.mem_cons.1 hr with h' | h'
      · have h' : (.ok r : Res Reply) = (MemDb.step F b O op d).2 := h'
        rw [hs] at h'; cases h'
      · exact this.2 r h'
    | false =>
      have := hrest (MemDb.step F b O op d).1 (fun hp' => ((h hp).step hp F O hop hp').1)
      refine ⟨this.1, fun r hr => ?_⟩
      rcases List.mem_cons.1 hr with h' | h'
      · have h' : (.ok r : Res Reply) = (MemDb.step F b O op d).2 := h'
        cases hp' : (MemDb.step F b O op d).1.poisoned with
        | false => exact ((h hp).step hp F O hop hp').2 r h'.symm
        | true =>
          obtain ⟨_, h2, h3⟩ := memStep_any (b := b) hp F O op
          rw [h2, h3.1 hp'] at h'; cases h'
      · exact this.2 r h'

end IndraDB
