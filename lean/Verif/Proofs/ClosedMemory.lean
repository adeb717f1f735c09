import Verif.Proofs.Closed
/-
The memory datastore returns only identifiers and values that were put in.
-/
namespace IndraDB
variable {I : Identifier → Prop} {V : Json → Prop} {K : HashEq} {b : Build} {P : Edge → Prop}

/-- The edges listed in the container satisfy `P`. -/
def Container.In (P : Edge → Prop) (c : Container) : Prop := ∀ p ∈ c, ∀ e, SMap.contains p.2 (.inr e) = true → P e

/-- The set lists only edges satisfying `P`. -/
def SetIn (P : Edge → Prop) (s : SSet Member) : Prop := ∀ e, SMap.contains s (.inr e) = true → P e

theorem SetIn.add {s : SSet Member} (h : SetIn P s) {x : Member} (hx : ∀ e, x = .inr e → P e) : SetIn P (s.add x) := by
  intro e he
  simp only [SSet.contains_add, Bool.or_eq_true, decide_eq_true_eq] at he
  rcases he with he | he
  · exact hx e he.symm
  · exact h e he

theorem SetIn.addAll (l : List Member) : ∀ {s : SSet Member}, SetIn P s → (∀ x ∈ l, ∀ e, x = .inr e → P e) →
    SetIn P (l.foldl (fun s x => s.add x) s) := by
  induction l with
  | nil => intro s h _; exact h
  | cons a r ih =>
    intro s h hl
    exact ih (h.add (hl a List.mem_cons_self)) (fun x hx => hl x (List.mem_cons_of_mem _ hx))

theorem SetIn.erase {s : SSet Member} (h : SetIn P s) (x : Member) : SetIn P (SMap.erase s x) := by
  intro e he
  simp only [SSet.contains_erase, Bool.and_eq_true] at he
  exact h e he.2

theorem Container.In.upsert {c : Container} (h : c.In P) (v : Json) {f : SSet Member → SSet Member}
    (hf : ∀ s, SetIn P s → SetIn P (f s)) : (c.upsert K v f).In P := by
  induction c with
  | nil =>
    intro p hp
    rw [Container.upsert_nil, List.mem_singleton] at hp
    subst hp
    exact hf _ (fun e he => by simp at he)
  | cons a r ih =>
    have hr : Container.In P r := fun p hp => h p (List.mem_cons_of_mem _ hp)
    rw [Container.upsert_cons]
    split
    · intro p hp
      rcases List.mem_cons.1 hp with rfl | hp
      · exact hf _ (h a List.mem_cons_self)
      · exact hr p hp
    · intro p hp
      rcases List.mem_cons.1 hp with rfl | hp
      · exact h p List.mem_cons_self
      · exact ih hr p hp

theorem Container.In.update {c : Container} (h : c.In P) (v : Json) {f : SSet Member → SSet Member}
    (hf : ∀ s, SetIn P s → SetIn P (f s)) : (c.update K v f).In P := by
  induction c with
  | nil => intro p hp; cases hp
  | cons a r ih =>
    have hr : Container.In P r := fun p hp => h p (List.mem_cons_of_mem _ hp)
    rw [Container.update_cons]
    split
    · intro p hp
      rcases List.mem_cons.1 hp with rfl | hp
      · exact hf _ (h a List.mem_cons_self)
      · exact hr p hp
    · intro p hp
      rcases List.mem_cons.1 hp with rfl | hp
      · exact h p List.mem_cons_self
      · exact ih hr p hp

namespace Mem

/-- The index lists only edges satisfying `P`. -/
def IdxIn (P : Edge → Prop) (m : Mem) : Prop := ∀ n c, m.propertyValues.get n = some c → c.In P

theorem IdxIn.set {m : Mem} (h : IdxIn P m) (n : Identifier) {c : Container} (hc : c.In P) :
    IdxIn P { m with propertyValues := m.propertyValues.insert n c } := by
  intro n' c' h'
  simp only [SMap.get_insert] at h'
  split at h'
  · cases h'; exact hc
  · exact h n' c' h'

theorem IdxIn.same {m m' : Mem} (h : IdxIn P m) (e : m'.propertyValues = m.propertyValues) : IdxIn P m' := by
  intro n c hc; rw [e] at hc; exact h n c hc

theorem IdxIn.forEach {α β : Type} {f : α → Mem → Upd Mem β} {l : List α} (hf : ∀ a ∈ l, ∀ m, IdxIn P m → IdxIn P (f a m).1) :
    ∀ m, IdxIn P m → IdxIn P (forEach f l m).1 := by
  induction l with
  | nil => intro m h; exact h
  | cons a r ih =>
    intro m h
    have h1 := hf a List.mem_cons_self m h
    simp only [IndraDB.forEach]
    generalize f a m = u at h1
    obtain ⟨m', res⟩ := u
    cases res with
    | ok _ => exact ih (fun x hx => hf x (List.mem_cons_of_mem _ hx)) m' h1
    | error _ => exact h1

theorem IdxIn.unindex {m : Mem} (h : IdxIn P m) (n : Identifier) (v : Json) (x : Member) :
    IdxIn P (unindex K b n v x m).1 := by
  unfold Mem.unindex
  cases hc : m.propertyValues.get n with
  | none => exact h
  | some c =>
    cases b with
    | release => exact h
    | debug =>
      simp only
      cases hf : c.find K v with
      | none => exact h
      | some sub =>
        simp only
        have := h.set n (Container.In.update (K := K) (h n c hc) v (f := fun s => SMap.erase s x) (fun s hs => hs.erase x))
        split <;> exact this

theorem IdxIn.deleteVertexProperties {m : Mem} (h : IdxIn P m) (l : List (Uuid × Identifier)) :
    IdxIn P (deleteVertexProperties K b l m).1 := by
  refine IdxIn.forEach ?_ m h
  intro p _ m h
  unfold deleteVertexProperty
  cases m.vertexProperties.get p with
  | none => exact h
  | some v => refine IdxIn.unindex ?_ _ _ _; exact h.same rfl

theorem IdxIn.deleteEdgeProperties {m : Mem} (h : IdxIn P m) (l : List (Edge × Identifier)) :
    IdxIn P (deleteEdgeProperties K b l m).1 := by
  refine IdxIn.forEach ?_ m h
  intro p _ m h
  unfold deleteEdgeProperty
  cases m.edgeProperties.get p with
  | none => exact h
  | some v => refine IdxIn.unindex ?_ _ _ _; exact h.same rfl

theorem IdxIn.deleteEdges {m : Mem} (h : IdxIn P m) (l : List Edge) : IdxIn P (deleteEdges K b l m).1 := by
  refine IdxIn.forEach ?_ m h
  intro p _ m h
  unfold deleteEdge
  refine IdxIn.deleteEdgeProperties ?_ _
  exact h.same rfl

theorem IdxIn.deleteVertices {m : Mem} (h : IdxIn P m) (l : List Vertex) : IdxIn P (deleteVertices K b l m).1 := by
  refine IdxIn.forEach ?_ m h
  intro v _ m h
  unfold deleteVertex
  simp only
  generalize hu : Mem.deleteVertexProperties K b _ { m with vertices := _ } = u
  have h1 : IdxIn P u.1 := by rw [← hu]; refine IdxIn.deleteVertexProperties ?_ _; exact h.same rfl
  obtain ⟨m', res⟩ := u
  cases res with
  | ok _ => exact IdxIn.deleteEdges h1 _
  | error _ => exact h1

theorem IdxIn.indexMembers {m : Mem} (h : IdxIn P m) (n : Identifier) (v : Json) (l : List Member)
    (hl : ∀ x ∈ l, ∀ e, x = .inr e → P e) : IdxIn P (indexMembers K n v l m) := by
  unfold Mem.indexMembers
  cases hc : m.propertyValues.get n with
  | none => exact h
  | some c => exact h.set n ((h n c hc).upsert v (fun s hs => SetIn.addAll l hs hl))

theorem IdxIn.setVertexProperties {m : Mem} (h : IdxIn P m) (l : List Uuid) (n : Identifier) (v : Json) :
    IdxIn P (setVertexProperties K b l n v m).1 := by
  unfold Mem.setVertexProperties
  have h1 := IdxIn.deleteVertexProperties (K := K) (b := b) h (l.map (fun id => (id, n)))
  generalize Mem.deleteVertexProperties K b (l.map (fun id => (id, n))) m = u at h1
  obtain ⟨m', res⟩ := u
  cases res with
  | error _ => exact h1
  | ok _ =>
    refine IdxIn.indexMembers ?_ _ _ _ ?_
    · exact h1.same rfl
    rintro x hx e rfl
    simp at hx

theorem IdxIn.setEdgeProperties {m : Mem} (h : IdxIn P m) (l : List Edge) (n : Identifier) (v : Json)
    (hl : ∀ e ∈ l, P e) : IdxIn P (setEdgeProperties K b l n v m).1 := by
  unfold Mem.setEdgeProperties
  have h1 := IdxIn.deleteEdgeProperties (K := K) (b := b) h (l.map (fun id => (id, n)))
  generalize Mem.deleteEdgeProperties K b (l.map (fun id => (id, n))) m = u at h1
  obtain ⟨m', res⟩ := u
  cases res with
  | error _ => exact h1
  | ok _ =>
    refine IdxIn.indexMembers ?_ _ _ _ ?_
    · exact h1.same rfl
    rintro x hx e rfl
    simp only [List.mem_map, Sum.inr.injEq, exists_eq_right] at hx
    exact hl e hx

theorem IdxIn.createVertex {m : Mem} (h : IdxIn P m) (v : Vertex) : IdxIn P (createVertex v m).1 := by
  unfold Mem.createVertex
  split
  · exact h
  · exact h.same rfl

theorem IdxIn.createEdge {m : Mem} (h : IdxIn P m) (e : Edge) : IdxIn P (createEdge e m).1 := by
  unfold Mem.createEdge
  split
  · exact h
  · exact h.same rfl

theorem IdxIn.bulkInsert {m : Mem} (h : IdxIn P m) (items : List BulkInsertItem)
    (hl : ∀ e n v, .edgeProperty e n v ∈ items → P e) : IdxIn P (bulkInsert K b items m).1 := by
  refine IdxIn.forEach ?_ m h
  intro i hi m h
  cases i with
  | vertex v =>
    have := h.createVertex v
    simp only [defaultBulkItem]
    generalize Mem.createVertex v m = u at this
    obtain ⟨m', res⟩ := u
    cases res <;> exact this
  | edge e =>
    have := h.createEdge e
    simp only [defaultBulkItem]
    generalize Mem.createEdge e m = u at this
    obtain ⟨m', res⟩ := u
    cases res <;> exact this
  | vertexProperty id n v => exact h.setVertexProperties _ _ _
  | edgeProperty e n v =>
    exact h.setEdgeProperties _ _ _ (by intro x hx; rw [List.mem_singleton.1 hx]; exact hl e n v hi)

theorem foldl_in {α : Type} {f : Container → α → Container} {l : List α}
    (hf : ∀ a ∈ l, ∀ c, Container.In P c → (f c a).In P) : ∀ c, Container.In P c → (l.foldl f c).In P := by
  induction l with
  | nil => intro c h; exact h
  | cons a r ih =>
    intro c h
    exact ih (fun x hx => hf x (List.mem_cons_of_mem _ hx)) _ (hf a List.mem_cons_self c h)

theorem IdxIn.indexProperty {O : HashOrder} {m : Mem} (h : IdxIn P m) (n : Identifier) (hm : ∀ e, m.edges.contains e = true → P e) :
    IdxIn P (indexProperty K O n m).1 := by
  refine h.set n ?_
  have hold : Container.In P ((m.propertyValues.get n).getD []) := by
    cases hc : m.propertyValues.get n with
    | none => intro p hp; cases hp
    | some c => exact h n c hc
  have hnew : Container.In P (edgeIndexEntries K n m (vertexIndexEntries K n m [])) := by
    refine foldl_in ?_ _ (foldl_in ?_ _ (by intro p hp; cases hp))
    · intro e he c hc
      split
      · refine hc.upsert _ (fun s hs => hs.add ?_)
        rintro e' h'; cases h'
        exact hm e (SSet.mem_elems.1 he)
      · exact hc
    · intro e he c hc
      split
      · refine hc.upsert _ (fun s hs => hs.add ?_)
        rintro e' h'; cases h'
      · exact hc
  refine foldl_in ?_ _ hold
  intro p hp c hc
  refine hc.upsert _ (fun s hs => SetIn.addAll _ hs ?_)
  rintro x hx e rfl
  exact hnew p ((O.entries_perm _).mem_iff.1 hp) e (SSet.mem_elems.1 hx)

theorem IdxIn.index {m : Mem} (h : IdxIn (fun e => I e.t) m) : (m.index K).Holds I where
  present := by
    intro n e he
    have he : m.listed n (.inr e) = true := he
    unfold listed at he
    cases hc : m.propertyValues.get n with
    | none => rw [hc] at he; cases he
    | some c =>
      rw [hc] at he
      simp only [Container.any, List.any_eq_true] at he
      obtain ⟨p, hp, hpe⟩ := he
      exact h n c hc p hp e hpe
  value := by
    intro n x e he
    have he : (m.idx K n x (.inr e) && m.edges.contains e) = true := he
    rw [Bool.and_eq_true] at he
    have he := he.1
    unfold idx at he
    cases hc : m.propertyValues.get n with
    | none => rw [hc] at he; cases he
    | some c =>
      rw [hc] at he
      simp only [Container.idx] at he
      cases hf : c.find K x with
      | none => rw [hf] at he; cases he
      | some s =>
        rw [hf] at he
        simp only [Container.find_eq, Option.map_eq_some_iff] at hf
        obtain ⟨p, hp, rfl⟩ := hf
        exact h n c hc p (List.mem_of_find?_eq_some hp) e he

/-- One call keeps the index closed. -/
theorem IdxIn.dbStep {m : Mem} (O : HashOrder) (op : Op) (h : IdxIn (fun e => I e.t) m) (hg : m.graph.Holds I V)
    (ho : op.All I V) (hq : ∀ q, OutAll I V (eval (reads K O m) q)) :
    IdxIn (fun e => I e.t) (dbStep (txn K O b) op m).1 := by
  cases op with
  | sync => exact h
  | createVertex v => exact h.createVertex v
  | createVertexFromType id t =>
    have := h.createVertex ⟨id, t⟩
    show IdxIn _ (dbCreateVertexFromType (txn K O b) id t m).1
    simp only [dbCreateVertexFromType, txn]
    generalize Mem.createVertex ⟨id, t⟩ m = u at this
    obtain ⟨m', res⟩ := u
    cases res with
    | error f => exact this
    | ok x => cases x <;> exact this
  | createEdge e => exact h.createEdge e
  | get q => exact h
  | delete q =>
    show IdxIn _ (dbDelete (txn K O b) q m).1
    unfold dbDelete
    cases lastOutput ((txn K O b).reads m) q with
    | error f => exact h
    | ok v =>
      cases v with
      | vertices vs => exact h.deleteVertices vs
      | edges es => exact h.deleteEdges es
      | vertexProperties l => exact h.deleteVertexProperties _
      | edgeProperties l => exact h.deleteEdgeProperties _
      | count n => exact h
  | setProperties q n x =>
    show IdxIn _ (dbSetProperties (txn K O b) q n x m).1
    have hl : lastOutput (reads K O m) q = (eval (reads K O m) q).map (·.2) := lastOutput_eq _ q
    unfold dbSetProperties
    rw [show lastOutput ((txn K O b).reads m) q = _ from hl]
    cases he : eval (reads K O m) q with
    | error f => exact h
    | ok p =>
      obtain ⟨inc, v⟩ := p
      cases v with
      | vertices vs => exact h.setVertexProperties _ _ _
      | edges es => exact h.setEdgeProperties _ _ _ (hq q inc _ he).2
      | _ => exact h
  | bulkInsert items => exact h.bulkInsert items (fun e n v hi => (ho _ hi).1)
  | indexProperty n => exact h.indexProperty n hg.edge

end Mem

/-- **C52 for the memory datastore.** -/
theorem memStore_closed (K : HashEq) (b : Build) : (memStore K b).RepliesClosed I V := by
  intro hist _ ha r hr
  suffices H : ∀ hist d, (d.poisoned = false → MemDb.Inv K b d ∧ d.mem.graph.Holds I V ∧ Mem.IdxIn (fun e => I e.t) d.mem) →
      (∀ p ∈ hist, p.2.All I V) → .ok r ∈ (memStore K b).replies hist d → r.All I V by
    refine H hist MemDb.new (fun _ => ⟨MemDb.inv_new, ?_, ?_⟩) ha hr
    · rw [show MemDb.new.mem.graph = Graph.empty from Mem.graph_empty]
      exact ⟨by simp [Graph.empty], by simp [Graph.empty], by simp [Graph.empty], by simp [Graph.empty]⟩
    · intro n c hc; simp [MemDb.new, Mem.empty] at hc
  intro hist
  induction hist with
  | nil => intro d _ _ h; cases h
  | cons p rest ih =>
    obtain ⟨O, op⟩ := p
    intro d hd ha hr
    cases hp : d.poisoned with
    | true =>
      have hs : MemDb.step K b O op d = (d, .error .panic) := MemDb.step_poisoned O op hp
      rcases List.mem_cons.1 hr with h | h
      · have h' : (.ok r : Res Reply) = (MemDb.step K b O op d).2 := h
        rw [hs] at h'; cases h'
      · refine ih d hd (fun p hp => ha p (List.mem_cons_of_mem _ hp)) ?_
        have h' : .ok r ∈ (memStore K b).replies rest (MemDb.step K b O op d).1 := h
        rw [hs] at h'; exact h'
    | false =>
      obtain ⟨hi, hg, hx⟩ := hd hp
      have hout : ∀ q, OutAll I V (eval (Mem.reads K O d.mem) q) := fun q =>
        answers_holds hg (hx.index (K := K)) q _ (eval_answers (Mem.faithful (K := K) K O d.mem hi.wf.rev) q)
      have hop : op.All I V := ha (O, op) List.mem_cons_self
      have key : (MemDb.step K b O op d).1.poisoned = false ∨ ∀ x, (MemDb.step K b O op d).2 = .ok x → x.All I V := by
        cases h : (MemDb.step K b O op d).1.poisoned with
        | false => exact Or.inl rfl
        | true =>
          right
          intro x hx
          have := ((memStep_eq hp O op).2.2).1 h
          rw [(memStep_eq hp O op).2.1, this] at hx; cases hx
      have key2 : (MemDb.step K b O op d).1.poisoned = false →
          (MemDb.step K b O op d).1.mem.graph.Holds I V ∧ ∀ x, (MemDb.step K b O op d).2 = .ok x → x.All I V := by
        intro h
        rcases MemDb.step_cases O op hp hi.wf with ⟨hs, _⟩ | ⟨_, h', _⟩
        · exact stepWith_holds Sem.intended_holds hg hout hop hs.stepWith
        · rw [h] at h'; cases h'
      rcases List.mem_cons.1 hr with h | h
      · have h' : (.ok r : Res Reply) = (MemDb.step K b O op d).2 := h
        rcases key with hk | hk
        · exact (key2 hk).2 r h'.symm
        · exact hk r h'.symm
      · refine ih (MemDb.step K b O op d).1 ?_ (fun p hp => ha p (List.mem_cons_of_mem _ hp)) h
        intro hp'
        refine ⟨MemDb.inv_step O op (fun _ => hi) hp', (key2 hp').1, ?_⟩
        rw [(memStep_eq hp O op).1]
        exact hx.dbStep O op hg hop hout

end IndraDB
