import Verif.Spec.Checked
/-
Consequences of the specification of queries and calls.
-/
set_option linter.unusedSimpArgs false
namespace IndraDB

variable {g : Graph} {I : IndexView} {C : Conv}

theorem mem_lookup {ids : List Uuid} {v : Vertex} (h : v ∈ g.lookup ids) : v.id ∈ ids ∧ g.vertex v.id = some v.t := by
  unfold Graph.lookup at h
  rw [List.mem_filterMap] at h
  obtain ⟨id, hid, hv⟩ := h
  cases hg : g.vertex id with
  | none => rw [hg] at hv; simp at hv
  | some t => rw [hg] at hv; simp at hv; subst hv; exact ⟨hid, hg⟩

theorem lookup_iff {ids : List Uuid} {v : Vertex} : v ∈ g.lookup ids ↔ v.id ∈ ids ∧ g.vertex v.id = some v.t := by
  constructor
  · exact mem_lookup
  · rintro ⟨h1, h2⟩
    unfold Graph.lookup
    rw [List.mem_filterMap]
    exact ⟨v.id, h1, by rw [h2]; rfl⟩

/-- Outcome of a stage: where an ok value comes from. -/
theorem Next.ok {i : Query} {S : Output → Res Output → Prop} {ri r : Res (List Output × Output)} {inc : List Output}
    {w : Output} (h : Next i S ri r) (hr : r = .ok (inc, w)) :
    ∃ inc' v, ri = .ok (inc', v) ∧ S v (.ok w) ∧ inc = inc' ++ (if i.isInclude then [v] else []) := by
  unfold Next at h
  cases ri with
  | error f => simp only at h; rw [h] at hr; exact absurd hr (by simp)
  | ok p =>
    obtain ⟨inc', v⟩ := p
    simp only at h
    obtain ⟨rv, hs, he⟩ := h
    cases rv with
    | error f => rw [he] at hr; simp [Except.map] at hr
    | ok w' =>
      rw [he] at hr
      simp [Except.map] at hr
      exact ⟨inc', v, rfl, by rw [hr.2] at hs; exact hs, hr.1.symm⟩

theorem Next.error {i : Query} {S : Output → Res Output → Prop} {ri r : Res (List Output × Output)} {f : Fault}
    (h : Next i S ri r) (hr : r = .error f) :
    ri = .error f ∨ ∃ inc' v, ri = .ok (inc', v) ∧ S v (.error f) := by
  unfold Next at h
  cases ri with
  | error f' => simp only at h; rw [h] at hr; simp at hr; left; rw [hr]
  | ok p =>
    obtain ⟨inc', v⟩ := p
    simp only at h
    obtain ⟨rv, hs, he⟩ := h
    cases rv with
    | ok w => rw [he] at hr; simp [Except.map] at hr
    | error f' =>
      rw [he] at hr
      simp [Except.map] at hr
      right; exact ⟨inc', v, rfl, by rw [hr] at hs; exact hs⟩

theorem answers_vertices_exist_aux (q : Query) : ∀ r, Answers g I C q r → ∀ inc vs, r = .ok (inc, .vertices vs) →
    ∀ v ∈ vs, g.vertex v.id = some v.t := by
  induction q with
  | allVertex =>
    rintro r ⟨l, hl, rfl⟩ inc vs h v hv
    simp at h; rw [← h.2] at hv; exact (hl.mem v).1 hv
  | rangeVertex limit t s =>
    rintro r ⟨l, hl, rfl⟩ inc vs h v hv
    simp at h; rw [← h.2] at hv; exact ((hl.mem v).1 (List.mem_of_mem_take hv)).1
  | specificVertex ids =>
    intro r h inc vs hr v hv
    simp only [Answers] at h; rw [h] at hr; simp at hr
    rw [← hr.2] at hv; exact (mem_lookup hv).2
  | vertexWithPropertyPresence n =>
    intro r h inc vs hr v hv
    simp only [Answers] at h
    split at h
    · obtain ⟨l, _, rfl⟩ := h; simp at hr; rw [← hr.2] at hv; exact (mem_lookup hv).2
    · rw [h] at hr; exact absurd hr (by simp)
  | vertexWithPropertyValue n x =>
    intro r h inc vs hr v hv
    simp only [Answers] at h
    split at h
    · obtain ⟨l, _, rfl⟩ := h; simp at hr; rw [← hr.2] at hv; exact (mem_lookup hv).2
    · rw [h] at hr; exact absurd hr (by simp)
  | allEdge => rintro r ⟨l, hl, rfl⟩ inc vs h; simp at h
  | specificEdge es => intro r h inc vs hr; simp only [Answers] at h; rw [h] at hr; simp at hr
  | edgeWithPropertyPresence n =>
    intro r h inc vs hr v hv
    simp only [Answers] at h
    split at h
    · obtain ⟨l, _, rfl⟩ := h; simp at hr
    · rw [h] at hr; exact absurd hr (by simp)
  | edgeWithPropertyValue n x =>
    intro r h inc vs hr v hv
    simp only [Answers] at h
    split at h
    · obtain ⟨l, _, rfl⟩ := h; simp at hr
    · rw [h] at hr; exact absurd hr (by simp)
  | pipe i d limit t ih =>
    rintro r ⟨ri, hi, hn⟩ inc vs hr v hv
    obtain ⟨inc', w, hri, hs, _⟩ := hn.ok hr
    cases w with
    | edges es =>
      obtain ⟨l, hl, he⟩ := hs
      simp at he; rw [he] at hv
      have h1 := List.mem_of_mem_take hv
      rw [hl] at h1
      exact (mem_lookup ((List.mem_filter.1 h1).1)).2
    | vertices ws => obtain ⟨per, _, he⟩ := hs; simp at he
    | _ => exact absurd hs (by simp [PipeStage])
  | pipeProperty i n ih =>
    rintro r ⟨ri, hi, hn⟩ inc vs hr v hv
    obtain ⟨inc', w, hri, hs, _⟩ := hn.ok hr
    cases w with
    | edges es => obtain ⟨_, _, he⟩ := hs; simp at he
    | vertices ws =>
      simp only [PropertyStage] at hs
      split at hs
      · simp at hs
      · obtain ⟨_, _, he⟩ := hs; simp at he
    | _ => exact absurd hs (by simp [PropertyStage])
  | pipeWithPropertyPresence i n k ih =>
    rintro r ⟨ri, hi, hn⟩ inc vs hr v hv
    obtain ⟨inc', w, hri, hs, _⟩ := hn.ok hr
    cases w with
    | edges es => simp only [FilterStage] at hs; split at hs <;> simp at hs
    | vertices ws =>
      simp only [FilterStage] at hs
      split at hs
      · simp at hs; rw [hs] at hv; exact ih _ hi _ _ hri v ((List.mem_filter.1 hv).1)
      · simp at hs
    | _ => exact absurd hs (by simp [FilterStage])
  | pipeWithPropertyValue i n x k ih =>
    rintro r ⟨ri, hi, hn⟩ inc vs hr v hv
    obtain ⟨inc', w, hri, hs, _⟩ := hn.ok hr
    cases w with
    | edges es => simp only [FilterStage] at hs; split at hs <;> simp at hs
    | vertices ws =>
      simp only [FilterStage] at hs
      split at hs
      · simp at hs; rw [hs] at hv; exact ih _ hi _ _ hri v ((List.mem_filter.1 hv).1)
      · simp at hs
    | _ => exact absurd hs (by simp [FilterStage])
  | incl i ih => intro r h; exact ih r h
  | count i ih =>
    rintro r ⟨ri, hi, hn⟩ inc vs hr v hv
    obtain ⟨inc', w, hri, hs, _⟩ := hn.ok hr
    simp only [CountStage] at hs
    split at hs <;> simp at hs

/-- Every vertex in the value of a query exists, with the reported type. -/
theorem answers_vertices_exist {q : Query} {inc : List Output} {vs : List Vertex}
    (h : Answers g I C q (.ok (inc, .vertices vs))) : ∀ v ∈ vs, g.vertex v.id = some v.t :=
  answers_vertices_exist_aux q _ h inc vs rfl

theorem answers_edges_exist_aux (hI : ∀ n v e, I.eValue n v e = true → g.edge e = true)
    (P : Query → Prop) (hP1 : ∀ n, P (.edgeWithPropertyPresence n) → ∀ e, I.ePresent n e = true → g.edge e = true)
    (hP2 : ∀ i n k, P (.pipeWithPropertyPresence i n k) → P i) (hP3 : ∀ i n v k, P (.pipeWithPropertyValue i n v k) → P i)
    (hP4 : ∀ i, P (.incl i) → P i) (q : Query) (hq : P q) : ∀ r, Answers g I C q r →
    ∀ inc es, r = .ok (inc, .edges es) → ∀ e ∈ es, g.edge e = true := by
  induction q with
  | allVertex => rintro r ⟨l, hl, rfl⟩ inc vs h; simp at h
  | rangeVertex limit t s => rintro r ⟨l, hl, rfl⟩ inc vs h; simp at h
  | specificVertex ids => intro r h inc vs hr; simp only [Answers] at h; rw [h] at hr; simp at hr
  | vertexWithPropertyPresence n =>
    intro r h inc vs hr v hv
    simp only [Answers] at h
    split at h
    · obtain ⟨l, _, rfl⟩ := h; simp at hr
    · rw [h] at hr; exact absurd hr (by simp)
  | vertexWithPropertyValue n x =>
    intro r h inc vs hr v hv
    simp only [Answers] at h
    split at h
    · obtain ⟨l, _, rfl⟩ := h; simp at hr
    · rw [h] at hr; exact absurd hr (by simp)
  | allEdge =>
    rintro r ⟨l, hl, rfl⟩ inc vs h v hv
    simp at h; rw [← h.2] at hv; exact (hl.mem v).1 hv
  | specificEdge es =>
    intro r h inc vs hr v hv
    simp only [Answers] at h; rw [h] at hr; simp at hr
    rw [← hr.2] at hv; exact (List.mem_filter.1 hv).2
  | edgeWithPropertyPresence n =>
    intro r h inc vs hr v hv
    simp only [Answers] at h
    split at h
    · obtain ⟨l, hl, rfl⟩ := h; simp at hr; rw [← hr.2] at hv; exact hP1 n hq v ((hl.1 v).1 hv)
    · rw [h] at hr; exact absurd hr (by simp)
  | edgeWithPropertyValue n x =>
    intro r h inc vs hr v hv
    simp only [Answers] at h
    split at h
    · obtain ⟨l, hl, rfl⟩ := h; simp at hr; rw [← hr.2] at hv; exact hI n x v ((hl.1 v).1 hv)
    · rw [h] at hr; exact absurd hr (by simp)
  | pipe i d limit t ih =>
    rintro r ⟨ri, hi, hn⟩ inc vs hr v hv
    obtain ⟨inc', w, hri, hs, _⟩ := hn.ok hr
    cases w with
    | edges es => obtain ⟨l, hl, he⟩ := hs; simp at he
    | vertices ws =>
      obtain ⟨per, hper, he⟩ := hs
      simp at he; rw [he] at hv
      have h1 := List.mem_of_mem_take hv
      rw [List.mem_flatMap] at h1
      obtain ⟨x, _, hx⟩ := h1
      exact (((hper x.id).mem v).1 hx).1
    | _ => exact absurd hs (by simp [PipeStage])
  | pipeProperty i n ih =>
    rintro r ⟨ri, hi, hn⟩ inc vs hr v hv
    obtain ⟨inc', w, hri, hs, _⟩ := hn.ok hr
    cases w with
    | edges es => obtain ⟨_, _, he⟩ := hs; simp at he
    | vertices ws =>
      simp only [PropertyStage] at hs
      split at hs
      · simp at hs
      · obtain ⟨_, _, he⟩ := hs; simp at he
    | _ => exact absurd hs (by simp [PropertyStage])
  | pipeWithPropertyPresence i n k ih =>
    rintro r ⟨ri, hi, hn⟩ inc vs hr v hv
    obtain ⟨inc', w, hri, hs, _⟩ := hn.ok hr
    cases w with
    | vertices es => simp only [FilterStage] at hs; split at hs <;> simp at hs
    | edges ws =>
      simp only [FilterStage] at hs
      split at hs
      · simp at hs; rw [hs] at hv; exact ih (hP2 _ _ _ hq) _ hi _ _ hri v ((List.mem_filter.1 hv).1)
      · simp at hs
    | _ => exact absurd hs (by simp [FilterStage])
  | pipeWithPropertyValue i n x k ih =>
    rintro r ⟨ri, hi, hn⟩ inc vs hr v hv
    obtain ⟨inc', w, hri, hs, _⟩ := hn.ok hr
    cases w with
    | vertices es => simp only [FilterStage] at hs; split at hs <;> simp at hs
    | edges ws =>
      simp only [FilterStage] at hs
      split at hs
      · simp at hs; rw [hs] at hv; exact ih (hP3 _ _ _ _ hq) _ hi _ _ hri v ((List.mem_filter.1 hv).1)
      · simp at hs
    | _ => exact absurd hs (by simp [FilterStage])
  | incl i ih => intro r h; exact ih (hP4 _ hq) r h
  | count i ih =>
    rintro r ⟨ri, hi, hn⟩ inc vs hr v hv
    obtain ⟨inc', w, hri, hs, _⟩ := hn.ok hr
    simp only [CountStage] at hs
    split at hs <;> simp at hs

/-- Every edge in the value of a query that does not use the presence index of edges exists. -/
theorem answers_edges_exist (hI : ∀ n v e, I.eValue n v e = true → g.edge e = true) {q : Query} (hq : q.LiveEdges)
    {inc : List Output} {es : List Edge} (h : Answers g I C q (.ok (inc, .edges es))) : ∀ e ∈ es, g.edge e = true :=
  answers_edges_exist_aux hI Query.LiveEdges (fun _ h => absurd h (by simp [Query.LiveEdges])) (fun _ _ _ h => h)
    (fun _ _ _ _ h => h) (fun _ h => h) q hq _ h inc es rfl

/-- If the presence index only lists existing edges, every edge in the value of every query exists. -/
theorem answers_edges_exist' (hI : ∀ n v e, I.eValue n v e = true → g.edge e = true)
    (hP : ∀ n e, I.ePresent n e = true → g.edge e = true) {q : Query}
    {inc : List Output} {es : List Edge} (h : Answers g I C q (.ok (inc, .edges es))) : ∀ e ∈ es, g.edge e = true :=
  answers_edges_exist_aux hI (fun _ => True) (fun n _ => hP n) (fun _ _ _ _ => trivial) (fun _ _ _ _ _ => trivial)
    (fun _ _ => trivial) q trivial _ h inc es rfl

/-- The ways a query can fail. -/
theorem answers_error (q : Query) : ∀ r, Answers g I C q r → ∀ f, r = .error f →
    f = .err .notIndexed ∨ f = .err .operationOnQuery ∨
    (f = .panic ∧ ∃ x : Vertex, g.vertex x.id = some x.t ∧ C.propsPanic x.id = true) := by
  induction q with
  | allVertex => rintro r ⟨l, hl, rfl⟩ f h; simp at h
  | rangeVertex limit t s => rintro r ⟨l, hl, rfl⟩ f h; simp at h
  | specificVertex ids => intro r h f hr; simp only [Answers] at h; rw [h] at hr; simp at hr
  | vertexWithPropertyPresence n =>
    intro r h f hr
    simp only [Answers] at h
    split at h
    · obtain ⟨l, _, rfl⟩ := h; simp at hr
    · rw [h] at hr; simp at hr; exact Or.inl hr.symm
  | vertexWithPropertyValue n x =>
    intro r h f hr
    simp only [Answers] at h
    split at h
    · obtain ⟨l, _, rfl⟩ := h; simp at hr
    · rw [h] at hr; simp at hr; exact Or.inl hr.symm
  | allEdge => rintro r ⟨l, hl, rfl⟩ f h; simp at h
  | specificEdge es => intro r h f hr; simp only [Answers] at h; rw [h] at hr; simp at hr
  | edgeWithPropertyPresence n =>
    intro r h f hr
    simp only [Answers] at h
    split at h
    · obtain ⟨l, _, rfl⟩ := h; simp at hr
    · rw [h] at hr; simp at hr; exact Or.inl hr.symm
  | edgeWithPropertyValue n x =>
    intro r h f hr
    simp only [Answers] at h
    split at h
    · obtain ⟨l, _, rfl⟩ := h; simp at hr
    · rw [h] at hr; simp at hr; exact Or.inl hr.symm
  | pipe i d limit t ih =>
    rintro r ⟨ri, hi, hn⟩ f hr
    rcases hn.error hr with h | ⟨inc', v, hri, hs⟩
    · exact ih _ hi f h
    · cases v with
      | edges es => obtain ⟨_, _, he⟩ := hs; simp at he
      | vertices es => obtain ⟨_, _, he⟩ := hs; simp at he
      | _ => simp [PipeStage] at hs; exact Or.inr (Or.inl hs)
  | pipeProperty i n ih =>
    rintro r ⟨ri, hi, hn⟩ f hr
    rcases hn.error hr with h | ⟨inc', v, hri, hs⟩
    · exact ih _ hi f h
    · cases v with
      | edges es => obtain ⟨_, _, he⟩ := hs; simp at he
      | vertices ws =>
        simp only [PropertyStage] at hs
        split at hs
        · rename_i hp
          simp at hs
          obtain ⟨_, x, hx, hxp⟩ := hp
          exact Or.inr (Or.inr ⟨hs, x, answers_vertices_exist (hri ▸ hi) x hx, hxp⟩)
        · obtain ⟨_, _, he⟩ := hs; simp at he
      | _ => simp [PropertyStage] at hs; exact Or.inr (Or.inl hs)
  | pipeWithPropertyPresence i n k ih =>
    rintro r ⟨ri, hi, hn⟩ f hr
    rcases hn.error hr with h | ⟨inc', v, hri, hs⟩
    · exact ih _ hi f h
    · cases v with
      | edges es => simp only [FilterStage] at hs; split at hs <;> simp at hs; exact Or.inl hs
      | vertices es => simp only [FilterStage] at hs; split at hs <;> simp at hs; exact Or.inl hs
      | _ => simp [FilterStage] at hs; exact Or.inr (Or.inl hs)
  | pipeWithPropertyValue i n x k ih =>
    rintro r ⟨ri, hi, hn⟩ f hr
    rcases hn.error hr with h | ⟨inc', v, hri, hs⟩
    · exact ih _ hi f h
    · cases v with
      | edges es => simp only [FilterStage] at hs; split at hs <;> simp at hs; exact Or.inl hs
      | vertices es => simp only [FilterStage] at hs; split at hs <;> simp at hs; exact Or.inl hs
      | _ => simp [FilterStage] at hs; exact Or.inr (Or.inl hs)
  | incl i ih => intro r h; exact ih r h
  | count i ih =>
    rintro r ⟨ri, hi, hn⟩ f hr
    rcases hn.error hr with h | ⟨inc', v, hri, hs⟩
    · exact ih _ hi f h
    · simp only [CountStage] at hs
      split at hs <;> simp at hs; exact Or.inr (Or.inl hs)

/-! ### Consequences for the graph -/

theorem Graph.noDangling_createVertex (h : g.NoDangling) (v : Vertex) : (g.createVertex v).NoDangling := by
  unfold Graph.createVertex
  split
  · intro e he
    have := h e he
    simp only [Graph.hasEndpoints, Graph.putVertex, Bool.and_eq_true] at this ⊢
    constructor
    · split
      · rfl
      · exact this.1
    · split
      · rfl
      · exact this.2
  · exact h

theorem Graph.noDangling_createEdge (h : g.NoDangling) (x : Edge) : (g.createEdge x).NoDangling := by
  unfold Graph.createEdge
  split
  · rename_i hx
    intro e he
    simp only [Graph.putEdge, Bool.or_eq_true, decide_eq_true_eq] at he
    rcases he with rfl | he
    · exact hx
    · exact h e he
  · exact h

theorem Graph.noDangling_bulk (items : List BulkInsertItem) : ∀ {g : Graph}, g.NoDangling →
    (items.foldl Graph.bulkItem g).NoDangling := by
  induction items with
  | nil => intro g h; exact h
  | cons a r ih =>
    intro g h
    refine ih ?_
    cases a with
    | vertex v => exact Graph.noDangling_createVertex h v
    | edge e => exact Graph.noDangling_createEdge h e
    | vertexProperty id n v => exact h
    | edgeProperty e n v => exact h

theorem Graph.noDangling_dropVertices (h : g.NoDangling) (ids : List Uuid) : (g.dropVertices ids).NoDangling := by
  intro e he
  simp only [Graph.dropVertices] at he
  split at he
  · exact absurd he (by simp)
  · rename_i hnt
    have := h e he
    simp only [Graph.touches, not_or] at hnt
    simp only [Graph.hasEndpoints, Graph.dropVertices, hnt.1, hnt.2, if_false] at this ⊢
    exact this

/-- Calls with the intended meaning never create dangling edges. -/
theorem Step.noDangling {op : Op} {g' : Graph} {r : Res Reply} (h : Step Sem.intended C I g op g' r)
    (hd : g.NoDangling) : g'.NoDangling := by
  obtain ⟨ans, hans, h⟩ := h
  cases op with
  | sync => rw [h.1]; exact hd
  | createVertex v => rw [h.1]; exact Graph.noDangling_createVertex hd v
  | createVertexFromType id t => rw [h.1]; exact Graph.noDangling_createVertex hd _
  | createEdge e => rw [h.1]; exact Graph.noDangling_createEdge hd e
  | get q => rw [h.1]; exact hd
  | delete q =>
    have haq := hans q
    simp only [StepWith] at h
    generalize ans q = a at h haq
    cases a with
    | error f => rw [h.1]; exact hd
    | ok p =>
      obtain ⟨inc, v⟩ := p
      cases v with
      | vertices vs => rw [h.1]; exact Graph.noDangling_dropVertices hd _
      | edges es =>
        rw [h.1]
        intro e he
        simp only [Sem.intended, Graph.dropEdges] at he
        split at he
        · exact absurd he (by simp)
        · exact hd e he
      | vertexProperties l => rw [h.1]; exact hd
      | edgeProperties l => rw [h.1]; exact hd
      | count n => rw [h.1]; exact hd
  | setProperties q n x =>
    have haq := hans q
    simp only [StepWith] at h
    generalize ans q = a at h haq
    cases a with
    | error f => rw [h.1]; exact hd
    | ok p =>
      obtain ⟨inc, v⟩ := p
      cases v <;> (rw [h.1]; exact hd)
  | bulkInsert items => rw [h.1]; exact Graph.noDangling_bulk items hd
  | indexProperty n => rw [h.1]; exact hd

theorem Graph.noOrphans_createVertex (h : g.NoOrphans) (v : Vertex) : (g.createVertex v).NoOrphans := by
  unfold Graph.createVertex
  split
  · refine ⟨?_, h.2⟩
    intro i n hi
    simp only [Graph.putVertex] at hi ⊢
    split
    · simp
    · exact h.1 i n hi
  · exact h

theorem Graph.noOrphans_createEdge (h : g.NoOrphans) (e : Edge) : (g.createEdge e).NoOrphans := by
  unfold Graph.createEdge
  split
  · refine ⟨h.1, ?_⟩
    intro i n hi
    simp only [Graph.putEdge, Bool.or_eq_true, decide_eq_true_eq] at hi ⊢
    right; exact h.2 i n hi
  · exact h

theorem Graph.noOrphans_putVProps (h : g.NoOrphans) {ids : List Uuid} (hi : ∀ i ∈ ids, g.vertex i ≠ none)
    (n : Identifier) (v : Json) : (g.putVProps ids n v).NoOrphans := by
  refine ⟨?_, h.2⟩
  intro i m hm
  simp only [Graph.putVProps] at hm ⊢
  split at hm
  · rename_i hc; exact hi i hc.1
  · exact h.1 i m hm

theorem Graph.noOrphans_putEProps (h : g.NoOrphans) {es : List Edge} (hi : ∀ e ∈ es, g.edge e = true)
    (n : Identifier) (v : Json) : (g.putEProps es n v).NoOrphans := by
  refine ⟨h.1, ?_⟩
  intro i m hm
  simp only [Graph.putEProps] at hm ⊢
  split at hm
  · rename_i hc; exact hi i hc.1
  · exact h.2 i m hm

theorem Graph.noOrphans_bulk (items : List BulkInsertItem) : ∀ {g : Graph}, g.NoOrphans →
    ItemsChecked Graph.bulkItem g items → (items.foldl Graph.bulkItem g).NoOrphans := by
  induction items with
  | nil => intro g h _; exact h
  | cons a r ih =>
    intro g h hc
    refine ih ?_ hc.2
    cases a with
    | vertex v => exact Graph.noOrphans_createVertex h v
    | edge e => exact Graph.noOrphans_createEdge h e
    | vertexProperty id n v => exact Graph.noOrphans_putVProps h (by simpa using hc.1) n v
    | edgeProperty e n v => exact Graph.noOrphans_putEProps h (by simpa using hc.1) n v

theorem Graph.noOrphans_dropVertices (h : g.NoOrphans) (ids : List Uuid) : (g.dropVertices ids).NoOrphans := by
  constructor
  · intro i n hi
    simp only [Graph.dropVertices] at hi ⊢
    split at hi
    · exact absurd rfl hi
    · rename_i hn; rw [if_neg hn]; exact h.1 i n hi
  · intro e n he
    simp only [Graph.dropVertices] at he ⊢
    split at he
    · exact absurd rfl he
    · rename_i hn
      have := h.2 e n he
      rw [if_neg]
      · exact this
      · intro ht; exact hn ⟨ht, this⟩

theorem Graph.noOrphans_dropEdges (h : g.NoOrphans) (es : List Edge) : (g.dropEdges es).NoOrphans := by
  refine ⟨h.1, ?_⟩
  intro e n he
  simp only [Graph.dropEdges] at he ⊢
  split at he
  · exact absurd rfl he
  · rename_i hn; rw [if_neg hn]; exact h.2 e n he

theorem Graph.noOrphans_dropVProps (h : g.NoOrphans) (ps : List (Uuid × Identifier)) : (g.dropVProps ps).NoOrphans := by
  refine ⟨?_, h.2⟩
  intro i n hi
  simp only [Graph.dropVProps] at hi ⊢
  split at hi
  · exact absurd rfl hi
  · exact h.1 i n hi

theorem Graph.noOrphans_dropEProps (h : g.NoOrphans) (ps : List (Edge × Identifier)) : (g.dropEProps ps).NoOrphans := by
  refine ⟨h.1, ?_⟩
  intro i n hi
  simp only [Graph.dropEProps] at hi ⊢
  split at hi
  · exact absurd rfl hi
  · exact h.2 i n hi

/-- Checked calls never create orphan properties. -/
theorem Step.noOrphans {b : Build} {op : Op} {g' : Graph} {r : Res Reply} (h : Step Sem.intended C I g op g' r)
    (ho : g.NoOrphans) (hc : op.Checked b g) (hI : ∀ n v e, I.eValue n v e = true → g.edge e = true)
    (hP : b = .debug → ∀ n e, I.ePresent n e = true → g.edge e = true) : g'.NoOrphans := by
  obtain ⟨ans, hans, h⟩ := h
  cases op with
  | sync => rw [h.1]; exact ho
  | createVertex v => rw [h.1]; exact Graph.noOrphans_createVertex ho v
  | createVertexFromType id t => rw [h.1]; exact Graph.noOrphans_createVertex ho _
  | createEdge e => rw [h.1]; exact Graph.noOrphans_createEdge ho e
  | get q => rw [h.1]; exact ho
  | delete q =>
    have haq := hans q
    simp only [StepWith] at h
    generalize ans q = a at h haq
    cases a with
    | error f => rw [h.1]; exact ho
    | ok p =>
      obtain ⟨inc, v⟩ := p
      cases v with
      | vertices vs => rw [h.1]; exact Graph.noOrphans_dropVertices ho _
      | edges es => rw [h.1]; exact Graph.noOrphans_dropEdges ho _
      | vertexProperties l => rw [h.1]; exact Graph.noOrphans_dropVProps ho _
      | edgeProperties l => rw [h.1]; exact Graph.noOrphans_dropEProps ho _
      | count n => rw [h.1]; exact ho
  | setProperties q n x =>
    have haq := hans q
    simp only [StepWith] at h
    generalize ans q = a at h haq
    cases a with
    | error f => rw [h.1]; exact ho
    | ok p =>
      obtain ⟨inc, v⟩ := p
      cases v with
      | vertices vs =>
        rw [h.1]
        refine Graph.noOrphans_putVProps ho ?_ _ _
        intro i hi
        rw [List.mem_map] at hi
        obtain ⟨v, hv, rfl⟩ := hi
        rw [answers_vertices_exist haq v hv]; simp
      | edges es =>
        rw [h.1]
        refine Graph.noOrphans_putEProps ho ?_ _ _
        rcases hc with hb | hl
        · exact answers_edges_exist' hI (hP hb) haq
        · exact answers_edges_exist hI hl haq
      | _ => rw [h.1]; exact ho
  | bulkInsert items => rw [h.1]; exact Graph.noOrphans_bulk items ho hc
  | indexProperty n => rw [h.1]; exact ho

/-- Does the database contain the vertex with the greatest id? Never, if nobody creates it. -/
theorem Step.avoidsMax {op : Op} {g' : Graph} {r : Res Reply} (h : Step Sem.intended C I g op g' r)
    (hm : g.vertex Uuid.max = none) (ha : op.AvoidsMax) : g'.vertex Uuid.max = none := by
  have hcv : ∀ (g : Graph) (v : Vertex), g.vertex Uuid.max = none → v.id ≠ Uuid.max →
      (g.createVertex v).vertex Uuid.max = none := by
    intro g v h1 h2
    unfold Graph.createVertex
    split
    · simp only [Graph.putVertex]; rw [if_neg (fun h => h2 h.symm)]; exact h1
    · exact h1
  obtain ⟨ans, hans, h⟩ := h
  cases op with
  | sync => rw [h.1]; exact hm
  | createVertex v => rw [h.1]; exact hcv g v hm ha
  | createVertexFromType id t => rw [h.1]; exact hcv g _ hm ha
  | createEdge e =>
    rw [h.1]; unfold Graph.createEdge; split <;> exact hm
  | get q => rw [h.1]; exact hm
  | delete q =>
    have haq := hans q
    simp only [StepWith] at h
    generalize ans q = a at h haq
    cases a with
    | error f => rw [h.1]; exact hm
    | ok p =>
      obtain ⟨inc, v⟩ := p
      cases v with
      | vertices vs => rw [h.1]; simp only [Sem.intended, Graph.dropVertices]; split <;> first | rfl | exact hm
      | _ => rw [h.1]; exact hm
  | setProperties q n x =>
    have haq := hans q
    simp only [StepWith] at h
    generalize ans q = a at h haq
    cases a with
    | error f => rw [h.1]; exact hm
    | ok p =>
      obtain ⟨inc, v⟩ := p
      cases v <;> (rw [h.1]; exact hm)
  | bulkInsert items =>
    rw [h.1]
    clear h hans
    simp only [Op.AvoidsMax] at ha
    induction items generalizing g with
    | nil => exact hm
    | cons a r ih =>
      refine ih ?_ (fun v hv => ha v (by simp [hv]))
      cases a with
      | vertex v => exact hcv g v hm (ha v (by simp))
      | edge e => simp only [Sem.intended, Graph.bulkItem]; unfold Graph.createEdge; split <;> exact hm
      | vertexProperty id n v => exact hm
      | edgeProperty e n v => exact hm
  | indexProperty n => rw [h.1]; exact hm

end IndraDB
