import Verif.Spec.Made
import Verif.Proofs.Closed
import Verif.Proofs.Session
import Verif.Proofs.Store
/-
A database contains only what was put in.
-/
namespace IndraDB

/-- The vertices and edges of the graph are in the lists. -/
structure Graph.In (L : List Vertex) (E : List Edge) (g : Graph) : Prop where
  vertex : ∀ v : Vertex, g.vertex v.id = some v.t → v ∈ L
  edge : ∀ e, g.edge e = true → e ∈ E

/-- The meaning of writes makes up nothing. -/
structure Sem.Makes (Sm : Sem) : Prop where
  dropVertices : ∀ g ids v t, (Sm.dropVertices g ids).vertex v = some t → g.vertex v = some t
  dropVertices_edge : ∀ g ids e, (Sm.dropVertices g ids).edge e = true → g.edge e = true
  dropEdges : ∀ g es, (Sm.dropEdges g es).vertex = g.vertex
  dropEdges_edge : ∀ g es e, (Sm.dropEdges g es).edge e = true → g.edge e = true
  bulkVertex : ∀ g i (v : Vertex), (Sm.bulkItem g i).vertex v.id = some v.t → g.vertex v.id = some v.t ∨ i = .vertex v
  bulkEdge : ∀ g i e, (Sm.bulkItem g i).edge e = true → g.edge e = true ∨ i = .edge e

theorem Graph.putVertex_made {g : Graph} {w v : Vertex} (h : (g.putVertex w.id w.t).vertex v.id = some v.t) :
    g.vertex v.id = some v.t ∨ v = w := by
  simp only [Graph.putVertex] at h
  split at h
  · rename_i hc
    cases v; cases w; simp only at hc; cases h; cases hc; exact .inr rfl
  · exact .inl h

theorem Graph.putEdge_made {g : Graph} {w e : Edge} (h : (g.putEdge w).edge e = true) : g.edge e = true ∨ e = w := by
  simp only [Graph.putEdge, Bool.or_eq_true, decide_eq_true_eq] at h
  exact h.symm

theorem Graph.createVertex_made {g : Graph} {w v : Vertex} (h : (g.createVertex w).vertex v.id = some v.t) :
    g.vertex v.id = some v.t ∨ v = w := by
  unfold Graph.createVertex at h; split at h
  · exact Graph.putVertex_made h
  · exact .inl h

theorem Graph.createEdge_made {g : Graph} {w e : Edge} (h : (g.createEdge w).edge e = true) : g.edge e = true ∨ e = w := by
  unfold Graph.createEdge at h; split at h
  · exact Graph.putEdge_made h
  · exact .inl h

theorem Graph.createVertex_edge (g : Graph) (w : Vertex) : (g.createVertex w).edge = g.edge := by
  unfold Graph.createVertex; split <;> rfl
theorem Graph.createEdge_vertex (g : Graph) (w : Edge) : (g.createEdge w).vertex = g.vertex := by
  unfold Graph.createEdge; split <;> rfl

theorem Sem.intended_makes : Sem.intended.Makes where
  dropVertices := fun g ids v t h => by
    simp only [Sem.intended, Graph.dropVertices] at h; split at h <;> first | cases h | exact h
  dropVertices_edge := fun g ids e h => by
    simp only [Sem.intended, Graph.dropVertices] at h; split at h <;> first | cases h | exact h
  dropEdges := fun _ _ => rfl
  dropEdges_edge := fun g es e h => by
    simp only [Sem.intended, Graph.dropEdges] at h; split at h <;> first | cases h | exact h
  bulkVertex := fun g i v h => by
    cases i with
    | vertex w => exact (Graph.createVertex_made h).imp_right (fun e => by rw [e])
    | edge e => exact .inl (by rw [show Sem.intended.bulkItem g (.edge e) = g.createEdge e from rfl, Graph.createEdge_vertex] at h; exact h)
    | _ => exact .inl h
  bulkEdge := fun g i v h => by
    cases i with
    | edge w => exact (Graph.createEdge_made h).imp_right (fun e => by rw [e])
    | vertex e => exact .inl (by rw [show Sem.intended.bulkItem g (.vertex e) = g.createVertex e from rfl, Graph.createVertex_edge] at h; exact h)
    | _ => exact .inl h

theorem Sem.rocks_makes (X : Cfg) : (Sem.rocks X).Makes where
  dropVertices := fun g ids v t h => by
    simp only [Sem.rocks, Graph.rocksDropVertices] at h; split at h <;> first | cases h | exact h
  dropVertices_edge := fun g ids e h => by
    simp only [Sem.rocks, Graph.rocksDropVertices] at h; split at h <;> first | cases h | exact h
  dropEdges := fun _ _ => rfl
  dropEdges_edge := fun g es e h => by
    simp only [Sem.rocks, Graph.rocksDropEdges, Graph.dropEdges] at h; split at h <;> first | cases h | exact h
  bulkVertex := fun g i v h => by
    cases i with
    | vertex w => exact (Graph.putVertex_made h).imp_right (fun e => by rw [e])
    | _ => exact .inl h
  bulkEdge := fun g i v h => by
    cases i with
    | edge w => exact (Graph.putEdge_made h).imp_right (fun e => by rw [e])
    | _ => exact .inl h

theorem bulk_made {Sm : Sem} (hS : Sm.Makes) : ∀ (items : List BulkInsertItem) (g : Graph),
    (∀ v : Vertex, (items.foldl Sm.bulkItem g).vertex v.id = some v.t →
      g.vertex v.id = some v.t ∨ v ∈ (Op.bulkInsert items).newVertices) ∧
    ∀ e, (items.foldl Sm.bulkItem g).edge e = true → g.edge e = true ∨ e ∈ (Op.bulkInsert items).newEdges
  | [], _ => ⟨fun _ h => .inl h, fun _ h => .inl h⟩
  | i :: r, g => by
    obtain ⟨h1, h2⟩ := bulk_made hS r (Sm.bulkItem g i)
    refine ⟨?_, ?_⟩
    · intro v hv
      rcases h1 v hv with h | h
      · rcases hS.bulkVertex _ _ _ h with h | rfl
        · exact .inl h
        · exact .inr (by simp [Op.newVertices])
      · refine .inr ?_
        simp only [Op.newVertices, List.mem_filterMap] at h ⊢
        obtain ⟨a, ha, hb⟩ := h
        exact ⟨a, List.mem_cons_of_mem _ ha, hb⟩
    · intro v hv
      rcases h2 v hv with h | h
      · rcases hS.bulkEdge _ _ _ h with h | rfl
        · exact .inl h
        · exact .inr (by simp [Op.newEdges])
      · refine .inr ?_
        simp only [Op.newEdges, List.mem_filterMap] at h ⊢
        obtain ⟨a, ha, hb⟩ := h
        exact ⟨a, List.mem_cons_of_mem _ ha, hb⟩

/-- One call makes up nothing. -/
theorem stepWith_made {Sm : Sem} (hS : Sm.Makes) {g g' : Graph} {ans : Query → Res (List Output × Output)} {op : Op}
    {r : Res Reply} (h : StepWith Sm g ans op g' r) :
    (∀ v : Vertex, g'.vertex v.id = some v.t → g.vertex v.id = some v.t ∨ v ∈ op.newVertices) ∧
    ∀ e, g'.edge e = true → g.edge e = true ∨ e ∈ op.newEdges := by
  cases op with
  | sync => obtain ⟨rfl, rfl⟩ := h; exact ⟨fun _ h => .inl h, fun _ h => .inl h⟩
  | createVertex w =>
    obtain ⟨rfl, rfl⟩ := h
    exact ⟨fun v h => (Graph.createVertex_made h).imp_right (fun e => by simp [Op.newVertices, e]),
      fun e h => .inl (by rwa [Graph.createVertex_edge] at h)⟩
  | createVertexFromType id t =>
    obtain ⟨rfl, rfl⟩ := h
    exact ⟨fun v h => (Graph.createVertex_made (w := ⟨id, t⟩) h).imp_right (fun e => by simp [Op.newVertices, e]),
      fun e h => .inl (by rwa [Graph.createVertex_edge] at h)⟩
  | createEdge w =>
    obtain ⟨rfl, rfl⟩ := h
    exact ⟨fun v h => .inl (by rwa [Graph.createEdge_vertex] at h),
      fun e h => (Graph.createEdge_made h).imp_right (fun e => by simp [Op.newEdges, e])⟩
  | get q => obtain ⟨rfl, rfl⟩ := h; exact ⟨fun _ h => .inl h, fun _ h => .inl h⟩
  | delete q =>
    simp only [StepWith] at h
    cases hq : ans q with
    | error f => rw [hq] at h; obtain ⟨rfl, rfl⟩ := h; exact ⟨fun _ h => .inl h, fun _ h => .inl h⟩
    | ok p =>
      obtain ⟨inc, v⟩ := p
      rw [hq] at h
      cases v with
      | vertices vs =>
        obtain ⟨rfl, rfl⟩ := h
        exact ⟨fun v h => .inl (hS.dropVertices _ _ _ _ h), fun e h => .inl (hS.dropVertices_edge _ _ _ h)⟩
      | edges vs =>
        obtain ⟨rfl, rfl⟩ := h
        exact ⟨fun v h => .inl (by rwa [hS.dropEdges] at h), fun e h => .inl (hS.dropEdges_edge _ _ _ h)⟩
      | vertexProperties l => obtain ⟨rfl, rfl⟩ := h; exact ⟨fun _ h => .inl h, fun _ h => .inl h⟩
      | edgeProperties l => obtain ⟨rfl, rfl⟩ := h; exact ⟨fun _ h => .inl h, fun _ h => .inl h⟩
      | count n => obtain ⟨rfl, rfl⟩ := h; exact ⟨fun _ h => .inl h, fun _ h => .inl h⟩
  | setProperties q n x =>
    simp only [StepWith] at h
    cases hq : ans q with
    | error f => rw [hq] at h; obtain ⟨rfl, rfl⟩ := h; exact ⟨fun _ h => .inl h, fun _ h => .inl h⟩
    | ok p =>
      obtain ⟨inc, v⟩ := p
      rw [hq] at h
      cases v with
      | _ => obtain ⟨rfl, rfl⟩ := h; exact ⟨fun _ h => .inl h, fun _ h => .inl h⟩
  | bulkInsert items => obtain ⟨rfl, rfl⟩ := h; exact bulk_made hS items g
  | indexProperty n => obtain ⟨rfl, rfl⟩ := h; exact ⟨fun _ h => .inl h, fun _ h => .inl h⟩

theorem Store.run_alive {S : Store} {C : Conv} {Sm : Sem} (F : Conforms S C Sm) : ∀ (hist : List (S.Env × Op)) (s : S.State),
    S.alive (S.run hist s) = true → S.alive s = true
  | [], _, h => h
  | (env, op) :: r, s, h => F.alive_back s env op (Store.run_alive F r _ h)

/-- The invariant. -/
theorem Conforms.graph_in {S : Store} {C : Conv} {Sm : Sem} (F : Conforms S C Sm) (hS : Sm.Makes)
    (h0 : (S.graph S.init).In [] []) : ∀ hist, S.OkHist hist → S.alive (S.run hist S.init) = true →
    (S.graph (S.run hist S.init)).In (hist.flatMap (·.2.newVertices)) (hist.flatMap (·.2.newEdges)) := by
  intro hist
  generalize hn : hist.length = n
  induction n generalizing hist with
  | zero => cases List.length_eq_zero_iff.1 hn; exact fun _ _ => h0
  | succ n ih =>
    intro ho ha
    have hne : hist ≠ [] := by rintro rfl; cases hn
    obtain ⟨h1, p, rfl⟩ : ∃ h1 p, hist = h1 ++ [p] := ⟨_, _, (List.dropLast_concat_getLast hne).symm⟩
    obtain ⟨env, op⟩ := p
    have hv : op.ValuesOk S.okValue := ho (env, op) (List.mem_append_right _ List.mem_cons_self)
    have ho1 : S.OkHist h1 := fun p hp => ho p (List.mem_append_left _ hp)
    have hrun : S.run (h1 ++ [(env, op)]) S.init = (S.step env op (S.run h1 S.init)).1 := by rw [Store.run_append]; rfl
    rw [hrun] at ha ⊢
    have ha1 := F.alive_back _ _ _ ha
    have hr : S.Reach (S.run h1 S.init) := ⟨h1, rfl, ha1, ho1⟩
    have hi := ih h1 (by simpa using hn) ho1 ha1
    obtain ⟨k1, k2⟩ := stepWith_made hS (F.stepWith hr env op hv (F.alive_ok _ hr env op hv ha))
    refine ⟨fun v h => ?_, fun e h => ?_⟩
    · rw [List.flatMap_append]
      rcases k1 v h with h | h
      · exact List.mem_append_left _ (hi.vertex v h)
      · exact List.mem_append_right _ (by simpa using h)
    · rw [List.flatMap_append]
      rcases k2 e h with h | h
      · exact List.mem_append_left _ (hi.edge e h)
      · exact List.mem_append_right _ (by simpa using h)

/-- A list without repetitions is at most as long as a list with its elements. -/
theorem nodup_length_le {α : Type} [DecidableEq α] : ∀ (l L : List α), l.Pairwise (· ≠ ·) → (∀ x ∈ l, x ∈ L) → l.length ≤ L.length
  | [], _, _, _ => Nat.zero_le _
  | a :: r, L, h, hs => by
    have ha : a ∈ L := hs a List.mem_cons_self
    have := nodup_length_le r (L.erase a) (List.pairwise_cons.1 h).2 (fun x hx =>
      (List.mem_erase_of_ne (Ne.symm ((List.pairwise_cons.1 h).1 x hx))).2 (hs x (List.mem_cons_of_mem _ hx)))
    rw [List.length_erase_of_mem ha] at this
    have hp := List.length_pos_of_mem ha
    simp only [List.length_cons]; omega

theorem Enumerates.length_le {α : Type} [DecidableEq α] {lt : α → α → Bool} (hirr : ∀ a, lt a a = false) {l L : List α} {P : α → Prop}
    (h : Enumerates lt l P) (hL : ∀ x, P x → x ∈ L) : l.length ≤ L.length :=
  nodup_length_le l L (h.sorted.imp (fun hab e => by subst e; rw [hirr] at hab; cases hab)) (fun x hx => hL x ((h.mem x).1 hx))

theorem Conforms.onlyMade {S : Store} {C : Conv} {Sm : Sem} (F : Conforms S C Sm) (hS : Sm.Makes)
    (h0 : (S.graph S.init).In [] [])
    (hA : ∀ env op s r, (S.step env op s).2 = .ok r → S.alive s = true) : S.OnlyMade := by
  intro hist ho env
  have alive : ∀ q l, S.ask env q (S.run hist S.init) = .ok l → S.alive (S.run hist S.init) = true := by
    intro q l h
    unfold Store.ask at h
    split at h
    · rename_i e; exact hA _ _ _ _ e
    · cases h
    · cases h
  have vs : ∀ l, S.alive (S.run hist S.init) = true → Enumerates vertexLt l (fun v => (S.graph (S.run hist S.init)).vertex v.id = some v.t) →
      (∀ v ∈ l, v ∈ hist.flatMap (·.2.newVertices)) ∧ l.length ≤ (hist.flatMap (·.2.newVertices)).length := fun l ha he =>
    ⟨fun v hv => (F.graph_in hS h0 hist ho ha).vertex v ((he.mem v).1 hv),
      Enumerates.length_le (lt := vertexLt) (fun v => Order.irrefl v.id) he (F.graph_in hS h0 hist ho ha).vertex⟩
  have es : ∀ l, S.alive (S.run hist S.init) = true → Enumerates C.edgeLt l (fun e => (S.graph (S.run hist S.init)).edge e = true) →
      (∀ v ∈ l, v ∈ hist.flatMap (·.2.newEdges)) ∧ l.length ≤ (hist.flatMap (·.2.newEdges)).length := fun l ha he =>
    ⟨fun v hv => (F.graph_in hS h0 hist ho ha).edge v ((he.mem v).1 hv),
      he.length_le C.edge_irrefl (F.graph_in hS h0 hist ho ha).edge⟩
  refine ⟨?_, ?_, ?_, ?_⟩
  · intro l hl
    have ha := alive _ _ hl
    obtain ⟨l', he, hl'⟩ := (F.vertexQueries _ ⟨hist, rfl, ha, ho⟩ env).1
    rw [hl] at hl'; cases hl'
    exact vs l ha he
  · intro l hl
    have ha := alive _ _ hl
    obtain ⟨l', he, hl'⟩ := (F.edgeQueries _ ⟨hist, rfl, ha, ho⟩ env).1
    rw [hl] at hl'; cases hl'
    exact es l ha he
  · intro l hl
    have ha := alive _ _ hl
    have hr : S.Reach (S.run hist S.init) := ⟨hist, rfl, ha, ho⟩
    have hl2 := hl
    obtain ⟨l', he, hq⟩ : ∃ l', _ ∧ eval (F.reads env (S.run hist S.init)) .allVertex = .ok ([], .vertices l') :=
      F.answers hr env .allVertex
    rw [F.ask_eq hr, eval_count (F.faithful _ hr env), hq] at hl2
    cases hl2
    exact ⟨_, rfl, (vs l' ha he).2⟩
  · intro l hl
    have ha := alive _ _ hl
    have hr : S.Reach (S.run hist S.init) := ⟨hist, rfl, ha, ho⟩
    have hl2 := hl
    obtain ⟨l', he, hq⟩ : ∃ l', _ ∧ eval (F.reads env (S.run hist S.init)) .allEdge = .ok ([], .edges l') :=
      F.answers hr env .allEdge
    rw [F.ask_eq hr, eval_count (F.faithful _ hr env), hq] at hl2
    cases hl2
    exact ⟨_, rfl, (es l' ha he).2⟩

theorem means_newVertices {letter : Char → Bool} {F : Floats} {g : Uuid} {c : Command} {op : Op} (h : c.Means letter F g op) :
    op.newVertices.length ≤ 1 ∧ op.newEdges.length ≤ 1 := by
  cases h <;> simp [Op.newVertices, Op.newEdges]

end IndraDB
