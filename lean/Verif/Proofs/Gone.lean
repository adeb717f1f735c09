import Verif.Spec.Gone
import Verif.Proofs.Stays
/-
What was deleted is gone until it is put in again.
-/
set_option linter.unusedSimpArgs false
namespace IndraDB

/-- Deletions remove what they are given (edges: if `hold`), and no write makes up properties. -/
structure Sem.Drops (Sm : Sem) (hold : Graph → Edge → Prop) : Prop where
  vertex : ∀ g ids id, id ∈ ids → (Sm.dropVertices g ids).vertex id = none
  edge : ∀ g es e, e ∈ es → hold g e → (Sm.dropEdges g es).edge e = false
  vprop : ∀ g ids id n, g.vprop id n = none → (Sm.dropVertices g ids).vprop id n = none
  eprop : ∀ g ids e n, g.eprop e n = none → (Sm.dropVertices g ids).eprop e n = none
  vprop' : ∀ g es id n, g.vprop id n = none → (Sm.dropEdges g es).vprop id n = none
  eprop' : ∀ g es e n, g.eprop e n = none → (Sm.dropEdges g es).eprop e n = none

theorem Sem.intended_drops : Sem.intended.Drops (fun _ _ => True) where
  vertex := fun g ids id h => by simp only [Sem.intended, Graph.dropVertices, if_pos h]
  edge := fun g es e h _ => by simp only [Sem.intended, Graph.dropEdges, if_pos h]
  vprop := fun g ids id n h => by simp only [Sem.intended, Graph.dropVertices]; split <;> first | rfl | exact h
  eprop := fun g ids id n h => by simp only [Sem.intended, Graph.dropVertices]; split <;> first | rfl | exact h
  vprop' := fun g ids id n h => h
  eprop' := fun g ids id n h => by simp only [Sem.intended, Graph.dropEdges]; split <;> first | rfl | exact h

theorem Sem.rocks_drops (X : Cfg) : (Sem.rocks X).Drops (fun g e => (g.vertex e.outboundId).isSome = true) where
  vertex := fun g ids id h => by simp only [Sem.rocks, Graph.rocksDropVertices, if_pos h]
  edge := fun g es e h hs => by
    simp only [Sem.rocks, Graph.rocksDropEdges, Graph.dropEdges]
    exact if_pos (List.mem_filter.2 ⟨h, hs⟩)
  vprop := fun g ids id n h => by simp only [Sem.rocks, Graph.rocksDropVertices]; split <;> first | rfl | exact h
  eprop := fun g ids id n h => by simp only [Sem.rocks, Graph.rocksDropVertices]; split <;> first | rfl | exact h
  vprop' := fun g ids id n h => h
  eprop' := fun g ids id n h => by simp only [Sem.rocks, Graph.rocksDropEdges, Graph.dropEdges]; split <;> first | rfl | exact h

/-- A call that does not write a property leaves it missing. -/
theorem stepWith_missing {Sm : Sem} {hold : Graph → Edge → Prop} {bad : Vertex → BulkInsertItem → Prop} (hD : Sm.Drops hold) (hK : Sm.Keeps bad)
    {g g' : Graph} {ans : Query → Res (List Output × Output)} {op : Op} {r : Res Reply} (h : StepWith Sm g ans op g' r) :
    (∀ id n, (∀ q x, op ≠ .setProperties q n x) → (∀ items, op = .bulkInsert items → ∀ i ∈ items, ∀ x, i ≠ .vertexProperty id n x) →
      g.vprop id n = none → g'.vprop id n = none) ∧
    (∀ e n, (∀ q x, op ≠ .setProperties q n x) → (∀ items, op = .bulkInsert items → ∀ i ∈ items, ∀ x, i ≠ .edgeProperty e n x) →
      g.eprop e n = none → g'.eprop e n = none) := by
  by_cases hd : ∃ q, op = .delete q
  · obtain ⟨q, rfl⟩ := hd
    simp only [StepWith] at h
    cases hq : ans q with
    | error f => rw [hq] at h; obtain ⟨rfl, -⟩ := h; exact ⟨fun _ _ _ _ h => h, fun _ _ _ _ h => h⟩
    | ok p =>
      obtain ⟨inc, v⟩ := p
      rw [hq] at h
      cases v with
      | vertices vs => obtain ⟨rfl, -⟩ := h; exact ⟨fun _ _ _ _ h => hD.vprop _ _ _ _ h, fun _ _ _ _ h => hD.eprop _ _ _ _ h⟩
      | edges vs => obtain ⟨rfl, -⟩ := h; exact ⟨fun _ _ _ _ h => hD.vprop' _ _ _ _ h, fun _ _ _ _ h => hD.eprop' _ _ _ _ h⟩
      | vertexProperties l =>
        obtain ⟨rfl, -⟩ := h
        refine ⟨fun _ _ _ _ h => ?_, fun _ _ _ _ h => h⟩
        simp only [Graph.dropVProps]; split <;> first | rfl | exact h
      | edgeProperties l =>
        obtain ⟨rfl, -⟩ := h
        refine ⟨fun _ _ _ _ h => h, fun _ _ _ _ h => ?_⟩
        simp only [Graph.dropEProps]; split <;> first | rfl | exact h
      | count n => obtain ⟨rfl, -⟩ := h; exact ⟨fun _ _ _ _ h => h, fun _ _ _ _ h => h⟩
  · obtain ⟨_, _, _, k4, k5⟩ := stepWith_keeps hK h (fun q e => hd ⟨q, e⟩)
    exact ⟨fun id n h1 h2 h => (k4 id n h1 h2).trans h, fun e n h1 h2 h => (k5 e n h1 h2).trans h⟩

section
variable {S : Store} {C : Conv} {Sm : Sem} (F : Conforms S C Sm)
include F
variable (hA : ∀ env op s r, (S.step env op s).2 = .ok r → S.alive s = true)
include hA

theorem Conforms.verticesGone {hold : Graph → Edge → Prop} (hD : Sm.Drops hold) (hM : Sm.Makes) : S.VerticesGone := by
  intro h1 env q vs v h2 ho hval hv hok hn env' l hl w hw
  have ha := F.ask_alive hA hl
  obtain ⟨hr, hst⟩ := F.at_split hA ho ha
  obtain ⟨inc, hev⟩ := F.value_ok hr hval
  simp only [StepWith, hev, DeleteValue] at hst
  obtain ⟨hg, -⟩ := hst
  have h0 : ∀ t, (S.graph (S.run (h1 ++ [(env, .delete q)]) S.init)).vertex v.id ≠ some t := by
    intro t
    rw [hg, hD.vertex _ _ _ (List.mem_map.2 ⟨v, hv, rfl⟩)]; nofun
  have e : h1 ++ (env, .delete q) :: h2 = (h1 ++ [(env, .delete q)]) ++ h2 := by simp
  have hr2 : S.Reach (S.run (h1 ++ (env, .delete q) :: h2) S.init) := ⟨_, rfl, ha, ho⟩
  obtain ⟨l', he, hl'⟩ := (F.vertexQueries _ hr2 env').1
  rw [hl] at hl'; cases hl'
  have hw' := (he.mem w).1 hw
  intro hid
  rw [e] at ho ha hw'
  have := F.kept (P := fun g => ∀ t, g.vertex v.id ≠ some t) (Q := fun op => ∀ w ∈ op.newVertices, w.id ≠ v.id)
    (fun g ans op g' r h hq hp t ht => by
      rcases (stepWith_made hM h).1 ⟨v.id, t⟩ ht with h | h
      · exact hp t h
      · exact hq _ h rfl) h2 _ ho ha (fun p hp => hn p hp) h0
  rw [hid] at hw'
  exact this _ hw'

theorem Conforms.edgesGone {hold : Graph → Edge → Prop} (hD : Sm.Drops hold) (hM : Sm.Makes) {holds : S.Env → Edge → S.State → Prop}
    (hh : ∀ s, S.Reach s → ∀ env e, holds env e s → hold (S.graph s) e) : S.EdgesGone holds := by
  intro h1 env q es v h2 ho hval hv hhold hok hn env' l hl hw
  have ha := F.ask_alive hA hl
  obtain ⟨hr, hst⟩ := F.at_split hA ho ha
  obtain ⟨inc, hev⟩ := F.value_ok hr hval
  simp only [StepWith, hev, DeleteValue] at hst
  obtain ⟨hg, -⟩ := hst
  have h0 : ¬ (S.graph (S.run (h1 ++ [(env, .delete q)]) S.init)).edge v = true := by
    rw [hg, hD.edge _ _ _ hv (hh _ hr _ _ hhold)]; nofun
  have e : h1 ++ (env, .delete q) :: h2 = (h1 ++ [(env, .delete q)]) ++ h2 := by simp
  have hr2 : S.Reach (S.run (h1 ++ (env, .delete q) :: h2) S.init) := ⟨_, rfl, ha, ho⟩
  obtain ⟨l', he, hl'⟩ := (F.edgeQueries _ hr2 env').1
  rw [hl] at hl'; cases hl'
  have hw' := (he.mem v).1 hw
  rw [e] at ho ha hw'
  exact F.kept (P := fun g => ¬ g.edge v = true) (Q := fun op => v ∉ op.newEdges)
    (fun g ans op g' r h hq hp ht => by
      rcases (stepWith_made hM h).2 v ht with h | h
      · exact hp h
      · exact hq h) h2 _ ho ha (fun p hp => hn p hp) h0 hw'

theorem Conforms.vertexPropertiesGone {hold : Graph → Edge → Prop} {bad : Vertex → BulkInsertItem → Prop} (hD : Sm.Drops hold)
    (hK : Sm.Keeps bad) : S.VertexPropertiesGone := by
  intro h1 env q ps p np h2 ho hval hp hnp hok hn env' l hl
  have ha := F.ask_alive hA hl
  obtain ⟨hr, hst⟩ := F.at_split hA ho ha
  obtain ⟨inc, hev⟩ := F.value_ok hr hval
  simp only [StepWith, hev, DeleteValue] at hst
  obtain ⟨hg, -⟩ := hst
  have h0 : (S.graph (S.run (h1 ++ [(env, .delete q)]) S.init)).vprop p.vertex.id np.name = none := by
    rw [hg]
    exact if_pos (List.mem_flatMap.2 ⟨p, hp, List.mem_map.2 ⟨np, hnp, rfl⟩⟩)
  have e : h1 ++ (env, .delete q) :: h2 = (h1 ++ [(env, .delete q)]) ++ h2 := by simp
  have hr2 : S.Reach (S.run (h1 ++ (env, .delete q) :: h2) S.init) := ⟨_, rfl, ha, ho⟩
  have hend : (S.graph (S.run (h1 ++ (env, .delete q) :: h2) S.init)).vprop p.vertex.id np.name = none := by
    rw [e] at ho ha ⊢
    exact F.kept (P := fun g => g.vprop p.vertex.id np.name = none)
      (Q := fun op => (∀ q x, op ≠ .setProperties q np.name x) ∧
        ∀ items, op = .bulkInsert items → ∀ i ∈ items, ∀ x, i ≠ .vertexProperty p.vertex.id np.name x)
      (fun g ans op g' r h hq hp => (stepWith_missing hD hK h).1 _ _ hq.1 hq.2 hp) h2 _ ho ha
      (fun p hp => ⟨(hn p hp).1, fun items hi i hi' x hx => (hn p hp).2 items hi i hi' ⟨x, hx⟩⟩) h0
  have h3 : S.value env' (.specificVertex [p.vertex.id]) (S.run (h1 ++ (env, .delete q) :: h2) S.init) =
      .ok (.vertices ((S.graph (S.run (h1 ++ (env, .delete q) :: h2) S.init)).lookup [p.vertex.id])) := by
    unfold Store.value
    rw [(F.vertexQueries _ hr2 env').2.2 [p.vertex.id]]
    rfl
  have h4 := ((F.pipeProperties _ hr2 env' (.specificVertex [p.vertex.id])).1 _ h3).1 np.name
  have h7 : ((S.graph (S.run (h1 ++ (env, .delete q) :: h2) S.init)).lookup [p.vertex.id]).filterMap (fun v =>
      ((S.graph (S.run (h1 ++ (env, .delete q) :: h2) S.init)).vprop v.id np.name).map (fun x => (⟨v, [⟨np.name, x⟩]⟩ : VertexProperties))) = [] := by
    rw [List.filterMap_eq_nil_iff]
    intro a ha
    simp only [Graph.lookup, List.filterMap_cons, List.filterMap_nil] at ha
    split at ha
    · cases ha
    · rename_i hx
      obtain ⟨t, _, rfl⟩ := Option.map_eq_some_iff.1 hx
      cases List.mem_singleton.1 ha
      rw [hend]; rfl
  rw [h7] at h4
  obtain ⟨inc, h5⟩ := F.value_ok hr2 h4
  rw [F.ask_eq hr2, h5] at hl
  have h6 := F.answers hr2 env' (.pipeProperty (.specificVertex [p.vertex.id]) (some np.name))
  rw [h5] at h6
  have : inc = [] := by
    obtain ⟨ri, a1, a2⟩ := h6
    simp only [Answers] at a1
    subst a1
    obtain ⟨rv, _, hrv⟩ := a2
    cases rv with
    | error f => cases hrv
    | ok w => cases hrv; rfl
  subst this
  cases hl
  rfl

theorem Conforms.edgePropertiesGone {hold : Graph → Edge → Prop} {bad : Vertex → BulkInsertItem → Prop} (hD : Sm.Drops hold)
    (hK : Sm.Keeps bad) : S.EdgePropertiesGone := by
  intro h1 env q ps p np h2 ho hval hp hnp hok hn env' l hl
  have ha := F.ask_alive hA hl
  obtain ⟨hr, hst⟩ := F.at_split hA ho ha
  obtain ⟨inc, hev⟩ := F.value_ok hr hval
  simp only [StepWith, hev, DeleteValue] at hst
  obtain ⟨hg, -⟩ := hst
  have h0 : (S.graph (S.run (h1 ++ [(env, .delete q)]) S.init)).eprop p.edge np.name = none := by
    rw [hg]
    exact if_pos (List.mem_flatMap.2 ⟨p, hp, List.mem_map.2 ⟨np, hnp, rfl⟩⟩)
  have e : h1 ++ (env, .delete q) :: h2 = (h1 ++ [(env, .delete q)]) ++ h2 := by simp
  have hr2 : S.Reach (S.run (h1 ++ (env, .delete q) :: h2) S.init) := ⟨_, rfl, ha, ho⟩
  have hend : (S.graph (S.run (h1 ++ (env, .delete q) :: h2) S.init)).eprop p.edge np.name = none := by
    rw [e] at ho ha ⊢
    exact F.kept (P := fun g => g.eprop p.edge np.name = none)
      (Q := fun op => (∀ q x, op ≠ .setProperties q np.name x) ∧
        ∀ items, op = .bulkInsert items → ∀ i ∈ items, ∀ x, i ≠ .edgeProperty p.edge np.name x)
      (fun g ans op g' r h hq hp => (stepWith_missing hD hK h).2 _ _ hq.1 hq.2 hp) h2 _ ho ha
      (fun p hp => ⟨(hn p hp).1, fun items hi i hi' x hx => (hn p hp).2 items hi i hi' ⟨x, hx⟩⟩) h0
  have h3 : S.value env' (.specificEdge [p.edge]) (S.run (h1 ++ (env, .delete q) :: h2) S.init) =
      .ok (.edges ([p.edge].filter (S.graph (S.run (h1 ++ (env, .delete q) :: h2) S.init)).edge)) := by
    unfold Store.value
    rw [(F.edgeQueries _ hr2 env').2 [p.edge]]
    rfl
  have h4 := ((F.pipeProperties _ hr2 env' (.specificEdge [p.edge])).2 _ h3).1 np.name
  have h7 : ([p.edge].filter (S.graph (S.run (h1 ++ (env, .delete q) :: h2) S.init)).edge).filterMap (fun e =>
      ((S.graph (S.run (h1 ++ (env, .delete q) :: h2) S.init)).eprop e np.name).map (fun x => (⟨e, [⟨np.name, x⟩]⟩ : EdgeProperties))) = [] := by
    rw [List.filterMap_eq_nil_iff]
    intro a ha
    cases List.mem_singleton.1 (List.mem_filter.1 ha).1
    rw [hend]; rfl
  rw [h7] at h4
  obtain ⟨inc, h5⟩ := F.value_ok hr2 h4
  rw [F.ask_eq hr2, h5] at hl
  have h6 := F.answers hr2 env' (.pipeProperty (.specificEdge [p.edge]) (some np.name))
  rw [h5] at h6
  have : inc = [] := by
    obtain ⟨ri, a1, a2⟩ := h6
    simp only [Answers] at a1
    subst a1
    obtain ⟨rv, _, hrv⟩ := a2
    cases rv with
    | error f => cases hrv
    | ok w => cases hrv; rfl
  subst this
  cases hl
  rfl

end
end IndraDB
