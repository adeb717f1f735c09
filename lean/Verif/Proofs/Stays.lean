import Verif.Spec.Stays
import Verif.Proofs.Made
/-
What was put into a database stays there.
-/
set_option linter.unusedSimpArgs false
namespace IndraDB

/-- Bulk items keep what is there, except for vertices and items that are `bad` for them. -/
structure Sem.Keeps (Sm : Sem) (bad : Vertex → BulkInsertItem → Prop) : Prop where
  vertex : ∀ g i v, ¬ bad v i → g.vertex v.id = some v.t → (Sm.bulkItem g i).vertex v.id = some v.t
  has : ∀ g i id, g.vertex id ≠ none → (Sm.bulkItem g i).vertex id ≠ none
  edge : ∀ g i e, g.edge e = true → (Sm.bulkItem g i).edge e = true
  vprop : ∀ g i id n, (∀ x, i ≠ .vertexProperty id n x) → (Sm.bulkItem g i).vprop id n = g.vprop id n
  eprop : ∀ g i e n, (∀ x, i ≠ .edgeProperty e n x) → (Sm.bulkItem g i).eprop e n = g.eprop e n

theorem Graph.putVertex_has {g : Graph} {id : Uuid} (w : Vertex) (h : g.vertex id ≠ none) : (g.putVertex w.id w.t).vertex id ≠ none := by
  simp only [Graph.putVertex]; split
  · nofun
  · exact h

theorem Graph.createVertex_keeps {g : Graph} {id : Uuid} {t : Identifier} (w : Vertex) (h : g.vertex id = some t) :
    (g.createVertex w).vertex id = some t := by
  unfold Graph.createVertex
  split
  · rename_i hn
    simp only [Graph.putVertex]
    split
    · rename_i e; rw [e, hn] at h; cases h
    · exact h
  · exact h

theorem Graph.putEdge_keeps {g : Graph} {e : Edge} (w : Edge) (h : g.edge e = true) : (g.putEdge w).edge e = true := by
  simp only [Graph.putEdge, h, Bool.or_true]

theorem Graph.createEdge_keeps {g : Graph} {e : Edge} (w : Edge) (h : g.edge e = true) : (g.createEdge w).edge e = true := by
  unfold Graph.createEdge; split
  · exact Graph.putEdge_keeps w h
  · exact h

theorem Graph.createVertex_props (g : Graph) (w : Vertex) : (g.createVertex w).vprop = g.vprop ∧ (g.createVertex w).eprop = g.eprop := by
  unfold Graph.createVertex; split <;> exact ⟨rfl, rfl⟩
theorem Graph.createEdge_props (g : Graph) (w : Edge) : (g.createEdge w).vprop = g.vprop ∧ (g.createEdge w).eprop = g.eprop := by
  unfold Graph.createEdge; split <;> exact ⟨rfl, rfl⟩

theorem Graph.putVProps_other {g : Graph} {id m : _} {ids : List Uuid} {n : Identifier} {x : Json} (h : ¬ (id ∈ ids ∧ m = n)) :
    (g.putVProps ids n x).vprop id m = g.vprop id m := by
  simp only [Graph.putVProps, if_neg h]
theorem Graph.putEProps_other {g : Graph} {id m : _} {ids : List Edge} {n : Identifier} {x : Json} (h : ¬ (id ∈ ids ∧ m = n)) :
    (g.putEProps ids n x).eprop id m = g.eprop id m := by
  simp only [Graph.putEProps, if_neg h]

theorem Sem.intended_keeps : Sem.intended.Keeps (fun _ _ => False) where
  vertex := fun g i v _ h => by
    cases i with
    | vertex w => exact Graph.createVertex_keeps w h
    | edge e => show (g.createEdge e).vertex _ = _; rw [Graph.createEdge_vertex]; exact h
    | _ => exact h
  has := fun g i id h => by
    obtain ⟨t, h⟩ := Option.ne_none_iff_exists'.1 h
    cases i with
    | vertex w => show (g.createVertex w).vertex _ ≠ _; rw [Graph.createVertex_keeps w h]; nofun
    | edge e => show (g.createEdge e).vertex _ ≠ _; rw [Graph.createEdge_vertex, h]; nofun
    | _ => show g.vertex id ≠ none; rw [h]; nofun
  edge := fun g i e h => by
    cases i with
    | vertex w => show (g.createVertex w).edge _ = _; rw [Graph.createVertex_edge]; exact h
    | edge e => exact Graph.createEdge_keeps _ h
    | _ => exact h
  vprop := fun g i id n h => by
    cases i with
    | vertex w => show (g.createVertex w).vprop _ _ = _; rw [(Graph.createVertex_props g w).1]
    | edge e => show (g.createEdge e).vprop _ _ = _; rw [(Graph.createEdge_props g e).1]
    | vertexProperty id' n' x =>
      refine Graph.putVProps_other ?_
      rintro ⟨h1, rfl⟩
      cases List.mem_singleton.1 h1
      exact h x rfl
    | edgeProperty e n x => rfl
  eprop := fun g i id n h => by
    cases i with
    | vertex w => show (g.createVertex w).eprop _ _ = _; rw [(Graph.createVertex_props g w).2]
    | edge e => show (g.createEdge e).eprop _ _ = _; rw [(Graph.createEdge_props g e).2]
    | edgeProperty id' n' x =>
      refine Graph.putEProps_other ?_
      rintro ⟨h1, rfl⟩
      cases List.mem_singleton.1 h1
      exact h x rfl
    | vertexProperty e n x => rfl

theorem Sem.rocks_keeps (X : Cfg) : (Sem.rocks X).Keeps (fun v i => ∃ w : Vertex, i = .vertex w ∧ w.id = v.id ∧ w ≠ v) where
  vertex := fun g i v hb h => by
    cases i with
    | vertex w =>
      show (g.putVertex w.id w.t).vertex v.id = some v.t
      simp only [Graph.putVertex]
      split
      · rename_i e
        by_cases hw : w = v
        · rw [hw]
        · exact absurd ⟨w, rfl, e.symm, hw⟩ hb
      · exact h
    | _ => exact h
  has := fun g i id h => by
    cases i with
    | vertex w => exact Graph.putVertex_has w h
    | _ => exact h
  edge := fun g i e h => by
    cases i with
    | edge w => exact Graph.putEdge_keeps w h
    | _ => exact h
  vprop := fun g i id n h => by
    cases i with
    | vertexProperty id' n' x =>
      refine Graph.putVProps_other ?_
      rintro ⟨h1, rfl⟩
      cases List.mem_singleton.1 h1
      exact h x rfl
    | _ => rfl
  eprop := fun g i id n h => by
    cases i with
    | edgeProperty id' n' x =>
      refine Graph.putEProps_other ?_
      rintro ⟨h1, rfl⟩
      cases List.mem_singleton.1 h1
      exact h x rfl
    | _ => rfl

theorem foldl_keeps {α β : Type} {P : α → Prop} {f : α → β → α} : ∀ (l : List β) (a : α), (∀ a, ∀ b ∈ l, P a → P (f a b)) → P a →
    P (l.foldl f a)
  | [], _, _, h => h
  | b :: r, a, hf, h => foldl_keeps r (f a b) (fun a c hc => hf a c (List.mem_cons_of_mem _ hc)) (hf a b List.mem_cons_self h)

/-- What a call that does not delete keeps. -/
def StepKeeps (bad : Vertex → BulkInsertItem → Prop) (g g' : Graph) (op : Op) : Prop :=
    (∀ v : Vertex, (∀ items, op = .bulkInsert items → ∀ i ∈ items, ¬ bad v i) → g.vertex v.id = some v.t → g'.vertex v.id = some v.t) ∧
    (∀ id, g.vertex id ≠ none → g'.vertex id ≠ none) ∧
    (∀ e, g.edge e = true → g'.edge e = true) ∧
    (∀ id n, (∀ q x, op ≠ .setProperties q n x) → (∀ items, op = .bulkInsert items → ∀ i ∈ items, ∀ x, i ≠ .vertexProperty id n x) →
      g'.vprop id n = g.vprop id n) ∧
    (∀ e n, (∀ q x, op ≠ .setProperties q n x) → (∀ items, op = .bulkInsert items → ∀ i ∈ items, ∀ x, i ≠ .edgeProperty e n x) →
      g'.eprop e n = g.eprop e n)

/-- One call that does not delete keeps what is there. -/
theorem stepWith_keeps {Sm : Sem} {bad : Vertex → BulkInsertItem → Prop} (hS : Sm.Keeps bad) {g g' : Graph}
    {ans : Query → Res (List Output × Output)} {op : Op} {r : Res Reply} (h : StepWith Sm g ans op g' r) (hd : ∀ q, op ≠ .delete q) :
    StepKeeps bad g g' op := by
  have triv : g' = g → StepKeeps bad g g' op := fun e => by
    subst e
    exact ⟨fun _ _ h => h, fun _ h => h, fun _ h => h, fun _ _ _ _ => rfl, fun _ _ _ _ => rfl⟩
  cases op with
  | sync => exact triv h.1
  | get q => exact triv h.1
  | createVertex w =>
    obtain ⟨rfl, -⟩ := h
    refine ⟨fun v _ h => Graph.createVertex_keeps w h, fun id h => ?_, fun e h => ?_, fun _ _ _ _ => ?_, fun _ _ _ _ => ?_⟩
    · obtain ⟨t, h⟩ := Option.ne_none_iff_exists'.1 h
      rw [Graph.createVertex_keeps w h]; nofun
    · rw [Graph.createVertex_edge]; exact h
    · rw [(Graph.createVertex_props g w).1]
    · rw [(Graph.createVertex_props g w).2]
  | createVertexFromType id t =>
    obtain ⟨rfl, -⟩ := h
    refine ⟨fun v _ h => Graph.createVertex_keeps _ h, fun id h => ?_, fun e h => ?_, fun _ _ _ _ => ?_, fun _ _ _ _ => ?_⟩
    · obtain ⟨t, h⟩ := Option.ne_none_iff_exists'.1 h
      rw [Graph.createVertex_keeps _ h]; nofun
    · rw [Graph.createVertex_edge]; exact h
    · rw [(Graph.createVertex_props g _).1]
    · rw [(Graph.createVertex_props g _).2]
  | createEdge w =>
    obtain ⟨rfl, -⟩ := h
    refine ⟨fun v _ h => ?_, fun id h => ?_, fun e h => Graph.createEdge_keeps w h, fun _ _ _ _ => ?_, fun _ _ _ _ => ?_⟩
    · rw [Graph.createEdge_vertex]; exact h
    · rw [Graph.createEdge_vertex]; exact h
    · rw [(Graph.createEdge_props g w).1]
    · rw [(Graph.createEdge_props g w).2]
  | delete q => exact absurd rfl (hd q)
  | setProperties q n x =>
    simp only [StepWith] at h
    cases hq : ans q with
    | error f => rw [hq] at h; exact triv h.1
    | ok p =>
      obtain ⟨inc, v⟩ := p
      rw [hq] at h
      cases v with
      | vertices vs =>
        obtain ⟨rfl, -⟩ := h
        refine ⟨fun v _ h => h, fun _ h => h, fun _ h => h, fun id m hm _ => ?_, fun _ _ _ _ => rfl⟩
        exact Graph.putVProps_other (by rintro ⟨_, rfl⟩; exact hm q x rfl)
      | edges vs =>
        obtain ⟨rfl, -⟩ := h
        refine ⟨fun v _ h => h, fun _ h => h, fun _ h => h, fun _ _ _ _ => rfl, fun id m hm _ => ?_⟩
        exact Graph.putEProps_other (by rintro ⟨_, rfl⟩; exact hm q x rfl)
      | _ => exact triv h.1
  | bulkInsert items =>
    obtain ⟨rfl, -⟩ := h
    refine ⟨fun v hb h => ?_, fun id h => ?_, fun e h => ?_, fun id n _ hb => ?_, fun e n _ hb => ?_⟩
    · exact foldl_keeps (P := fun g : Graph => g.vertex v.id = some v.t) items g (fun g i hi h => hS.vertex g i v (hb items rfl i hi) h) h
    · exact foldl_keeps (P := fun g : Graph => g.vertex id ≠ none) items g (fun g i _ h => hS.has g i id h) h
    · exact foldl_keeps (P := fun g : Graph => g.edge e = true) items g (fun g i _ h => hS.edge g i e h) h
    · exact foldl_keeps (P := fun g' : Graph => g'.vprop id n = g.vprop id n) items g
        (fun g i hi h => (hS.vprop g i id n (hb items rfl i hi)).trans h) rfl
    · exact foldl_keeps (P := fun g' : Graph => g'.eprop e n = g.eprop e n) items g
        (fun g i hi h => (hS.eprop g i e n (hb items rfl i hi)).trans h) rfl
  | indexProperty n => obtain ⟨rfl, -⟩ := h; exact ⟨fun _ _ h => h, fun _ h => h, fun _ h => h, fun _ _ _ _ => rfl, fun _ _ _ _ => rfl⟩

section
variable {S : Store} {C : Conv} {Sm : Sem} (F : Conforms S C Sm)
include F

/-- What calls keep is kept by histories. -/
theorem Conforms.kept {P : Graph → Prop} {Q : Op → Prop}
    (hP : ∀ g ans op g' r, StepWith Sm g ans op g' r → Q op → P g → P g') : ∀ (h2 : List (S.Env × Op)) (h1 : List (S.Env × Op)),
    S.OkHist (h1 ++ h2) → S.alive (S.run (h1 ++ h2) S.init) = true → (∀ p ∈ h2, Q p.2) → P (S.graph (S.run h1 S.init)) →
    P (S.graph (S.run (h1 ++ h2) S.init))
  | [], h1, _, _, _, h => by rwa [List.append_nil]
  | (env, op) :: r, h1, ho, ha, hq, h => by
    have e : h1 ++ (env, op) :: r = (h1 ++ [(env, op)]) ++ r := by simp
    rw [e] at ho ha ⊢
    have ha1 : S.alive (S.run (h1 ++ [(env, op)]) S.init) = true := by
      rw [Store.run_append] at ha; exact Store.run_alive F r _ ha
    have hrun : S.run (h1 ++ [(env, op)]) S.init = (S.step env op (S.run h1 S.init)).1 := by rw [Store.run_append]; rfl
    have ha1' := ha1
    rw [hrun] at ha1'
    have hv : op.ValuesOk S.okValue := ho (env, op) (by simp)
    have hr : S.Reach (S.run h1 S.init) := ⟨h1, rfl, F.alive_back _ _ _ ha1', fun p hp => ho p (by simp [hp])⟩
    refine Conforms.kept hP r _ ho ha (fun p hp => hq p (List.mem_cons_of_mem _ hp)) ?_
    rw [hrun]
    exact hP _ _ _ _ _ (F.stepWith hr env op hv (F.alive_ok _ hr env op hv ha1')) (hq _ List.mem_cons_self) h

variable (hA : ∀ env op s r, (S.step env op s).2 = .ok r → S.alive s = true)
include hA

theorem Conforms.ask_alive {env : S.Env} {q : Query} {s : S.State} {l : List Output} (h : S.ask env q s = .ok l) : S.alive s = true := by
  unfold Store.ask at h
  split at h
  · rename_i e; exact hA _ _ _ _ e
  · cases h
  · cases h

/-- The state before the last part of a history, and the step there. -/
theorem Conforms.at_split {h1 h2 : List (S.Env × Op)} {env : S.Env} {op : Op} (ho : S.OkHist (h1 ++ (env, op) :: h2))
    (ha : S.alive (S.run (h1 ++ (env, op) :: h2) S.init) = true) :
    S.Reach (S.run h1 S.init) ∧ StepWith Sm (S.graph (S.run h1 S.init)) (eval (F.reads env (S.run h1 S.init))) op
      (S.graph (S.run (h1 ++ [(env, op)]) S.init)) (S.step env op (S.run h1 S.init)).2 := by
  have e : h1 ++ (env, op) :: h2 = (h1 ++ [(env, op)]) ++ h2 := by simp
  rw [e] at ho ha
  have ha1 : S.alive (S.run (h1 ++ [(env, op)]) S.init) = true := by
    rw [Store.run_append] at ha; exact Store.run_alive F h2 _ ha
  have hrun : S.run (h1 ++ [(env, op)]) S.init = (S.step env op (S.run h1 S.init)).1 := by rw [Store.run_append]; rfl
  rw [hrun] at ha1 ⊢
  have hv : op.ValuesOk S.okValue := ho (env, op) (by simp)
  have hr : S.Reach (S.run h1 S.init) := ⟨h1, rfl, F.alive_back _ _ _ ha1, fun p hp => ho p (by simp [hp])⟩
  exact ⟨hr, F.stepWith hr env op hv (F.alive_ok _ hr env op hv ha1)⟩

theorem Conforms.verticesStay {bad : Vertex → BulkInsertItem → Prop} (hS : Sm.Keeps bad) : S.VerticesStay bad := by
  intro h1 env v h2 ho hok hd hb env' l hl
  have ha := F.ask_alive hA hl
  obtain ⟨hr, hst⟩ := F.at_split hA ho ha
  have h0 : (S.graph (S.run (h1 ++ [(env, .createVertex v)]) S.init)).vertex v.id = some v.t := by
    obtain ⟨hg, hrep⟩ := hst
    rw [hok] at hrep
    have hn : (S.graph (S.run h1 S.init)).vertex v.id = none := by simpa using hrep.symm
    rw [hg, Graph.createVertex, if_pos hn]
    simp [Graph.putVertex]
  have e : h1 ++ (env, .createVertex v) :: h2 = (h1 ++ [(env, .createVertex v)]) ++ h2 := by simp
  have hr2 : S.Reach (S.run (h1 ++ (env, .createVertex v) :: h2) S.init) := ⟨_, rfl, ha, ho⟩
  obtain ⟨l', he, hl'⟩ := (F.vertexQueries _ hr2 env').1
  rw [hl] at hl'; cases hl'
  refine (he.mem v).2 ?_
  rw [e] at ho ha ⊢
  exact F.kept (P := fun g => g.vertex v.id = some v.t)
    (Q := fun op => (∀ q, op ≠ .delete q) ∧ ∀ items, op = .bulkInsert items → ∀ i ∈ items, ¬ bad v i)
    (fun g ans op g' r h hq hp => (stepWith_keeps hS h hq.1).1 v hq.2 hp) h2 _ ho ha (fun p hp => ⟨hd p hp, hb p hp⟩) h0

theorem Conforms.edgesStay {bad : Vertex → BulkInsertItem → Prop} (hS : Sm.Keeps bad) : S.EdgesStay := by
  intro h1 env v h2 ho hok hd env' l hl
  have ha := F.ask_alive hA hl
  obtain ⟨hr, hst⟩ := F.at_split hA ho ha
  have h0 : (S.graph (S.run (h1 ++ [(env, .createEdge v)]) S.init)).edge v = true := by
    obtain ⟨hg, hrep⟩ := hst
    rw [hok] at hrep
    have hn : (S.graph (S.run h1 S.init)).hasEndpoints v = true := by simpa using hrep.symm
    rw [hg, Graph.createEdge, if_pos hn]
    simp [Graph.putEdge]
  have e : h1 ++ (env, .createEdge v) :: h2 = (h1 ++ [(env, .createEdge v)]) ++ h2 := by simp
  have hr2 : S.Reach (S.run (h1 ++ (env, .createEdge v) :: h2) S.init) := ⟨_, rfl, ha, ho⟩
  obtain ⟨l', he, hl'⟩ := (F.edgeQueries _ hr2 env').1
  rw [hl] at hl'; cases hl'
  refine (he.mem v).2 ?_
  rw [e] at ho ha ⊢
  exact F.kept (P := fun g => g.edge v = true) (Q := fun op => ∀ q, op ≠ .delete q)
    (fun g ans op g' r h hq hp => (stepWith_keeps hS h hq).2.2.1 v hp) h2 _ ho ha (fun p hp => hd p hp) h0

theorem Conforms.vertexPropertiesStay {bad : Vertex → BulkInsertItem → Prop} (hS : Sm.Keeps bad) : S.VertexPropertiesStay Sm.stored := by
  intro h1 env q n x vs v h2 ho hval hv hok hd hu env' l hl
  have ha := F.ask_alive hA hl
  obtain ⟨hr, hst⟩ := F.at_split hA ho ha
  obtain ⟨inc, hev⟩ := F.value_ok hr hval
  have hex : (S.graph (S.run h1 S.init)).vertex v.id = some v.t := by
    have := F.answers hr env q
    rw [hev] at this
    exact answers_vertices_exist this v hv
  simp only [StepWith, hev, SetValue] at hst
  obtain ⟨hg, -⟩ := hst
  have h0 : (S.graph (S.run (h1 ++ [(env, .setProperties q n x)]) S.init)).vertex v.id ≠ none ∧
      (S.graph (S.run (h1 ++ [(env, .setProperties q n x)]) S.init)).vprop v.id n = some (Sm.stored x) := by
    rw [hg]
    refine ⟨?_, ?_⟩
    · show (S.graph (S.run h1 S.init)).vertex v.id ≠ none
      rw [hex]; nofun
    · exact if_pos ⟨List.mem_map.2 ⟨v, hv, rfl⟩, rfl⟩
  have e : h1 ++ (env, .setProperties q n x) :: h2 = (h1 ++ [(env, .setProperties q n x)]) ++ h2 := by simp
  have hr2 : S.Reach (S.run (h1 ++ (env, .setProperties q n x) :: h2) S.init) := ⟨_, rfl, ha, ho⟩
  have hend : (S.graph (S.run (h1 ++ (env, .setProperties q n x) :: h2) S.init)).vertex v.id ≠ none ∧
      (S.graph (S.run (h1 ++ (env, .setProperties q n x) :: h2) S.init)).vprop v.id n = some (Sm.stored x) := by
    rw [e] at ho ha ⊢
    exact F.kept (P := fun g => g.vertex v.id ≠ none ∧ g.vprop v.id n = some (Sm.stored x))
      (Q := fun op => (∀ q, op ≠ .delete q) ∧ (∀ q x, op ≠ .setProperties q n x) ∧
        ∀ items, op = .bulkInsert items → ∀ i ∈ items, ∀ x, i ≠ .vertexProperty v.id n x)
      (fun g ans op g' r h hq hp => by
        obtain ⟨_, k2, _, k4, _⟩ := stepWith_keeps hS h hq.1
        exact ⟨k2 _ hp.1, (k4 _ _ hq.2.1 hq.2.2).trans hp.2⟩) h2 _ ho ha
      (fun p hp => ⟨hd p hp, (hu p hp).1, fun items hi i hi' x hx => (hu p hp).2 items hi i hi' ⟨x, hx⟩⟩) h0
  obtain ⟨t, ht⟩ := Option.ne_none_iff_exists'.1 hend.1
  refine ⟨t, ?_⟩
  have h3 : S.value env' (.specificVertex [v.id]) (S.run (h1 ++ (env, .setProperties q n x) :: h2) S.init) = .ok (.vertices [⟨v.id, t⟩]) := by
    unfold Store.value
    rw [(F.vertexQueries _ hr2 env').2.2 [v.id]]
    simp [Graph.lookup, ht]
  have h4 := ((F.pipeProperties _ hr2 env' (.specificVertex [v.id])).1 _ h3).1 n
  simp only [List.filterMap_cons, hend.2, Option.map_some, List.filterMap_nil] at h4
  obtain ⟨inc, h5⟩ := F.value_ok hr2 h4
  rw [F.ask_eq hr2, h5] at hl
  have h6 := F.answers hr2 env' (.pipeProperty (.specificVertex [v.id]) (some n))
  rw [h5] at h6
  have : inc = [] := by
    obtain ⟨ri, a1, a2⟩ := h6
    simp only [Answers] at a1
    subst a1
    obtain ⟨rv, _, hrv⟩ := a2
    cases rv with
    | error f => cases hrv
    | ok w => cases hrv; rfl
  subst this
  cases hl
  rfl

theorem Conforms.edgePropertiesStay {bad : Vertex → BulkInsertItem → Prop} (hS : Sm.Keeps bad) : S.EdgePropertiesStay Sm.stored := by
  intro h1 env q n x es v h2 ho hval hv hve hok hd hu env' l hl
  have ha := F.ask_alive hA hl
  obtain ⟨hr, hst⟩ := F.at_split hA ho ha
  obtain ⟨inc, hev⟩ := F.value_ok hr hval
  have hex : (S.graph (S.run h1 S.init)).edge v = true := by
    unfold Store.value at hve
    rw [(F.edgeQueries _ hr env).2 [v]] at hve
    by_cases h : (S.graph (S.run h1 S.init)).edge v = true
    · exact h
    · simp [h] at hve
  simp only [StepWith, hev, SetValue] at hst
  obtain ⟨hg, -⟩ := hst
  have h0 : (S.graph (S.run (h1 ++ [(env, .setProperties q n x)]) S.init)).edge v = true ∧
      (S.graph (S.run (h1 ++ [(env, .setProperties q n x)]) S.init)).eprop v n = some (Sm.stored x) := by
    rw [hg]
    refine ⟨hex, ?_⟩
    exact if_pos ⟨hv, rfl⟩
  have e : h1 ++ (env, .setProperties q n x) :: h2 = (h1 ++ [(env, .setProperties q n x)]) ++ h2 := by simp
  have hr2 : S.Reach (S.run (h1 ++ (env, .setProperties q n x) :: h2) S.init) := ⟨_, rfl, ha, ho⟩
  have hend : (S.graph (S.run (h1 ++ (env, .setProperties q n x) :: h2) S.init)).edge v = true ∧
      (S.graph (S.run (h1 ++ (env, .setProperties q n x) :: h2) S.init)).eprop v n = some (Sm.stored x) := by
    rw [e] at ho ha ⊢
    exact F.kept (P := fun g => g.edge v = true ∧ g.eprop v n = some (Sm.stored x))
      (Q := fun op => (∀ q, op ≠ .delete q) ∧ (∀ q x, op ≠ .setProperties q n x) ∧
        ∀ items, op = .bulkInsert items → ∀ i ∈ items, ∀ x, i ≠ .edgeProperty v n x)
      (fun g ans op g' r h hq hp => by
        obtain ⟨_, _, k3, _, k5⟩ := stepWith_keeps hS h hq.1
        exact ⟨k3 _ hp.1, (k5 _ _ hq.2.1 hq.2.2).trans hp.2⟩) h2 _ ho ha
      (fun p hp => ⟨hd p hp, (hu p hp).1, fun items hi i hi' x hx => (hu p hp).2 items hi i hi' ⟨x, hx⟩⟩) h0
  have h3 : S.value env' (.specificEdge [v]) (S.run (h1 ++ (env, .setProperties q n x) :: h2) S.init) = .ok (.edges [v]) := by
    unfold Store.value
    rw [(F.edgeQueries _ hr2 env').2 [v]]
    simp [hend.1]
  have h4 := ((F.pipeProperties _ hr2 env' (.specificEdge [v])).2 _ h3).1 n
  simp only [List.filterMap_cons, hend.2, Option.map_some, List.filterMap_nil] at h4
  obtain ⟨inc, h5⟩ := F.value_ok hr2 h4
  rw [F.ask_eq hr2, h5] at hl
  have h6 := F.answers hr2 env' (.pipeProperty (.specificEdge [v]) (some n))
  rw [h5] at h6
  have : inc = [] := by
    obtain ⟨ri, a1, a2⟩ := h6
    simp only [Answers] at a1
    subst a1
    obtain ⟨rv, _, hrv⟩ := a2
    cases rv with
    | error f => cases hrv
    | ok w => cases hrv; rfl
  subst this
  cases hl
  rfl

end
end IndraDB
