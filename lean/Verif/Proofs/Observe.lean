import Verif.Spec.Observe
import Verif.Spec.RocksSem
import Verif.Proofs.Store
/-
What a conforming store's replies say is its graph, without the properties of missing owners.
-/
set_option linter.unusedSimpArgs false
namespace IndraDB

/-- The graph without properties of missing owners. -/
def Graph.visible (g : Graph) : Graph :=
  { g with
    vprop := fun i n => if (g.vertex i).isSome then g.vprop i n else none
    eprop := fun e n => if g.edge e then g.eprop e n else none }

namespace Conforms
variable {S : Store} {C : Conv} {Sm : Sem} (F : Conforms S C Sm)
include F

theorem seesVertex {s : S.State} (hr : S.Reach s) (env : S.Env) (id : Uuid) :
    S.seesVertex env s id = (S.graph s).vertex id := by
  unfold Store.seesVertex
  rw [(F.vertexQueries s hr env).2.2 [id]]
  unfold Graph.lookup
  cases h : (S.graph s).vertex id <;> simp [h]

theorem seesEdge {s : S.State} (hr : S.Reach s) (env : S.Env) (e : Edge) :
    S.seesEdge env s e = (S.graph s).edge e := by
  unfold Store.seesEdge
  rw [(F.edgeQueries s hr env).2 [e]]
  cases h : (S.graph s).edge e <;> simp [h]

theorem ask_of_value {s : S.State} (hr : S.Reach s) (env : S.Env) {i : Query} {n : Option Identifier} {o : Output}
    (hi : i.isInclude = false) (hinc : i.includes = []) (h : S.value env (.pipeProperty i n) s = .ok o) :
    S.ask env (.pipeProperty i n) s = .ok [o] := by
  unfold Store.value at h
  cases ha : S.ask env (.pipeProperty i n) s with
  | error f => rw [ha] at h; simp at h
  | ok l =>
    have hv := F.includeExact s hr env _ l ha
    simp only [Query.includes, hinc, hi, List.nil_append, Bool.false_eq_true, if_false] at hv
    rw [ha] at h
    match l, hv with
    | [o'], _ => simp at h; rw [h]
    | [], hv => exact absurd hv (by simp [Store.ValuesOf])
    | _ :: _ :: _, hv => exact absurd hv.2 (by simp [Store.ValuesOf])

omit F in
theorem value_of_ask {s : S.State} {env : S.Env} {q : Query} {o : Output} (h : S.ask env q s = .ok [o]) :
    S.value env q s = .ok o := by
  unfold Store.value; rw [h]; rfl

theorem seesVProp {s : S.State} (hr : S.Reach s) (env : S.Env) (id : Uuid) (n : Identifier) :
    S.seesVProp env s id n = (S.graph s).visible.vprop id n := by
  unfold Store.seesVProp
  have h1 := (F.vertexQueries s hr env).2.2 [id]
  have h2 := F.ask_of_value hr env rfl rfl
    (((F.pipeProperties s hr env _).1 _ (value_of_ask h1)).1 n)
  rw [h2]
  unfold Graph.lookup Graph.visible
  cases h : (S.graph s).vertex id with
  | none => simp [h]
  | some t =>
    cases h3 : (S.graph s).vprop id n <;> simp [h, h3]

theorem seesEProp {s : S.State} (hr : S.Reach s) (env : S.Env) (e : Edge) (n : Identifier) :
    S.seesEProp env s e n = (S.graph s).visible.eprop e n := by
  unfold Store.seesEProp
  have h1 := (F.edgeQueries s hr env).2 [e]
  have h2 := F.ask_of_value hr env rfl rfl
    (((F.pipeProperties s hr env _).2 _ (value_of_ask h1)).1 n)
  rw [h2]
  unfold Graph.visible
  cases h : (S.graph s).edge e with
  | false => simp [h]
  | true =>
    cases h3 : (S.graph s).eprop e n <;> simp [h, h3]

theorem seesIndexed {s : S.State} (hr : S.Reach s) (env : S.Env) (n : Identifier) :
    S.seesIndexed env s n = (S.graph s).indexed n := by
  unfold Store.seesIndexed
  have h := F.answers hr env (.vertexWithPropertyPresence n)
  simp only [Answers] at h
  rw [F.ask_eq hr]
  split at h
  · obtain ⟨l, _, he⟩ := h
    rw [he]; simp [Except.map, *]
  · rw [h]; simp [Except.map, *]

theorem seen {s : S.State} (hr : S.Reach s) (env : S.Env) : S.seen env s = (S.graph s).visible := by
  ext1
  · exact funext fun i => F.seesVertex hr env i
  · exact funext fun i => F.seesEdge hr env i
  · exact funext fun i => funext fun n => F.seesVProp hr env i n
  · exact funext fun i => funext fun n => F.seesEProp hr env i n
  · exact funext fun i => F.seesIndexed hr env i

theorem vs_exist {s : S.State} (hr : S.Reach s) {env : S.Env} {q : Query} {vs : List Vertex}
    (h : S.value env q s = .ok (.vertices vs)) : ∀ v ∈ vs, (S.graph s).vertex v.id = some v.t := by
  obtain ⟨inc, he⟩ := F.value_ok hr h
  have := F.answers hr env q
  rw [he] at this
  exact answers_vertices_exist this

variable (hA : ∀ s, S.Reach s → ∀ env op, op.ValuesOk S.okValue → (S.step env op s).2 ≠ .error .panic →
  S.alive (S.step env op s).1 = true)
include hA

theorem createVertexSeen : S.CreateVertexSeen := by
  intro s hr env v before after
  obtain ⟨h1, h2⟩ := F.stepWith' hr env (.createVertex v) (by simp) (by simp) (by simp)
  have hr' : S.Reach (S.step env (.createVertex v) s).1 :=
    hr.next env _ trivial (hA s hr env _ trivial (by rw [h2]; simp))
  simp only [F.seesVertex hr, F.seesVertex hr', F.seesVProp hr, F.seesVProp hr', F.seesEdge hr, F.seesEdge hr',
    F.seesEProp hr, F.seesEProp hr', F.seesIndexed hr, F.seesIndexed hr', h1]
  refine ⟨?_, ?_, ?_, ?_, ?_, ?_⟩
  · rw [h2]; cases (S.graph s).vertex v.id <;> rfl
  · intro i
    simp only [Graph.createVertex]
    by_cases hv : (S.graph s).vertex v.id = none
    · simp only [hv, if_true, Graph.putVertex]
      by_cases hi : i = v.id
      · subst hi; simp [hv]
      · simp [hi]
    · simp only [hv, if_false]
      by_cases hi : i = v.id
      · subst hi
        cases h : (S.graph s).vertex v.id with
        | none => exact absurd h hv
        | some t => simp
      · simp [hi]
  · intro i n h
    simp only [Graph.createVertex, Graph.visible]
    by_cases hv : (S.graph s).vertex v.id = none
    · rcases h with h | h
      · simp only [hv, if_true, Graph.putVertex]; simp [h]
      · exact absurd hv h
    · simp only [hv, if_false]
  all_goals
    intros
    simp only [Graph.createVertex, Graph.visible]
    split <;> rfl

theorem createEdgeSeen : S.CreateEdgeSeen := by
  intro s hr env e before after
  obtain ⟨h1, h2⟩ := F.stepWith' hr env (.createEdge e) (by simp) (by simp) (by simp)
  have hr' : S.Reach (S.step env (.createEdge e) s).1 :=
    hr.next env _ trivial (hA s hr env _ trivial (by rw [h2]; simp))
  simp only [F.seesVertex hr, F.seesVertex hr', F.seesVProp hr, F.seesVProp hr', F.seesEdge hr, F.seesEdge hr',
    F.seesEProp hr, F.seesEProp hr', F.seesIndexed hr, F.seesIndexed hr', h1]
  have hok : (((S.graph s).vertex e.outboundId).isSome && ((S.graph s).vertex e.inboundId).isSome) =
    (S.graph s).hasEndpoints e := rfl
  rw [hok]
  refine ⟨h2, ?_, ?_, ?_, ?_, ?_⟩
  · intro x
    simp only [Graph.createEdge]
    cases hx : (S.graph s).hasEndpoints e
    · by_cases h : x = e <;> simp [h]
    · by_cases h : x = e <;> simp [h, Graph.putEdge]
  · intro x n h
    simp only [Graph.createEdge, Graph.visible]
    by_cases hx : (S.graph s).hasEndpoints e = true
    case neg => simp [hx]
    · simp only [hx, if_true, Graph.putEdge]
      rcases h with h | h | h
      · simp [h]
      · by_cases hxe : x = e
        · subst hxe; simp [h]
        · simp [hxe]
      · rw [hx] at h; exact absurd h (by simp)
  all_goals
    intros
    simp only [Graph.createEdge, Graph.visible]
    split <;> rfl

theorem indexPropertySeen : S.IndexPropertySeen := by
  intro s hr env n before after
  obtain ⟨h1, h2⟩ := F.stepWith' hr env (.indexProperty n) (by simp) (by simp) (by simp)
  have hr' : S.Reach (S.step env (.indexProperty n) s).1 :=
    hr.next env _ trivial (hA s hr env _ trivial (by rw [h2]; simp))
  simp only [F.seesVertex hr, F.seesVertex hr', F.seesVProp hr, F.seesVProp hr', F.seesEdge hr, F.seesEdge hr',
    F.seesEProp hr, F.seesEProp hr', F.seesIndexed hr, F.seesIndexed hr', h1]
  exact ⟨h2, fun _ => rfl, fun _ => rfl, fun _ => rfl, fun _ _ => rfl, fun _ _ => rfl⟩

theorem deleteVerticesSeen (hd : Sm.dropVertices = Graph.dropVertices) : S.DeleteVerticesSeen := by
  intro s hr env q vs before after hv hp
  obtain ⟨h2, h1⟩ := F.deleteVertices s hr env q vs hv hp
  have hr' : S.Reach (S.step env (.delete q) s).1 := hr.next env _ trivial (hA s hr env _ trivial hp)
  have hm : ∀ i, (∃ v ∈ vs, v.id = i) ↔ i ∈ vs.map (·.id) := by intro i; simp
  simp only [F.seesVertex hr, F.seesVertex hr', F.seesVProp hr, F.seesVProp hr', F.seesEdge hr, F.seesEdge hr',
    F.seesEProp hr, F.seesEProp hr', F.seesIndexed hr, F.seesIndexed hr', h1, hd, hm]
  refine ⟨h2, ?_, ?_, ?_, ?_, fun _ => rfl⟩
  · intro i hi; simp only [Graph.dropVertices, Graph.visible, if_pos hi]; simp
  · intro i hi; simp only [Graph.dropVertices, Graph.visible, if_neg hi]; simp
  · intro e he
    have he' : Graph.touches (vs.map (·.id)) e := he
    simp only [Graph.dropVertices, Graph.visible, if_pos he']; simp
  · intro e h3 h4
    have he' : ¬ Graph.touches (vs.map (·.id)) e := fun h => h.elim h3 h4
    simp only [Graph.dropVertices, Graph.visible, if_neg he']; simp [he']

theorem deleteVerticesSeenOut (hd : Sm.dropVertices = Graph.rocksDropVertices) : S.DeleteVerticesSeenOut := by
  intro s hr env q vs before after hv hp
  obtain ⟨h2, h1⟩ := F.deleteVertices s hr env q vs hv hp
  have hr' : S.Reach (S.step env (.delete q) s).1 := hr.next env _ trivial (hA s hr env _ trivial hp)
  have hm : ∀ i, (∃ v ∈ vs, v.id = i) ↔ i ∈ vs.map (·.id) := by intro i; simp
  simp only [F.seesVertex hr, F.seesVertex hr', F.seesVProp hr, F.seesVProp hr', F.seesEdge hr, F.seesEdge hr',
    F.seesEProp hr, F.seesEProp hr', F.seesIndexed hr, F.seesIndexed hr', h1, hd, hm]
  refine ⟨h2, ?_, ?_, ?_, ?_, fun _ => rfl⟩
  · intro i hi; simp only [Graph.rocksDropVertices, Graph.visible, if_pos hi]; simp
  · intro i hi; simp only [Graph.rocksDropVertices, Graph.visible, if_neg hi]; simp
  · intro e he
    simp only [Graph.rocksDropVertices, Graph.visible, if_pos he]; simp
  · intro e he
    simp only [Graph.rocksDropVertices, Graph.visible, if_neg he]
    refine ⟨trivial, fun n => ?_⟩
    rw [if_neg (fun h : _ ∧ _ => he h.1)]

theorem deleteEdgesSeen (skips : S.Env → S.State → Edge → Prop) (keep : Graph → Edge → Bool)
    (hd : ∀ g es, Sm.dropEdges g es = g.dropEdges (es.filter (keep g)))
    (hs : ∀ s, S.Reach s → ∀ env e, skips env s e ↔ keep (S.graph s) e = false) : S.DeleteEdgesSeen skips := by
  intro s hr env q es before after hv hp
  obtain ⟨h2, h1⟩ := F.deleteEdges s hr env q es hv hp
  have hr' : S.Reach (S.step env (.delete q) s).1 := hr.next env _ trivial (hA s hr env _ trivial hp)
  simp only [F.seesVertex hr, F.seesVertex hr', F.seesVProp hr, F.seesVProp hr', F.seesEdge hr, F.seesEdge hr',
    F.seesEProp hr, F.seesEProp hr', F.seesIndexed hr, F.seesIndexed hr', h1, hd, hs s hr before]
  refine ⟨h2, ?_, ?_, fun _ => rfl, fun _ _ => rfl, fun _ => rfl⟩
  · intro e he hk
    have : e ∈ es.filter (keep (S.graph s)) := List.mem_filter.2 ⟨he, by simpa using hk⟩
    simp only [Graph.dropEdges, Graph.visible, if_pos this]; simp
  · intro e he
    have : e ∉ es.filter (keep (S.graph s)) := by
      rw [List.mem_filter]
      rintro ⟨h3, h4⟩
      rcases he with he | he
      · exact he h3
      · rw [he] at h4; exact absurd h4 (by simp)
    simp only [Graph.dropEdges, Graph.visible, if_neg this]; simp

theorem deletePropertiesSeen : S.DeletePropertiesSeen := by
  intro s hr env q before after hp
  have hr' : S.Reach (S.step env (.delete q) s).1 := hr.next env _ trivial (hA s hr env _ trivial hp)
  obtain ⟨d1, d2⟩ := F.deleteProperties s hr env q hp
  refine ⟨fun l hv => ?_, fun l hv => ?_⟩
  · obtain ⟨h2, h1⟩ := d1 l hv
    have hm : ∀ i n, (∃ p ∈ l, p.vertex.id = i ∧ ∃ x ∈ p.props, x.name = n) ↔
        (i, n) ∈ l.flatMap (fun p => p.props.map (fun x => (p.vertex.id, x.name))) := by
      intro i n
      simp only [List.mem_flatMap, List.mem_map, Prod.mk.injEq]
      constructor
      · rintro ⟨p, hp, rfl, x, hx, rfl⟩; exact ⟨p, hp, x, hx, rfl, rfl⟩
      · rintro ⟨p, hp, x, hx, rfl, rfl⟩; exact ⟨p, hp, rfl, x, hx, rfl⟩
    simp only [F.seesVertex hr, F.seesVertex hr', F.seesVProp hr, F.seesVProp hr', F.seesEdge hr, F.seesEdge hr',
      F.seesEProp hr, F.seesEProp hr', F.seesIndexed hr, F.seesIndexed hr', h1, hm]
    refine ⟨h2, ⟨fun _ => rfl, fun _ => rfl, fun _ => rfl⟩, ?_, ?_, fun _ _ => rfl⟩
    · intro i n h; simp only [Graph.dropVProps, Graph.visible, if_pos h]; simp
    · intro i n h; simp only [Graph.dropVProps, Graph.visible, if_neg h]
  · obtain ⟨h2, h1⟩ := d2 l hv
    have hm : ∀ i n, (∃ p ∈ l, p.edge = i ∧ ∃ x ∈ p.props, x.name = n) ↔
        (i, n) ∈ l.flatMap (fun p => p.props.map (fun x => (p.edge, x.name))) := by
      intro i n
      simp only [List.mem_flatMap, List.mem_map, Prod.mk.injEq]
      constructor
      · rintro ⟨p, hp, rfl, x, hx, rfl⟩; exact ⟨p, hp, x, hx, rfl, rfl⟩
      · rintro ⟨p, hp, x, hx, rfl, rfl⟩; exact ⟨p, hp, rfl, x, hx, rfl⟩
    simp only [F.seesVertex hr, F.seesVertex hr', F.seesVProp hr, F.seesVProp hr', F.seesEdge hr, F.seesEdge hr',
      F.seesEProp hr, F.seesEProp hr', F.seesIndexed hr, F.seesIndexed hr', h1, hm]
    refine ⟨h2, ⟨fun _ => rfl, fun _ => rfl, fun _ => rfl⟩, ?_, ?_, fun _ _ => rfl⟩
    · intro i n h; simp only [Graph.dropEProps, Graph.visible, if_pos h]; simp
    · intro i n h; simp only [Graph.dropEProps, Graph.visible, if_neg h]

theorem setPropertiesSeen : S.SetPropertiesSeen Sm.stored := by
  intro s hr env q n x before after hx hp
  have hr' : S.Reach (S.step env (.setProperties q n x) s).1 := hr.next env _ hx (hA s hr env _ hx hp)
  obtain ⟨d1, d2⟩ := F.setProperties s hr env q n x hx hp
  refine ⟨fun vs hv => ?_, fun es hv => ?_⟩
  · obtain ⟨h2, h1⟩ := d1 vs hv
    have he := F.vs_exist hr hv
    simp only [F.seesVertex hr, F.seesVertex hr', F.seesVProp hr, F.seesVProp hr', F.seesEdge hr, F.seesEdge hr',
      F.seesEProp hr, F.seesEProp hr', F.seesIndexed hr, F.seesIndexed hr', h1]
    refine ⟨h2, ⟨fun _ => rfl, fun _ => rfl, fun _ => rfl⟩, ?_, ?_, fun _ _ => rfl⟩
    · intro v hv'
      simp only [Graph.putVProps, Graph.visible, he v hv', Option.isSome_some, if_true]
      rw [if_pos ⟨List.mem_map.2 ⟨v, hv', rfl⟩, trivial⟩]
    · intro i m h
      simp only [Graph.putVProps, Graph.visible]
      suffices hn : ¬ (i ∈ vs.map (·.id) ∧ m = n) by simp only [hn, if_false]
      rintro ⟨h3, h4⟩
      rcases h with h | h
      · obtain ⟨v, h5, h6⟩ := List.mem_map.1 h3
        exact h ⟨v, h5, h6⟩
      · exact h h4
  · obtain ⟨h2, h1⟩ := d2 es hv
    simp only [F.seesVertex hr, F.seesVertex hr', F.seesVProp hr, F.seesVProp hr', F.seesEdge hr, F.seesEdge hr',
      F.seesEProp hr, F.seesEProp hr', F.seesIndexed hr, F.seesIndexed hr', h1]
    refine ⟨h2, ⟨fun _ => rfl, fun _ => rfl, fun _ => rfl⟩, ?_, ?_, fun _ _ => rfl⟩
    · intro e he hx
      simp only [Graph.putEProps, Graph.visible, hx, if_true]
      rw [if_pos ⟨he, trivial⟩]
    · intro e m h
      simp only [Graph.putEProps, Graph.visible]
      suffices hn : ¬ (e ∈ es ∧ m = n) by simp only [hn, if_false]
      rintro ⟨h3, h4⟩
      rcases h with h | h
      · exact h h3
      · exact h h4

end Conforms

/-! Reads of the observed store. -/

theorem Store.observed_run (S : Store) (o : S.Env) (hist : List (S.Env × Op)) : ∀ s,
    (S.observed o).run hist s = S.run hist s := by
  induction hist with
  | nil => intro s; rfl
  | cons a r ih => intro s; exact ih _

theorem Store.observed_reach {S : Store} {o : S.Env} {s : S.State} (h : (S.observed o).Reach s) : S.Reach s := by
  obtain ⟨hist, h1, h2, h3⟩ := h
  exact ⟨hist, h1.trans (S.observed_run o hist _), h2, h3⟩

namespace Conforms
variable {S : Store} {C : Conv} {Sm : Sem} (F : Conforms S C Sm) (o : S.Env)
include F

theorem observed_graph {s : S.State} (hr : S.Reach s) : (S.observed o).graph s = (S.graph s).visible := F.seen hr o

theorem observed_vertexQueries : (S.observed o).VertexQueriesExact := by
  intro s hr env
  have hr := Store.observed_reach hr
  have := F.vertexQueries s hr env
  rw [F.observed_graph o hr]
  exact this

theorem observed_edgeQueries {lt : Edge → Edge → Bool} (h : S.EdgeQueriesExact lt) :
    (S.observed o).EdgeQueriesExact lt := by
  intro s hr env
  have hr := Store.observed_reach hr
  have := h s hr env
  rw [F.observed_graph o hr]
  exact this

theorem observed_pipeVertices {lt : EdgeDirection → Edge → Edge → Bool} (h : S.PipeVerticesExact lt) :
    (S.observed o).PipeVerticesExact lt := by
  intro s hr
  have hr := Store.observed_reach hr
  have := h s hr
  rw [F.observed_graph o hr]
  exact this

theorem observed_pipeEdges : (S.observed o).PipeEdgesExact := by
  intro s hr
  have hr := Store.observed_reach hr
  have := F.pipeEdges s hr
  rw [F.observed_graph o hr]
  exact this

theorem observed_indexExactAt {eq : Json → Json → Bool} {once : Prop} {s : S.State} (hr : S.Reach s)
    (h : S.IndexExactAt eq once s) : (S.observed o).IndexExactAt eq once s := by
  intro env n hn
  rw [F.observed_graph o hr] at hn ⊢
  obtain ⟨⟨l1, h1, h1', h1''⟩, ⟨l2, h2, h2', h2''⟩, h3, h4⟩ := h env n hn
  refine ⟨⟨l1, h1, h1', fun v => (h1'' v).trans ?_⟩, ⟨l2, h2, h2', fun v => (h2'' v).trans ?_⟩, fun x => ?_, fun x => ?_⟩
  · refine and_congr_right fun hv => ?_
    simp [Graph.visible, hv]
  · refine and_congr_right fun hv => ?_
    simp [Graph.visible, hv]
  · obtain ⟨l, ha, hb, hc⟩ := h3 x
    refine ⟨l, ha, hb, fun v => (hc v).trans (and_congr_right fun hv => ?_)⟩
    simp [Graph.visible, hv]
  · obtain ⟨l, ha, hb, hc⟩ := h4 x
    refine ⟨l, ha, hb, fun v => (hc v).trans (and_congr_right fun hv => ?_)⟩
    simp [Graph.visible, hv]

/-- Being alive at the end means having been alive all along. -/
theorem alive_run (hist : List (S.Env × Op)) : ∀ s, S.alive (S.run hist s) = true → S.alive s = true := by
  induction hist with
  | nil => intro s h; exact h
  | cons a r ih => intro s h; exact F.alive_back s a.1 a.2 (ih _ h)

/-- A condition along the history that speaks about what is seen also holds of the graphs, if it does not depend on
properties of missing owners. -/
theorem along_observed (P : Graph → Op → Prop) (hP : ∀ g op, P g.visible op → P g op) (hist : List (S.Env × Op)) :
    ∀ s, S.Reach s → S.OkHist hist → S.alive (S.run hist s) = true → (S.observed o).Along P hist s →
      S.Along P hist s := by
  induction hist with
  | nil => intros; trivial
  | cons a r ih =>
    intro s hr ho ha h
    obtain ⟨h1, h2⟩ := h
    rw [F.observed_graph o hr] at h1
    refine ⟨hP _ _ h1, ih _ (hr.next a.1 a.2 (ho a (by simp)) (F.alive_run r _ ha)) (fun p hp => ho p (by simp [hp])) ha h2⟩

end Conforms

theorem Store.checkedHist_along (S : Store) (b : Build) (hist : List (S.Env × Op)) : ∀ s,
    S.CheckedHist b hist s ↔ S.Along (fun g op => op.Checked b g) hist s := by
  induction hist with
  | nil => intro s; exact Iff.rfl
  | cons a r ih => intro s; exact and_congr Iff.rfl (ih _)

/-- Whether bulk items write to existing owners does not depend on properties. -/
theorem itemsChecked_congr (f : Graph → BulkInsertItem → Graph)
    (hf : ∀ g h i, g.vertex = h.vertex → g.edge = h.edge → (f g i).vertex = (f h i).vertex ∧ (f g i).edge = (f h i).edge)
    (items : List BulkInsertItem) : ∀ g h : Graph, g.vertex = h.vertex → g.edge = h.edge → ItemsChecked f g items →
    ItemsChecked f h items := by
  induction items with
  | nil => intros; trivial
  | cons i r ih =>
    intro g h hv he hc
    refine ⟨?_, ih _ _ (hf g h i hv he).1 (hf g h i hv he).2 hc.2⟩
    have := hc.1
    cases i with
    | vertexProperty id n x => simp only at this ⊢; rw [← hv]; exact this
    | edgeProperty e n x => simp only at this ⊢; rw [← he]; exact this
    | _ => trivial

theorem bulkItem_congr (g h : Graph) (i : BulkInsertItem) (hv : g.vertex = h.vertex) (he : g.edge = h.edge) :
    (g.bulkItem i).vertex = (h.bulkItem i).vertex ∧ (g.bulkItem i).edge = (h.bulkItem i).edge := by
  cases i with
  | vertex v =>
    simp only [Graph.bulkItem, Graph.createVertex, Graph.putVertex, hv]
    split <;> simp [hv, he]
  | edge e =>
    have hx : g.hasEndpoints e = h.hasEndpoints e := by simp only [Graph.hasEndpoints, hv]
    simp only [Graph.bulkItem, Graph.createEdge, hx]
    cases h.hasEndpoints e <;> simp [Graph.putEdge, hv, he]
  | _ => exact ⟨hv, he⟩

theorem rocksBulkItem_congr (st : Json → Json) (g h : Graph) (i : BulkInsertItem) (hv : g.vertex = h.vertex)
    (he : g.edge = h.edge) : (g.rocksBulkItem st i).vertex = (h.rocksBulkItem st i).vertex ∧
    (g.rocksBulkItem st i).edge = (h.rocksBulkItem st i).edge := by
  cases i <;> simp [Graph.rocksBulkItem, Graph.putVertex, Graph.putEdge, Graph.putVProps, Graph.putEProps, hv, he]

theorem Op.checked_visible (b : Build) (g : Graph) (op : Op) (h : op.Checked b g.visible) : op.Checked b g := by
  cases op with
  | bulkInsert items => exact itemsChecked_congr _ bulkItem_congr items g.visible g rfl rfl h
  | _ => exact h

theorem Op.indexSafe_visible (X : Cfg) (g : Graph) (op : Op) (h : op.IndexSafe X g.visible) : op.IndexSafe X g := by
  cases op with
  | bulkInsert items =>
    exact ⟨h.1, h.2.1, itemsChecked_congr _ (rocksBulkItem_congr _) items g.visible g rfl rfl h.2.2⟩
  | _ => exact h

end IndraDB
