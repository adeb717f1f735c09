import Verif.Spec.Closed
import Verif.Proofs.MemoryStore
import Verif.Proofs.RocksStore
/-
Queries return only identifiers and values that were put in.
-/
namespace IndraDB
variable {I : Identifier → Prop} {V : Json → Prop}

theorem Graph.Holds.lookup {g : Graph} (h : g.Holds I V) (ids : List Uuid) : ∀ v ∈ g.lookup ids, I v.t := by
  intro v hv
  simp only [Graph.lookup, List.mem_filterMap] at hv
  obtain ⟨id, _, hv⟩ := hv
  cases hg : g.vertex id with
  | none => simp [hg] at hv
  | some t => simp [hg] at hv; subst hv; exact h.vertex id t hg

theorem propList_holds {get : Identifier → Option Json} {name : Option Identifier} {l : List NamedProperty}
    (h : PropList get name l) (hg : ∀ n x, get n = some x → I n ∧ V x) : ∀ p ∈ l, I p.name ∧ V p.value := by
  intro p hp
  cases name with
  | none => exact hg _ _ ((h.mem p).1 hp)
  | some n =>
    have h : l = (get n).toList.map (fun v => ⟨n, v⟩) := h
    subst h
    cases hn : get n with
    | none => simp [hn] at hp
    | some x => simp [hn] at hp; subst hp; exact hg _ _ hn

/-- Outcomes with only good identifiers and values. -/
def OutAll (I : Identifier → Prop) (V : Json → Prop) (r : Res (List Output × Output)) : Prop :=
  ∀ inc v, r = .ok (inc, v) → (∀ o ∈ inc, o.All I V) ∧ v.All I V

theorem next_holds {i : Query} {S : Output → Res Output → Prop} {ri r : Res (List Output × Output)}
    (h : Next i S ri r) (hi : OutAll I V ri) (hS : ∀ v rv, v.All I V → S v rv → ∀ w, rv = .ok w → w.All I V) :
    OutAll I V r := by
  intro inc w hr
  cases ri with
  | error f => have : r = .error f := h; rw [this] at hr; cases hr
  | ok p =>
    obtain ⟨inc', v⟩ := p
    obtain ⟨rv, hs, h⟩ := h
    obtain ⟨h1, h2⟩ := hi inc' v rfl
    rw [hr] at h
    cases rv with
    | error f => cases h
    | ok w' =>
      simp only [Except.map, Except.ok.injEq, Prod.mk.injEq] at h
      obtain ⟨rfl, rfl⟩ := h
      refine ⟨?_, hS v _ h2 hs _ rfl⟩
      intro o ho
      rcases List.mem_append.1 ho with ho | ho
      · exact h1 o ho
      · split at ho
        · rw [List.mem_singleton.1 ho]; exact h2
        · cases ho

theorem pipeStage_holds {g : Graph} (hg : g.Holds I V) {C : Conv} {d : EdgeDirection} {limit : Nat}
    {t : Option Identifier} (v : Output) (rv : Res Output) (h : PipeStage g C d limit t v rv) : ∀ w, rv = .ok w →
    w.All I V := by
  intro w hw
  cases v with
  | edges es =>
    obtain ⟨l, rfl, h⟩ := h
    rw [hw] at h; cases h
    intro x hx
    exact hg.lookup _ x (List.mem_filter.1 (List.mem_of_mem_take hx)).1
  | vertices vs =>
    obtain ⟨per, hp, h⟩ := h
    rw [hw] at h; cases h
    intro x hx
    obtain ⟨a, _, ha⟩ := List.mem_flatMap.1 (List.mem_of_mem_take hx)
    exact hg.edge x (((hp a.id).mem x).1 ha).1
  | _ => have h : rv = _ := h; rw [hw] at h; cases h

theorem propertyStage_holds {g : Graph} (hg : g.Holds I V) {C : Conv} {n : Option Identifier} (v : Output)
    (rv : Res Output) (hv : v.All I V) (h : PropertyStage g C n v rv) : ∀ w, rv = .ok w → w.All I V := by
  intro w hw
  cases v with
  | vertices vs =>
    simp only [PropertyStage] at h
    split at h
    · rw [hw] at h; cases h
    · obtain ⟨props, hp, h⟩ := h
      rw [hw] at h; cases h
      intro x hx
      obtain ⟨a, ha, hx⟩ := List.mem_filterMap.1 hx
      split at hx
      · cases hx
      · cases hx
        exact ⟨hv a ha, propList_holds (hp a ha) (fun n x h => hg.vprop _ n x h)⟩
  | edges es =>
    obtain ⟨props, hp, h⟩ := h
    rw [hw] at h; cases h
    intro x hx
    obtain ⟨a, ha, hx⟩ := List.mem_filterMap.1 hx
    split at hx
    · cases hx
    · cases hx
      exact ⟨hv a ha, propList_holds (hp a) (fun n x h => (hg.eprop _ n x h).2)⟩
  | _ => have h : rv = _ := h; rw [hw] at h; cases h

theorem filterStage_holds {g : Graph} {n : Identifier} {vin : Uuid → Bool} {ein : Edge → Bool} {keep : Bool}
    (v : Output) (rv : Res Output) (hv : v.All I V) (h : FilterStage g n vin ein keep v rv) :
    ∀ w, rv = .ok w → w.All I V := by
  intro w hw
  cases v with
  | vertices vs =>
    simp only [FilterStage] at h
    split at h <;> (rw [hw] at h; cases h)
    exact fun x hx => hv x ((List.mem_filter.1 hx).1)
  | edges es =>
    simp only [FilterStage] at h
    split at h <;> (rw [hw] at h; cases h)
    exact fun x hx => hv x ((List.mem_filter.1 hx).1)
  | _ => have h : rv = _ := h; rw [hw] at h; cases h

theorem countStage_holds (v : Output) (rv : Res Output) (h : CountStage v rv) : ∀ w, rv = .ok w → w.All I V := by
  intro w hw
  unfold CountStage at h
  split at h <;> (rw [hw] at h; cases h)
  trivial

/-- Answers contain only identifiers and values of the database. -/
theorem answers_holds {g : Graph} {J : IndexView} {C : Conv} (hg : g.Holds I V) (hJ : J.Holds I) : ∀ (q : Query)
    (r : Res (List Output × Output)), Answers g J C q r → OutAll I V r := by
  have base : ∀ (v : Output), v.All I V → OutAll I V (.ok ([], v)) := by
    intro v hv inc w h; cases h; exact ⟨by simp, hv⟩
  have err : ∀ f, OutAll I V (.error f) := by intro f inc w h; cases h
  intro q
  induction q with
  | allVertex => rintro r ⟨l, hl, rfl⟩; exact base _ (fun v hv => hg.vertex _ _ ((hl.mem v).1 hv))
  | rangeVertex limit t s =>
    rintro r ⟨l, hl, rfl⟩
    exact base _ (fun v hv => hg.vertex _ _ ((hl.mem v).1 (List.mem_of_mem_take hv)).1)
  | specificVertex ids => rintro r rfl; exact base _ (hg.lookup ids)
  | vertexWithPropertyPresence n =>
    intro r h
    simp only [Answers] at h
    split at h
    · obtain ⟨l, _, rfl⟩ := h; exact base _ (hg.lookup l)
    · subst h; exact err _
  | vertexWithPropertyValue n v =>
    intro r h
    simp only [Answers] at h
    split at h
    · obtain ⟨l, _, rfl⟩ := h; exact base _ (hg.lookup l)
    · subst h; exact err _
  | allEdge => rintro r ⟨l, hl, rfl⟩; exact base _ (fun e he => hg.edge e ((hl.mem e).1 he))
  | specificEdge es =>
    rintro r rfl
    exact base _ (fun e he => hg.edge e (List.mem_filter.1 he).2)
  | edgeWithPropertyPresence n =>
    intro r h
    simp only [Answers] at h
    split at h
    · obtain ⟨l, hl, rfl⟩ := h; exact base _ (fun e he => hJ.present n e ((hl.1 e).1 he))
    · subst h; exact err _
  | edgeWithPropertyValue n v =>
    intro r h
    simp only [Answers] at h
    split at h
    · obtain ⟨l, hl, rfl⟩ := h; exact base _ (fun e he => hJ.value n v e ((hl.1 e).1 he))
    · subst h; exact err _
  | pipe i d limit t ih =>
    rintro r ⟨ri, h1, h2⟩
    exact next_holds h2 (ih ri h1) (fun v rv _ h => pipeStage_holds hg v rv h)
  | pipeProperty i n ih =>
    rintro r ⟨ri, h1, h2⟩
    exact next_holds h2 (ih ri h1) (fun v rv hv h => propertyStage_holds hg v rv hv h)
  | pipeWithPropertyPresence i n keep ih =>
    rintro r ⟨ri, h1, h2⟩
    exact next_holds h2 (ih ri h1) (fun v rv hv h => filterStage_holds v rv hv h)
  | pipeWithPropertyValue i n v keep ih =>
    rintro r ⟨ri, h1, h2⟩
    exact next_holds h2 (ih ri h1) (fun v rv hv h => filterStage_holds v rv hv h)
  | incl i ih => exact fun r h => ih r h
  | count i ih =>
    rintro r ⟨ri, h1, h2⟩
    exact next_holds h2 (ih ri h1) (fun v rv _ h => countStage_holds v rv h)

/-! ### Writes -/

/-- The meaning of writes does not bring in anything else. -/
structure Sem.Holds (I : Identifier → Prop) (V : Json → Prop) (Sm : Sem) : Prop where
  dropVertices : ∀ g ids, Graph.Holds I V g → (Sm.dropVertices g ids).Holds I V
  dropEdges : ∀ g es, Graph.Holds I V g → (Sm.dropEdges g es).Holds I V
  bulkItem : ∀ g i, Graph.Holds I V g → i.All I V → (Sm.bulkItem g i).Holds I V
  stored : ∀ x, V x → V (Sm.stored x)

theorem Graph.Holds.putVProps {g : Graph} (h : g.Holds I V) (ids : List Uuid) {n : Identifier} {x : Json} (hn : I n)
    (hx : V x) : (g.putVProps ids n x).Holds I V := by
  refine ⟨h.vertex, h.edge, ?_, h.eprop⟩
  intro id m y hy
  simp only [Graph.putVProps] at hy
  split at hy
  · rename_i hc; cases hy; rw [hc.2]; exact ⟨hn, hx⟩
  · exact h.vprop _ _ _ hy

theorem Graph.Holds.putEProps {g : Graph} (h : g.Holds I V) (es : List Edge) {n : Identifier} {x : Json} (hn : I n)
    (hx : V x) (he : ∀ e ∈ es, I e.t) : (g.putEProps es n x).Holds I V := by
  refine ⟨h.vertex, h.edge, h.vprop, ?_⟩
  intro e m y hy
  simp only [Graph.putEProps] at hy
  split at hy
  · rename_i hc; cases hy; rw [hc.2]; exact ⟨he e hc.1, hn, hx⟩
  · exact h.eprop _ _ _ hy

theorem Graph.Holds.dropVProps {g : Graph} (h : g.Holds I V) (ps : List (Uuid × Identifier)) :
    (g.dropVProps ps).Holds I V := by
  refine ⟨h.vertex, h.edge, ?_, h.eprop⟩
  intro id m y hy
  simp only [Graph.dropVProps] at hy
  split at hy
  · cases hy
  · exact h.vprop _ _ _ hy

theorem Graph.Holds.dropEProps {g : Graph} (h : g.Holds I V) (ps : List (Edge × Identifier)) :
    (g.dropEProps ps).Holds I V := by
  refine ⟨h.vertex, h.edge, h.vprop, ?_⟩
  intro id m y hy
  simp only [Graph.dropEProps] at hy
  split at hy
  · cases hy
  · exact h.eprop _ _ _ hy

theorem Graph.Holds.dropEdges {g : Graph} (h : g.Holds I V) (es : List Edge) : (g.dropEdges es).Holds I V := by
  refine ⟨h.vertex, ?_, h.vprop, ?_⟩
  · intro e he
    simp only [Graph.dropEdges] at he
    split at he
    · cases he
    · exact h.edge e he
  · intro id m y hy
    simp only [Graph.dropEdges] at hy
    split at hy
    · cases hy
    · exact h.eprop _ _ _ hy

theorem Graph.Holds.dropVertices {g : Graph} (h : g.Holds I V) (ids : List Uuid) : (g.dropVertices ids).Holds I V := by
  refine ⟨?_, ?_, ?_, ?_⟩
  · intro i t ht
    simp only [Graph.dropVertices] at ht
    split at ht
    · cases ht
    · exact h.vertex _ _ ht
  · intro e he
    simp only [Graph.dropVertices] at he
    split at he
    · cases he
    · exact h.edge e he
  · intro id m y hy
    simp only [Graph.dropVertices] at hy
    split at hy
    · cases hy
    · exact h.vprop _ _ _ hy
  · intro id m y hy
    simp only [Graph.dropVertices] at hy
    split at hy
    · cases hy
    · exact h.eprop _ _ _ hy

theorem Graph.Holds.putVertex {g : Graph} (h : g.Holds I V) (id : Uuid) {t : Identifier} (ht : I t) :
    (g.putVertex id t).Holds I V := by
  refine ⟨?_, h.edge, h.vprop, h.eprop⟩
  intro i x hx
  simp only [Graph.putVertex] at hx
  split at hx
  · cases hx; exact ht
  · exact h.vertex _ _ hx

theorem Graph.Holds.putEdge {g : Graph} (h : g.Holds I V) {e : Edge} (ht : I e.t) : (g.putEdge e).Holds I V := by
  refine ⟨h.vertex, ?_, h.vprop, h.eprop⟩
  intro x hx
  simp only [Graph.putEdge, Bool.or_eq_true, decide_eq_true_eq] at hx
  rcases hx with rfl | hx
  · exact ht
  · exact h.edge _ hx

theorem Graph.Holds.createVertex {g : Graph} (h : g.Holds I V) {v : Vertex} (ht : I v.t) :
    (g.createVertex v).Holds I V := by
  unfold Graph.createVertex; split
  · exact h.putVertex _ ht
  · exact h

theorem Graph.Holds.createEdge {g : Graph} (h : g.Holds I V) {e : Edge} (ht : I e.t) :
    (g.createEdge e).Holds I V := by
  unfold Graph.createEdge; split
  · exact h.putEdge ht
  · exact h

theorem Sem.intended_holds : Sem.intended.Holds I V where
  dropVertices := fun _ ids h => h.dropVertices ids
  dropEdges := fun _ es h => h.dropEdges es
  bulkItem := fun g i h hi => by
    cases i with
    | vertex v => exact h.createVertex hi
    | edge e => exact h.createEdge hi
    | vertexProperty id n v => exact h.putVProps _ hi.1 hi.2
    | edgeProperty e n v => exact h.putEProps _ hi.2.1 hi.2.2 (by intro x hx; rw [List.mem_singleton.1 hx]; exact hi.1)
  stored := fun _ h => h

theorem Sem.rocks_holds (X : Cfg) (hV : ∀ x, V x → V (X.stored x)) : (Sem.rocks X).Holds I V where
  dropVertices := fun g ids h => by
    refine ⟨?_, ?_, ?_, ?_⟩
    · intro i t ht
      simp only [Sem.rocks, Graph.rocksDropVertices] at ht
      split at ht
      · cases ht
      · exact h.vertex _ _ ht
    · intro e he
      simp only [Sem.rocks, Graph.rocksDropVertices] at he
      split at he
      · cases he
      · exact h.edge e he
    · intro id m y hy
      simp only [Sem.rocks, Graph.rocksDropVertices] at hy
      split at hy
      · cases hy
      · exact h.vprop _ _ _ hy
    · intro id m y hy
      simp only [Sem.rocks, Graph.rocksDropVertices] at hy
      split at hy
      · cases hy
      · exact h.eprop _ _ _ hy
  dropEdges := fun _ es h => h.dropEdges _
  bulkItem := fun g i h hi => by
    cases i with
    | vertex v => exact h.putVertex _ hi
    | edge e => exact h.putEdge hi
    | vertexProperty id n v => exact h.putVProps _ hi.1 (hV _ hi.2)
    | edgeProperty e n v =>
      exact h.putEProps _ hi.2.1 (hV _ hi.2.2) (by intro x hx; rw [List.mem_singleton.1 hx]; exact hi.1)
  stored := hV

/-- One call keeps the database closed, and its reply is. -/
theorem stepWith_holds {Sm : Sem} (hS : Sm.Holds I V) {g g' : Graph} {ans : Query → Res (List Output × Output)} {op : Op}
    {r : Res Reply} (hg : g.Holds I V) (ha : ∀ q, OutAll I V (ans q)) (ho : op.All I V) (h : StepWith Sm g ans op g' r) :
    g'.Holds I V ∧ ∀ x, r = .ok x → x.All I V := by
  have u : ∀ x, (.ok .unit : Res Reply) = .ok x → x.All I V := by intro x hx; cases hx; trivial
  cases op with
  | sync => obtain ⟨rfl, rfl⟩ := h; exact ⟨hg, u⟩
  | createVertex v =>
    obtain ⟨rfl, rfl⟩ := h
    exact ⟨hg.createVertex ho, by intro x hx; cases hx; trivial⟩
  | createVertexFromType id t =>
    obtain ⟨rfl, rfl⟩ := h
    refine ⟨hg.createVertex (v := ⟨id, t⟩) ho, ?_⟩
    intro x hx
    split at hx <;> cases hx
    trivial
  | createEdge e =>
    obtain ⟨rfl, rfl⟩ := h
    exact ⟨hg.createEdge ho, by intro x hx; cases hx; trivial⟩
  | get q =>
    obtain ⟨rfl, rfl⟩ := h
    refine ⟨hg, ?_⟩
    intro x hx
    have := ha q
    cases hq : ans q with
    | error f => rw [hq] at hx; cases hx
    | ok p =>
      rw [hq] at hx; cases hx
      obtain ⟨h1, h2⟩ := this p.1 p.2 hq
      intro o ho
      rcases List.mem_append.1 ho with h | h
      · exact h1 o h
      · rw [List.mem_singleton.1 h]; exact h2
  | delete q =>
    simp only [StepWith] at h
    cases hq : ans q with
    | error f => rw [hq] at h; obtain ⟨rfl, rfl⟩ := h; exact ⟨hg, by intro x hx; cases hx⟩
    | ok p =>
      obtain ⟨inc, v⟩ := p
      rw [hq] at h
      cases v with
      | vertices vs => obtain ⟨rfl, rfl⟩ := h; exact ⟨hS.dropVertices _ _ hg, u⟩
      | edges vs => obtain ⟨rfl, rfl⟩ := h; exact ⟨hS.dropEdges _ _ hg, u⟩
      | vertexProperties l => obtain ⟨rfl, rfl⟩ := h; exact ⟨hg.dropVProps _, u⟩
      | edgeProperties l => obtain ⟨rfl, rfl⟩ := h; exact ⟨hg.dropEProps _, u⟩
      | count n => obtain ⟨rfl, rfl⟩ := h; exact ⟨hg, by intro x hx; cases hx⟩
  | setProperties q n x =>
    obtain ⟨_, hn, hx⟩ := ho
    simp only [StepWith] at h
    cases hq : ans q with
    | error f => rw [hq] at h; obtain ⟨rfl, rfl⟩ := h; exact ⟨hg, by intro x hx; cases hx⟩
    | ok p =>
      obtain ⟨inc, v⟩ := p
      rw [hq] at h
      have hv := (ha q inc v hq).2
      cases v with
      | vertices vs => obtain ⟨rfl, rfl⟩ := h; exact ⟨hg.putVProps _ hn (hS.stored _ hx), u⟩
      | edges vs => obtain ⟨rfl, rfl⟩ := h; exact ⟨hg.putEProps _ hn (hS.stored _ hx) hv, u⟩
      | _ => obtain ⟨rfl, rfl⟩ := h; exact ⟨hg, by intro x hx; cases hx⟩
  | bulkInsert items =>
    obtain ⟨rfl, rfl⟩ := h
    refine ⟨?_, u⟩
    have ho : ∀ i ∈ items, i.All I V := ho
    clear u
    induction items generalizing g with
    | nil => exact hg
    | cons i r ih =>
      exact ih (hS.bulkItem g i hg (ho i List.mem_cons_self)) (fun j hj => ho j (List.mem_cons_of_mem _ hj))
        (fun j hj => ho j (List.mem_cons_of_mem _ hj))
  | indexProperty n =>
    obtain ⟨rfl, rfl⟩ := h
    exact ⟨⟨hg.vertex, hg.edge, hg.vprop, hg.eprop⟩, u⟩

end IndraDB
