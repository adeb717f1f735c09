import Verif.Proofs.MemoryReads
import Verif.Spec.Step
/-
Effects of the memory datastore's writes on the graph and on the index.
-/
set_option linter.unusedSimpArgs false
set_option linter.unusedSectionVars false
namespace IndraDB
namespace Mem
open Container

variable {K : HashEq} {b : Build}

/-- The property `n` of a vertex or edge. -/
def prop (m : Mem) (x : Member) (n : Identifier) : Option Json :=
  match x with
  | .inl i => m.vertexProperties.get (i, n)
  | .inr e => m.edgeProperties.get (e, n)

/-- All containers have distinct keys. -/
def AllDistinct (K : HashEq) (m : Mem) : Prop := ∀ n c, m.propertyValues.get n = some c → c.Distinct K

/-- Every index entry is backed by a property. -/
def Sound (K : HashEq) (m : Mem) : Prop :=
  ∀ n v x, m.idx K n v x = true → ∃ w, m.prop x n = some w ∧ K.same w v = true

/-- Every property with an indexed name is in the index. -/
def Full (K : HashEq) (m : Mem) : Prop :=
  ∀ n x w, m.propertyValues.contains n = true → m.prop x n = some w → m.idx K n w x = true

/-- Facts that hold in every state, also in the middle of a call; soundness of the index only in debug builds. -/
structure WF (K : HashEq) (b : Build) (m : Mem) : Prop where
  rev : m.RevOk
  distinct : AllDistinct K m
  sound : b = .debug → Sound K m

theorem listed_iff {m : Mem} (h : AllDistinct K m) (n : Identifier) (x : Member) :
    m.listed n x = true ↔ ∃ v, m.idx K n v x = true := by
  unfold listed idx
  cases hc : m.propertyValues.get n with
  | none => simp
  | some c => exact any_iff (h n c hc) x

theorem indexed_of_idx {m : Mem} {n : Identifier} {v : Json} {x : Member} (h : m.idx K n v x = true) :
    m.propertyValues.contains n = true := by
  unfold idx at h
  cases hc : m.propertyValues.get n with
  | none => rw [hc] at h; simp at h
  | some c => simp [SMap.contains, hc]

/-- The effect of a call: it succeeds and changes the graph by `φ`, keeping the invariants; or it panics, which only
happens in debug builds and only if some property is missing in the index. -/
def Eff (K : HashEq) (b : Build) {α : Type} (φ : Graph → Graph) (m : Mem) (u : Upd Mem α) : Prop :=
  match u.2 with
  | .ok _ => u.1.graph = φ m.graph ∧ (WF K b m → WF K b u.1) ∧ (Full K m → Full K u.1)
  | .error f => f = .panic ∧ b = .debug ∧ ¬ Full K m

theorem Eff.refl {α : Type} (m : Mem) (a : α) : Eff K b id m (m, .ok a) := ⟨rfl, fun h => h, fun h => h⟩

theorem Eff.trans {α β : Type} {φ ψ : Graph → Graph} {m m1 : Mem} {a : α} {u : Upd Mem β}
    (h1 : Eff K b φ m (m1, .ok a)) (h2 : Eff K b ψ m1 u) : Eff K b (ψ ∘ φ) m u := by
  unfold Eff at *
  obtain ⟨g1, w1, f1⟩ := h1
  cases hu : u.2 with
  | ok _ =>
    rw [hu] at h2
    obtain ⟨g2, w2, f2⟩ := h2
    exact ⟨by rw [g2, g1]; rfl, fun h => w2 (w1 h), fun h => f2 (f1 h)⟩
  | error f =>
    rw [hu] at h2
    exact ⟨h2.1, h2.2.1, fun h => h2.2.2 (f1 h)⟩

theorem Eff.error {α β : Type} {φ ψ : Graph → Graph} {m m1 m2 : Mem} {f : Fault}
    (h1 : Eff K b φ m ((m1, .error f) : Upd Mem α)) : Eff K b ψ m ((m2, .error f) : Upd Mem β) := h1

theorem Eff.congr {α : Type} {φ ψ : Graph → Graph} {m : Mem} {u : Upd Mem α} (h : Eff K b φ m u)
    (he : φ m.graph = ψ m.graph) : Eff K b ψ m u := by
  unfold Eff at *
  cases hu : u.2 with
  | ok _ => rw [hu] at h; exact ⟨h.1.trans he, h.2⟩
  | error f => rw [hu] at h; exact h

theorem Eff.map {α β : Type} {φ : Graph → Graph} {m : Mem} {u : Upd Mem α} {u' : Upd Mem β} (h : Eff K b φ m u)
    (h1 : u'.1 = u.1) (h2 : ∀ f, u.2 = .error f ↔ u'.2 = .error f) : Eff K b φ m u' := by
  unfold Eff at *
  cases hu : u.2 with
  | ok a =>
    rw [hu] at h
    cases hu' : u'.2 with
    | ok a' => simp only [h1]; exact h
    | error f => have := (h2 f).2 hu'; rw [hu] at this; exact absurd this (by simp)
  | error f => rw [hu] at h; rw [(h2 f).1 hu]; exact h

theorem Eff.forEach {α β : Type} {f : α → Mem → Upd Mem β} {φ : α → Graph → Graph}
    (h : ∀ a m, Eff K b (φ a) m (f a m)) (l : List α) :
    ∀ m, Eff K b (fun g => l.foldl (fun g a => φ a g) g) m (forEach f l m) := by
  induction l with
  | nil => intro m; exact Eff.refl m ()
  | cons a r ih =>
    intro m
    have h1 := h a m
    rw [IndraDB.forEach]
    generalize f a m = u at h1
    obtain ⟨m1, res⟩ := u
    cases res with
    | ok x => simp only; exact (h1.trans (ih m1)).congr rfl
    | error e => simp only; exact h1.error

/-! ### Index operations -/

theorem get_setContainer (m : Mem) (n n' : Identifier) (c : Container) :
    (m.propertyValues.insert n c).get n' = if n' = n then some c else m.propertyValues.get n' :=
  SMap.get_insert _ _ _ _

theorem contains_setContainer {m : Mem} {n : Identifier} (c : Container) (h : m.propertyValues.contains n = true)
    (n' : Identifier) : (m.propertyValues.insert n c).contains n' = m.propertyValues.contains n' := by
  simp only [SMap.contains, get_setContainer] at *
  split
  · rename_i hn; rw [hn, h]; rfl
  · rfl

/-- Effect of `unindex` on the index. -/
theorem unindex_spec (n : Identifier) (v : Json) (x : Member) (m : Mem) :
    match (unindex K b n v x m).2 with
    | .ok _ =>
      (unindex K b n v x m).1.vertices = m.vertices ∧ (unindex K b n v x m).1.edges = m.edges ∧
      (unindex K b n v x m).1.reversedEdges = m.reversedEdges ∧
      (unindex K b n v x m).1.vertexProperties = m.vertexProperties ∧
      (unindex K b n v x m).1.edgeProperties = m.edgeProperties ∧
      (∀ n', (unindex K b n v x m).1.propertyValues.contains n' = m.propertyValues.contains n') ∧
      (AllDistinct K m → AllDistinct K (unindex K b n v x m).1) ∧
      (∀ n' w y, (unindex K b n v x m).1.idx K n' w y = true → m.idx K n' w y = true) ∧
      (∀ n' w y, m.idx K n' w y = true → (n', y) ≠ (n, x) → (unindex K b n v x m).1.idx K n' w y = true) ∧
      (b = .debug → ∀ w, K.same v w = true → (unindex K b n v x m).1.idx K n w x = false)
    | .error f => f = .panic ∧ b = .debug ∧ m.propertyValues.contains n = true ∧ m.idx K n v x = false := by
  unfold unindex
  cases hc : m.propertyValues.get n with
  | none =>
    simp only
    refine ⟨by trivial, by trivial, by trivial, by trivial, by trivial, by simp, fun h => h, fun _ _ _ h => h, fun _ _ _ h _ => h, ?_⟩
    intro _ w _; simp [idx, hc]
  | some c =>
    simp only
    cases b with
    | release =>
      simp only
      exact ⟨by trivial, by trivial, by trivial, by trivial, by trivial, by simp, fun h => h, fun _ _ _ h => h, fun _ _ _ h _ => h, fun h => nomatch h⟩
    | debug =>
      simp only
      cases hf : c.find K v with
      | none =>
        simp only
        exact ⟨by trivial, by trivial, by simp [SMap.contains, hc], by simp [idx, hc, Container.idx, hf]⟩
      | some s =>
        simp only
        by_cases hs : SMap.contains s x = true
        · rw [if_pos hs]
          simp only
          have hidx : ∀ n' w y, ({ m with propertyValues := m.propertyValues.insert n (c.update K v (fun s => s.erase x)) } : Mem).idx K n' w y
              = (m.idx K n' w y && !(decide (n' = n) && (K.same v w && decide (y = x)))) := by
            intro n' w y
            unfold idx
            simp only [get_setContainer]
            by_cases hn : n' = n
            · rw [if_pos hn, hn, hc]; simp only [idx_update]; simp
            · rw [if_neg hn]; simp [hn]
          refine ⟨by trivial, by trivial, by trivial, by trivial, by trivial, ?_, ?_, ?_, ?_, ?_⟩
          · exact contains_setContainer _ (by simp [SMap.contains, hc])
          · intro hd n' c' hc'
            simp only [get_setContainer] at hc'
            split at hc'
            · simp at hc'; rw [← hc']; exact distinct_update (hd n c hc) _ _
            · exact hd n' c' hc'
          · intro n' w y h; rw [hidx] at h; simp at h; exact h.1
          · intro n' w y h hne
            rw [hidx, h]
            simp only [Bool.true_and, Bool.not_eq_true', Bool.and_eq_false_iff, decide_eq_false_iff_not]
            by_cases hn : n' = n
            · right; right; intro hy; exact hne (by rw [hn, hy])
            · exact Or.inl hn
          · intro _ w hw; rw [hidx, hw]; simp
        · rw [if_neg hs]
          simp only
          exact ⟨by trivial, by trivial, by simp [SMap.contains, hc], by simp [idx, hc, Container.idx, hf]; simpa using hs⟩

theorem graph_congr {m m' : Mem} (h1 : m'.vertices = m.vertices) (h2 : m'.edges = m.edges)
    (h3 : m'.vertexProperties = m.vertexProperties) (h4 : m'.edgeProperties = m.edgeProperties)
    (h5 : ∀ n, m'.propertyValues.contains n = m.propertyValues.contains n) : m'.graph = m.graph := by
  unfold graph; rw [h1, h2, h3, h4]; congr 1; funext n; exact h5 n

/-- Deleting one property. -/
theorem deleteVertexProperty_eff (p : Uuid × Identifier) (m : Mem) :
    Eff K b (fun g => g.dropVProps [p]) m (deleteVertexProperty K b p m) := by
  unfold deleteVertexProperty
  cases hp : m.vertexProperties.get p with
  | none =>
    refine (Eff.refl m ()).congr ?_
    simp only [id]
    ext i n w <;> simp [Graph.dropVProps]
    intro hin heq
    subst heq
    simp [graph, hp] at hin
  | some value =>
    simp only
    have hu := unindex_spec (K := K) (b := b) p.2 value (.inl p.1) { m with vertexProperties := m.vertexProperties.erase p }
    unfold Eff
    generalize unindex K b p.2 value (.inl p.1) { m with vertexProperties := m.vertexProperties.erase p } = u at hu
    obtain ⟨m', res⟩ := u
    cases res with
    | error f =>
      simp only at hu ⊢
      obtain ⟨h1, h2, h3, h4⟩ := hu
      refine ⟨h1, h2, fun hf => ?_⟩
      have := hf p.2 (.inl p.1) value h3 hp
      simp only [idx] at this h4
      rw [h4] at this; exact absurd this (by simp)
    | ok _ =>
      simp only at hu ⊢
      obtain ⟨h1, h2, h3, h4, h5, h6, h7, h8, h9, h10⟩ := hu
      have hprop : ∀ x n, m'.prop x n = if x = .inl p.1 ∧ n = p.2 then none else m.prop x n := by
        intro x n
        cases x with
        | inl i =>
          simp only [prop, h4, SMap.get_erase]
          by_cases h : (i, n) = p
          · subst h; simp
          · rw [if_neg h, if_neg]
            rintro ⟨hi, hn⟩; exact h (by cases hi; cases hn; rfl)
        | inr e => simp [prop, h5]
      refine ⟨?_, ?_, ?_⟩
      · ext i n w
        · simp [graph, h1, Graph.dropVProps]
        · simp [graph, h2, Graph.dropVProps]
        · simp only [graph, Graph.dropVProps, h4, SMap.get_erase, List.mem_singleton]
        · simp [graph, h5, Graph.dropVProps]
        · simp [graph, h6, Graph.dropVProps]
      · intro w
        refine ⟨?_, h7 w.distinct, ?_⟩
        · intro e; rw [h3, h2]; exact w.rev e
        · intro hb n v x hx
          have hold := h8 n v x hx
          obtain ⟨u, hu, hs⟩ := w.sound hb n v x hold
          refine ⟨u, ?_, hs⟩
          rw [hprop]
          rw [if_neg]
          · exact hu
          · rintro ⟨rfl, rfl⟩
            have : u = value := by
              have h : m.vertexProperties.get p = some u := hu
              rw [hp] at h; exact (Option.some.inj h).symm
            subst this
            rw [h10 hb v hs] at hx; exact absurd hx (by simp)
      · intro hf n x u hn hx
        rw [h6] at hn
        rw [hprop] at hx
        split at hx
        · exact absurd hx (by simp)
        · rename_i hne
          refine h9 n u x (hf n x u hn hx) ?_
          intro h; cases h; exact hne ⟨rfl, rfl⟩

theorem deleteEdgeProperty_eff (p : Edge × Identifier) (m : Mem) :
    Eff K b (fun g => g.dropEProps [p]) m (deleteEdgeProperty K b p m) := by
  unfold deleteEdgeProperty
  cases hp : m.edgeProperties.get p with
  | none =>
    refine (Eff.refl m ()).congr ?_
    simp only [id]
    ext i n w <;> simp [Graph.dropEProps]
    intro hin heq
    subst heq
    simp [graph, hp] at hin
  | some value =>
    simp only
    have hu := unindex_spec (K := K) (b := b) p.2 value (.inr p.1) { m with edgeProperties := m.edgeProperties.erase p }
    unfold Eff
    generalize unindex K b p.2 value (.inr p.1) { m with edgeProperties := m.edgeProperties.erase p } = u at hu
    obtain ⟨m', res⟩ := u
    cases res with
    | error f =>
      simp only at hu ⊢
      obtain ⟨h1, h2, h3, h4⟩ := hu
      refine ⟨h1, h2, fun hf => ?_⟩
      have := hf p.2 (.inr p.1) value h3 hp
      simp only [idx] at this h4
      rw [h4] at this; exact absurd this (by simp)
    | ok _ =>
      simp only at hu ⊢
      obtain ⟨h1, h2, h3, h4, h5, h6, h7, h8, h9, h10⟩ := hu
      have hprop : ∀ x n, m'.prop x n = if x = .inr p.1 ∧ n = p.2 then none else m.prop x n := by
        intro x n
        cases x with
        | inr i =>
          simp only [prop, h5, SMap.get_erase]
          by_cases h : (i, n) = p
          · subst h; simp
          · rw [if_neg h, if_neg]
            rintro ⟨hi, hn⟩; exact h (by cases hi; cases hn; rfl)
        | inl e => simp [prop, h4]
      refine ⟨?_, ?_, ?_⟩
      · ext i n w
        · simp [graph, h1, Graph.dropEProps]
        · simp [graph, h2, Graph.dropEProps]
        · simp [graph, h4, Graph.dropEProps]
        · simp only [graph, Graph.dropEProps, h5, SMap.get_erase, List.mem_singleton]
        · simp [graph, h6, Graph.dropEProps]
      · intro w
        refine ⟨?_, h7 w.distinct, ?_⟩
        · intro e; rw [h3, h2]; exact w.rev e
        · intro hb n v x hx
          have hold := h8 n v x hx
          obtain ⟨u, hu, hs⟩ := w.sound hb n v x hold
          refine ⟨u, ?_, hs⟩
          rw [hprop]
          rw [if_neg]
          · exact hu
          · rintro ⟨rfl, rfl⟩
            have : u = value := by
              have h : m.edgeProperties.get p = some u := hu
              rw [hp] at h; exact (Option.some.inj h).symm
            subst this
            rw [h10 hb v hs] at hx; exact absurd hx (by simp)
      · intro hf n x u hn hx
        rw [h6] at hn
        rw [hprop] at hx
        split at hx
        · exact absurd hx (by simp)
        · rename_i hne
          refine h9 n u x (hf n x u hn hx) ?_
          intro h; cases h; exact hne ⟨rfl, rfl⟩

theorem foldl_dropVProps (l : List (Uuid × Identifier)) : ∀ g : Graph,
    l.foldl (fun g p => g.dropVProps [p]) g = g.dropVProps l := by
  induction l with
  | nil => intro g; ext <;> simp [Graph.dropVProps]
  | cons a r ih =>
    intro g
    rw [List.foldl_cons, ih]
    ext i n w <;> simp [Graph.dropVProps]
    by_cases h1 : (i, n) ∈ r <;> by_cases h2 : (i, n) = a <;> simp [h1, h2]

theorem foldl_dropEProps (l : List (Edge × Identifier)) : ∀ g : Graph,
    l.foldl (fun g p => g.dropEProps [p]) g = g.dropEProps l := by
  induction l with
  | nil => intro g; ext <;> simp [Graph.dropEProps]
  | cons a r ih =>
    intro g
    rw [List.foldl_cons, ih]
    ext i n w <;> simp [Graph.dropEProps]
    by_cases h1 : (i, n) ∈ r <;> by_cases h2 : (i, n) = a <;> simp [h1, h2]

theorem deleteVertexProperties_eff (l : List (Uuid × Identifier)) (m : Mem) :
    Eff K b (fun g => g.dropVProps l) m (deleteVertexProperties K b l m) :=
  (Eff.forEach deleteVertexProperty_eff l m).congr (foldl_dropVProps l _)

theorem deleteEdgeProperties_eff (l : List (Edge × Identifier)) (m : Mem) :
    Eff K b (fun g => g.dropEProps l) m (deleteEdgeProperties K b l m) :=
  (Eff.forEach deleteEdgeProperty_eff l m).congr (foldl_dropEProps l _)

/-- A change of vertices and edges only. -/
theorem Eff.structural {α : Type} {φ : Graph → Graph} {m m' : Mem} {a : α} (hg : m'.graph = φ m.graph)
    (h1 : m'.vertexProperties = m.vertexProperties) (h2 : m'.edgeProperties = m.edgeProperties)
    (h3 : m'.propertyValues = m.propertyValues) (h4 : m.RevOk → m'.RevOk) : Eff K b φ m (m', .ok a) := by
  have hp : ∀ x n, m'.prop x n = m.prop x n := by
    intro x n; cases x <;> simp [prop, h1, h2]
  have hi : ∀ n v x, m'.idx K n v x = m.idx K n v x := by
    intro n v x; simp [idx, h3]
  refine ⟨hg, fun w => ⟨h4 w.rev, ?_, ?_⟩, ?_⟩
  · intro n c hc; exact w.distinct n c (by rw [← h3]; exact hc)
  · intro hb n v x hx; rw [hi] at hx; simp only [hp]; exact w.sound hb n v x hx
  · intro hf n x w hn hx; rw [hi]; rw [hp] at hx; rw [h3] at hn; exact hf n x w hn hx

/-- The keys collected by the scans in `delete_vertices` / `delete_edges`. -/
theorem mem_ownerKeys {α : Type} [Order α] [DecidableEq α] (p : SMap (α × Identifier) Json) (o : α) (k : α × Identifier) :
    k ∈ ((p.rangeFrom (o, Identifier.empty)).map (·.1)).takeWhile (fun k => decide (o = k.1)) ↔
      k.1 = o ∧ p.contains k = true := by
  have hs : ((p.rangeFrom (o, Identifier.empty)).map (·.1)).Pairwise (fun a b => Order.lt a b = true) := by
    rw [List.pairwise_map]; exact SMap.rangeFrom_sorted _ _
  have hmem : ∀ k, k ∈ (p.rangeFrom (o, Identifier.empty)).map (·.1) ↔
      p.contains k = true ∧ Order.lt k.1 o = false := by
    intro k
    rw [List.mem_map, SMap.contains_iff]
    constructor
    · rintro ⟨e, he, rfl⟩
      rw [SMap.mem_rangeFrom, prop_scan_lower] at he
      exact ⟨⟨e.2, he.1⟩, he.2⟩
    · rintro ⟨⟨v, hv⟩, h⟩
      exact ⟨(k, v), by rw [SMap.mem_rangeFrom, prop_scan_lower]; exact ⟨hv, h⟩, rfl⟩
  rw [takeWhile_eq_filter]
  · rw [List.mem_filter, hmem, decide_eq_true_eq]
    constructor
    · rintro ⟨⟨h1, h2⟩, h3⟩; exact ⟨h3.symm, h1⟩
    · rintro ⟨h1, h2⟩; exact ⟨⟨h2, by rw [h1]; exact Order.irrefl _⟩, h1.symm⟩
  · refine hs.imp_of_mem ?_
    intro a c ha hc hac hc'
    simp only [decide_eq_true_eq] at hc' ⊢
    have h1 := ((hmem a).1 ha).2
    rw [Order.prod_lt] at hac
    rcases hac with h | ⟨h, _⟩
    · rw [← hc'] at h; rw [h] at h1; exact absurd h1 (by simp)
    · rw [hc', h]

theorem contains_erase' {κ : Type} [Order κ] [DecidableEq κ] (s : SSet κ) (k k' : κ) :
    SMap.contains (SMap.erase s k) k' = if k' = k then false else SMap.contains s k' := by
  rw [SSet.contains_erase]
  by_cases h : k' = k <;> simp [h]

theorem deleteEdge_eff (e : Edge) (m : Mem) : Eff K b (fun g => g.dropEdges [e]) m (deleteEdge K b e m) := by
  have h1 : Eff K b (fun g => { g with edge := fun x => if x = e then false else g.edge x }) m
      ({ m with edges := m.edges.erase e, reversedEdges := m.reversedEdges.erase e.reversed }, .ok ()) := by
    refine Eff.structural ?_ rfl rfl rfl ?_
    · ext i n w <;> simp [graph, contains_erase']
    · intro hr x
      simp only [contains_erase', hr x, ← Edge.reversed_eq_iff]
  unfold deleteEdge
  simp only
  refine (h1.trans (deleteEdgeProperties_eff _ _)).congr ?_
  simp only [Function.comp]
  ext x n w
  · simp [Graph.dropEProps, Graph.dropEdges]
  · simp [Graph.dropEProps, Graph.dropEdges]
  · simp [Graph.dropEProps, Graph.dropEdges]
  · simp only [Graph.dropEProps, Graph.dropEdges, mem_ownerKeys, List.mem_singleton]
    by_cases hx : x = e
    · subst hx
      simp only [true_and, if_true]
      split
      · rfl
      · rename_i hc
        simp only [graph]
        cases hg : m.edgeProperties.get (x, n) with
        | none => simp
        | some v => exact absurd (SMap.contains_iff.2 ⟨v, hg⟩) hc
    · simp [hx]
  · simp [Graph.dropEProps, Graph.dropEdges]

theorem foldl_dropEdges (l : List Edge) : ∀ g : Graph, l.foldl (fun g e => g.dropEdges [e]) g = g.dropEdges l := by
  induction l with
  | nil => intro g; ext <;> simp [Graph.dropEdges]
  | cons a r ih =>
    intro g
    rw [List.foldl_cons, ih]
    ext i n w <;> simp [Graph.dropEdges]
    · by_cases h1 : i ∈ r <;> by_cases h2 : i = a <;> simp [h1, h2]
    · by_cases h1 : i ∈ r <;> by_cases h2 : i = a <;> simp [h1, h2]

theorem deleteEdges_eff (l : List Edge) (m : Mem) : Eff K b (fun g => g.dropEdges l) m (deleteEdges K b l m) :=
  (Eff.forEach deleteEdge_eff l m).congr (foldl_dropEdges l _)

theorem touches_singleton (i : Uuid) (e : Edge) : Graph.touches [i] e ↔ e.outboundId = i ∨ e.inboundId = i := by
  simp [Graph.touches]

theorem deleteVertex_eff (v : Vertex) (m : Mem) :
    Eff K b (fun g => g.dropVertices [v.id]) m (deleteVertex K b v m) := by
  have h1 : Eff K b (fun g => { g with vertex := fun x => if x = v.id then none else g.vertex x }) m
      ({ m with vertices := m.vertices.erase v.id }, .ok ()) := by
    refine Eff.structural ?_ rfl rfl rfl (fun h => h)
    ext i n w <;> simp [graph, SMap.get_erase]
  unfold deleteVertex
  simp only
  generalize hk : List.takeWhile (fun k => decide (v.id = k.1))
    (List.map (fun x => x.1) (m.vertexProperties.rangeFrom (v.id, Identifier.empty))) = keys
  have h2 := h1.trans (deleteVertexProperties_eff keys _)
  generalize hu : deleteVertexProperties K b keys { m with vertices := m.vertices.erase v.id } = u at h2
  obtain ⟨m2, res⟩ := u
  cases res with
  | error f => exact h2.error
  | ok a =>
    simp only
    refine (h2.trans (deleteEdges_eff _ m2)).congr ?_
    have hg2 := h2.1
    simp only [Function.comp] at hg2 ⊢
    have hedge : m2.edges.contains = m.edges.contains := by
      have := congrArg Graph.edge hg2
      simpa [graph, Graph.dropVProps] using this
    have hmem : ∀ e, e ∈ m2.edges.elems.filter (fun e => decide (e.outboundId = v.id) || decide (e.inboundId = v.id)) ↔
        m.graph.edge e = true ∧ Graph.touches [v.id] e := by
      intro e
      rw [List.mem_filter, SSet.mem_elems, hedge, touches_singleton]
      simp [graph]
    ext x n w
    · simp [Graph.dropEdges, Graph.dropVertices, Graph.dropVProps]
    · simp only [Graph.dropEdges, Graph.dropVertices, Graph.dropVProps, hmem]
      by_cases ht : Graph.touches [v.id] x
      · cases hx : m.graph.edge x <;> simp [ht, hx]
      · simp [ht]
    · simp only [Graph.dropEdges, Graph.dropVertices, Graph.dropVProps, ← hk, mem_ownerKeys, List.mem_singleton]
      by_cases hx : x = v.id
      · subst hx
        simp only [true_and, if_true]
        split
        · rfl
        · rename_i hc
          simp only [graph]
          cases hg : m.vertexProperties.get (v.id, n) with
          | none => simp
          | some v => exact absurd (SMap.contains_iff.2 ⟨v, hg⟩) hc
      · simp [hx]
    · simp only [Graph.dropEdges, Graph.dropVertices, Graph.dropVProps, hmem]
      by_cases ht : Graph.touches [v.id] x
      · cases hx : m.graph.edge x <;> simp [ht, hx]
      · simp [ht]
    · simp [Graph.dropEdges, Graph.dropVertices, Graph.dropVProps]

theorem foldl_dropVertices (l : List Uuid) : ∀ g : Graph,
    l.foldl (fun g i => g.dropVertices [i]) g = g.dropVertices l := by
  induction l with
  | nil => intro g; ext <;> simp [Graph.dropVertices, Graph.touches]
  | cons a r ih =>
    intro g
    rw [List.foldl_cons, ih]
    have ht : ∀ e, Graph.touches (a :: r) e ↔ Graph.touches [a] e ∨ Graph.touches r e := by
      intro e; simp only [Graph.touches, List.mem_cons, List.not_mem_nil, or_false]
      constructor
      · rintro ((h | h) | (h | h)) <;> simp [h]
      · rintro ((h | h) | (h | h)) <;> simp [h]
    ext i n w
    · by_cases h1 : i ∈ r <;> by_cases h2 : i = a <;> simp [Graph.dropVertices, h1, h2]
    · by_cases h1 : Graph.touches r i <;> by_cases h2 : Graph.touches [a] i <;>
        simp [Graph.dropVertices, h1, h2, ht]
    · by_cases h1 : i ∈ r <;> by_cases h2 : i = a <;> simp [Graph.dropVertices, h1, h2]
    · by_cases h1 : Graph.touches r i <;> by_cases h2 : Graph.touches [a] i <;> cases h3 : g.edge i <;>
        simp [Graph.dropVertices, h1, h2, ht, h3]
    · simp [Graph.dropVertices]

theorem deleteVertices_eff (l : List Vertex) (m : Mem) :
    Eff K b (fun g => g.dropVertices (l.map (·.id))) m (deleteVertices K b l m) := by
  refine (Eff.forEach deleteVertex_eff l m).congr ?_
  rw [← foldl_dropVertices, List.foldl_map]

theorem createVertex_eff (v : Vertex) (m : Mem) :
    Eff K b (fun g => g.createVertex v) m (createVertex v m) ∧
    (createVertex v m).2 = .ok (m.graph.vertex v.id == none) := by
  unfold createVertex
  cases h : m.vertices.get v.id with
  | some t =>
    refine ⟨(Eff.refl m false).congr ?_, ?_⟩
    · simp [Graph.createVertex, graph, h]
    · simp [graph, h]
  | none =>
    refine ⟨Eff.structural ?_ rfl rfl rfl (fun h => h), ?_⟩
    · simp only [Graph.createVertex]
      rw [if_pos (by simp [graph, h])]
      ext i n w <;> simp [graph, Graph.putVertex, SMap.get_insert]
    · simp [graph, h]

theorem createEdge_eff (e : Edge) (m : Mem) :
    Eff K b (fun g => g.createEdge e) m (createEdge e m) ∧
    (createEdge e m).2 = .ok (m.graph.hasEndpoints e) := by
  unfold createEdge
  have hh : m.graph.hasEndpoints e = (m.vertices.contains e.outboundId && m.vertices.contains e.inboundId) := rfl
  split
  · rename_i hc
    have : m.graph.hasEndpoints e = false := by
      rw [hh]; cases h1 : m.vertices.contains e.outboundId <;> cases h2 : m.vertices.contains e.inboundId <;>
        simp [h1, h2] at hc ⊢
    refine ⟨(Eff.refl m false).congr ?_, ?_⟩
    · simp [Graph.createEdge, this]
    · rw [this]
  · rename_i hc
    have : m.graph.hasEndpoints e = true := by
      rw [hh]; cases h1 : m.vertices.contains e.outboundId <;> cases h2 : m.vertices.contains e.inboundId <;>
        simp [h1, h2] at hc ⊢
    refine ⟨Eff.structural ?_ rfl rfl rfl ?_, ?_⟩
    · simp only [Graph.createEdge, this, if_true]
      ext i n w <;> simp [graph, Graph.putEdge, SSet.contains_add]
    · intro hr x
      simp only [SSet.contains_add, hr x, ← Edge.reversed_eq_iff]
    · rw [this]

theorem get_foldl_insert {κ : Type} [Order κ] [DecidableEq κ] (l : List κ) (v : Json) : ∀ (p : SMap κ Json) (k : κ),
    (l.foldl (fun p k => p.insert k v) p).get k = if k ∈ l then some v else p.get k := by
  induction l with
  | nil => intros; simp
  | cons a r ih =>
    intro p k
    rw [List.foldl_cons, ih, SMap.get_insert]
    by_cases h1 : k ∈ r <;> by_cases h2 : k = a <;> simp [h1, h2]

/-- Effect of `indexMembers` on the index. -/
theorem indexMembers_spec (n : Identifier) (v : Json) (mems : List Member) (m : Mem) :
    (indexMembers K n v mems m).vertices = m.vertices ∧ (indexMembers K n v mems m).edges = m.edges ∧
    (indexMembers K n v mems m).reversedEdges = m.reversedEdges ∧
    (indexMembers K n v mems m).vertexProperties = m.vertexProperties ∧
    (indexMembers K n v mems m).edgeProperties = m.edgeProperties ∧
    (∀ n', (indexMembers K n v mems m).propertyValues.contains n' = m.propertyValues.contains n') ∧
    (AllDistinct K m → AllDistinct K (indexMembers K n v mems m)) ∧
    (∀ n' w y, (indexMembers K n v mems m).idx K n' w y = true ↔ m.idx K n' w y = true ∨
      (n' = n ∧ m.propertyValues.contains n = true ∧ K.same v w = true ∧ y ∈ mems)) := by
  unfold indexMembers
  cases hc : m.propertyValues.get n with
  | none =>
    simp only
    refine ⟨by trivial, by trivial, by trivial, by trivial, by trivial, by simp, fun h => h, ?_⟩
    intro n' w y; simp [SMap.contains, hc]
  | some c =>
    simp only
    refine ⟨by trivial, by trivial, by trivial, by trivial, by trivial, ?_, ?_, ?_⟩
    · exact contains_setContainer _ (by simp [SMap.contains, hc])
    · intro hd n' c' hc'
      simp only [get_setContainer] at hc'
      split at hc'
      · simp at hc'; rw [← hc']; exact distinct_upsert (hd n c hc) _ _
      · exact hd n' c' hc'
    · intro n' w y
      have hcon : m.propertyValues.contains n = true := by simp [SMap.contains, hc]
      unfold idx
      simp only [get_setContainer]
      by_cases hn : n' = n
      · rw [if_pos hn, hn, hc]
        simp only [idx_upsert, hcon]
        simp
      · rw [if_neg hn]; simp [hn]

theorem setVertexProperties_eff (ids : List Uuid) (n : Identifier) (v : Json) (m : Mem) :
    Eff K b (fun g => g.putVProps ids n v) m (setVertexProperties K b ids n v m) := by
  unfold setVertexProperties
  have h1 := deleteVertexProperties_eff (K := K) (b := b) (ids.map (fun id => (id, n))) m
  generalize deleteVertexProperties K b (ids.map (fun id => (id, n))) m = u at h1
  obtain ⟨m1, res⟩ := u
  cases res with
  | error f => exact h1.error
  | ok a =>
    simp only
    obtain ⟨hg, hw, hfull⟩ := h1
    have hdata : ∀ i n', (ids.foldl (fun p id => p.insert (id, n) v) m1.vertexProperties).get (i, n')
        = if i ∈ ids ∧ n' = n then some v else m1.vertexProperties.get (i, n') := by
      intro i n'
      have := get_foldl_insert (ids.map (fun id => (id, n))) v m1.vertexProperties (i, n')
      rw [List.foldl_map] at this
      rw [this]
      by_cases h : i ∈ ids ∧ n' = n
      · rw [if_pos h, if_pos]; simp [h]
      · rw [if_neg h, if_neg]; rw [List.mem_map]; rintro ⟨j, hj, hp⟩; cases hp; exact h ⟨hj, rfl⟩
    have hspec := indexMembers_spec (K := K) n v (ids.map .inl)
      { m1 with vertexProperties := ids.foldl (fun p id => p.insert (id, n) v) m1.vertexProperties }
    generalize indexMembers K n v (ids.map .inl)
      { m1 with vertexProperties := ids.foldl (fun p id => p.insert (id, n) v) m1.vertexProperties } = m' at hspec
    obtain ⟨e1, e2, e3, e4, e5, e6, e7, e8⟩ := hspec
    simp only at e1 e2 e3 e4 e5 e6 e7 e8
    have hidx : ∀ n' w y, Mem.idx K { m1 with vertexProperties := ids.foldl (fun p id => p.insert (id, n) v) m1.vertexProperties } n' w y
        = m1.idx K n' w y := fun _ _ _ => rfl
    have hprop : ∀ x n', m'.prop x n' = if x ∈ ids.map (Sum.inl (β := Edge)) ∧ n' = n then some v else m1.prop x n' := by
      intro x n'
      cases x with
      | inl i => simp only [prop, e4, hdata]; simp
      | inr e => simp [prop, e5]
    have hv1 : ∀ i n', m1.vertexProperties.get (i, n') = if i ∈ ids ∧ n' = n then none else m.vertexProperties.get (i, n') := by
      intro i n'
      have := congrFun (congrFun (congrArg Graph.vprop hg) i) n'
      simp only [graph, Graph.dropVProps] at this
      rw [this]
      by_cases h : i ∈ ids ∧ n' = n
      · rw [if_pos h, if_pos]; simp [h]
      · rw [if_neg h, if_neg]; rw [List.mem_map]; rintro ⟨j, hj, hp⟩; cases hp; exact h ⟨hj, rfl⟩
    refine ⟨?_, ?_, ?_⟩
    · have hgv := congrArg Graph.vertex hg
      have hge := congrArg Graph.edge hg
      have hgp := congrArg Graph.eprop hg
      have hgi := congrArg Graph.indexed hg
      ext i n' w
      · have := congrFun hgv i; simp only [graph, e1, Graph.putVProps, Graph.dropVProps] at this ⊢; rw [this]
      · have := congrFun hge i; simp only [graph, e2, Graph.putVProps, Graph.dropVProps] at this ⊢; rw [this]
      · simp only [graph, e4, hdata, Graph.putVProps, hv1]
        by_cases h : i ∈ ids ∧ n' = n <;> simp [h]
      · have := congrFun (congrFun hgp i) n'
        simp only [graph, e5, Graph.putVProps, Graph.dropVProps] at this ⊢; rw [this]
      · have := congrFun hgi i; simp only [graph, e6, Graph.putVProps, Graph.dropVProps] at this ⊢; rw [this]
    · intro w0
      have w := hw w0
      refine ⟨?_, e7 (fun n' c hc => w.distinct n' c hc), ?_⟩
      · intro e; rw [e3, e2]; exact w.rev e
      · intro hb n' u x hx
        rw [e8, hidx] at hx
        rcases hx with hx | ⟨rfl, _, hs, hx⟩
        · obtain ⟨z, hz, hs⟩ := w.sound hb n' u x hx
          rw [hprop]
          split
          · rename_i hin
            obtain ⟨hin, rfl⟩ := hin
            rw [List.mem_map] at hin
            obtain ⟨i, hi, rfl⟩ := hin
            simp only [prop, hv1, hi, true_and, if_true] at hz
            exact absurd hz (by simp)
          · exact ⟨z, hz, hs⟩
        · exact ⟨v, by rw [hprop, if_pos ⟨hx, rfl⟩], hs⟩
    · intro hf n' x u hn hx
      rw [e6] at hn
      rw [e8, hidx]
      rw [hprop] at hx
      split at hx
      · rename_i hin
        simp at hx
        subst hx
        right
        exact ⟨hin.2, by rw [← hin.2]; exact hn, K.refl _, hin.1⟩
      · left; exact hfull hf n' x u hn hx

theorem setEdgeProperties_eff (es : List Edge) (n : Identifier) (v : Json) (m : Mem) :
    Eff K b (fun g => g.putEProps es n v) m (setEdgeProperties K b es n v m) := by
  unfold setEdgeProperties
  have h1 := deleteEdgeProperties_eff (K := K) (b := b) (es.map (fun id => (id, n))) m
  generalize deleteEdgeProperties K b (es.map (fun id => (id, n))) m = u at h1
  obtain ⟨m1, res⟩ := u
  cases res with
  | error f => exact h1.error
  | ok a =>
    simp only
    obtain ⟨hg, hw, hfull⟩ := h1
    have hdata : ∀ i n', (es.foldl (fun p id => p.insert (id, n) v) m1.edgeProperties).get (i, n')
        = if i ∈ es ∧ n' = n then some v else m1.edgeProperties.get (i, n') := by
      intro i n'
      have := get_foldl_insert (es.map (fun id => (id, n))) v m1.edgeProperties (i, n')
      rw [List.foldl_map] at this
      rw [this]
      by_cases h : i ∈ es ∧ n' = n
      · rw [if_pos h, if_pos]; simp [h]
      · rw [if_neg h, if_neg]; rw [List.mem_map]; rintro ⟨j, hj, hp⟩; cases hp; exact h ⟨hj, rfl⟩
    have hspec := indexMembers_spec (K := K) n v (es.map .inr)
      { m1 with edgeProperties := es.foldl (fun p id => p.insert (id, n) v) m1.edgeProperties }
    generalize indexMembers K n v (es.map .inr)
      { m1 with edgeProperties := es.foldl (fun p id => p.insert (id, n) v) m1.edgeProperties } = m' at hspec
    obtain ⟨e1, e2, e3, e4, e5, e6, e7, e8⟩ := hspec
    simp only at e1 e2 e3 e4 e5 e6 e7 e8
    have hidx : ∀ n' w y, Mem.idx K { m1 with edgeProperties := es.foldl (fun p id => p.insert (id, n) v) m1.edgeProperties } n' w y
        = m1.idx K n' w y := fun _ _ _ => rfl
    have hprop : ∀ x n', m'.prop x n' = if x ∈ es.map (Sum.inr (α := Uuid)) ∧ n' = n then some v else m1.prop x n' := by
      intro x n'
      cases x with
      | inr i => simp only [prop, e5, hdata]; simp
      | inl e => simp [prop, e4]
    have hv1 : ∀ i n', m1.edgeProperties.get (i, n') = if i ∈ es ∧ n' = n then none else m.edgeProperties.get (i, n') := by
      intro i n'
      have := congrFun (congrFun (congrArg Graph.eprop hg) i) n'
      simp only [graph, Graph.dropEProps] at this
      rw [this]
      by_cases h : i ∈ es ∧ n' = n
      · rw [if_pos h, if_pos]; simp [h]
      · rw [if_neg h, if_neg]; rw [List.mem_map]; rintro ⟨j, hj, hp⟩; cases hp; exact h ⟨hj, rfl⟩
    refine ⟨?_, ?_, ?_⟩
    · have hgv := congrArg Graph.vertex hg
      have hge := congrArg Graph.edge hg
      have hgp := congrArg Graph.vprop hg
      have hgi := congrArg Graph.indexed hg
      ext i n' w
      · have := congrFun hgv i; simp only [graph, e1, Graph.putEProps, Graph.dropEProps] at this ⊢; rw [this]
      · have := congrFun hge i; simp only [graph, e2, Graph.putEProps, Graph.dropEProps] at this ⊢; rw [this]
      · have := congrFun (congrFun hgp i) n'
        simp only [graph, e4, Graph.putEProps, Graph.dropEProps] at this ⊢; rw [this]
      · simp only [graph, e5, hdata, Graph.putEProps, hv1]
        by_cases h : i ∈ es ∧ n' = n <;> simp [h]
      · have := congrFun hgi i; simp only [graph, e6, Graph.putEProps, Graph.dropEProps] at this ⊢; rw [this]
    · intro w0
      have w := hw w0
      refine ⟨?_, e7 (fun n' c hc => w.distinct n' c hc), ?_⟩
      · intro e; rw [e3, e2]; exact w.rev e
      · intro hb n' u x hx
        rw [e8, hidx] at hx
        rcases hx with hx | ⟨rfl, _, hs, hx⟩
        · obtain ⟨z, hz, hs⟩ := w.sound hb n' u x hx
          rw [hprop]
          split
          · rename_i hin
            obtain ⟨hin, rfl⟩ := hin
            rw [List.mem_map] at hin
            obtain ⟨i, hi, rfl⟩ := hin
            simp only [prop, hv1, hi, true_and, if_true] at hz
            exact absurd hz (by simp)
          · exact ⟨z, hz, hs⟩
        · exact ⟨v, by rw [hprop, if_pos ⟨hx, rfl⟩], hs⟩
    · intro hf n' x u hn hx
      rw [e6] at hn
      rw [e8, hidx]
      rw [hprop] at hx
      split at hx
      · rename_i hin
        simp at hx
        subst hx
        right
        exact ⟨hin.2, by rw [← hin.2]; exact hn, K.refl _, hin.1⟩
      · left; exact hfull hf n' x u hn hx

theorem bulkItem_eff (item : BulkInsertItem) (m : Mem) :
    Eff K b (fun g => g.bulkItem item) m
      (defaultBulkItem createVertex createEdge (setVertexProperties K b) (setEdgeProperties K b) item m) := by
  cases item with
  | vertex v =>
    have h := createVertex_eff (K := K) (b := b) v m
    simp only [defaultBulkItem]
    generalize createVertex v m = u at h
    obtain ⟨m', res⟩ := u
    cases res with
    | ok a => exact h.1
    | error f => exact absurd h.2 (by simp)
  | edge e =>
    have h := createEdge_eff (K := K) (b := b) e m
    simp only [defaultBulkItem]
    generalize createEdge e m = u at h
    obtain ⟨m', res⟩ := u
    cases res with
    | ok a => exact h.1
    | error f => exact absurd h.2 (by simp)
  | vertexProperty id n v => exact setVertexProperties_eff [id] n v m
  | edgeProperty e n v => exact setEdgeProperties_eff [e] n v m

theorem bulkInsert_eff (items : List BulkInsertItem) (m : Mem) :
    Eff K b (fun g => items.foldl Graph.bulkItem g) m (bulkInsert K b items m) :=
  Eff.forEach (φ := fun a g => g.bulkItem a) bulkItem_eff items m

/-- Index effect of `index_property`. -/
theorem indexProperty_idx {O : HashOrder} (n : Identifier) (m : Mem) (hd : AllDistinct K m) :
    AllDistinct K (indexProperty K O n m).1 ∧
    ∀ n' w x, (indexProperty K O n m).1.idx K n' w x = true ↔ m.idx K n' w x = true ∨
      (n' = n ∧ (match x with
        | .inl i => m.graph.vertex i ≠ none
        | .inr e => m.graph.edge e = true) ∧ ∃ v, m.prop x n = some v ∧ K.same v w = true) := by
  obtain ⟨hv1, hv2⟩ := vertexIndexEntries_spec (K := K) n m [] List.Pairwise.nil
  obtain ⟨he1, he2⟩ := edgeIndexEntries_spec (K := K) n m _ hv1
  have hold : ((m.propertyValues.get n).getD []).Distinct K := by
    cases hc : m.propertyValues.get n with
    | none => exact List.Pairwise.nil
    | some c => exact hd n c hc
  constructor
  · intro n' c hc
    simp only [indexProperty, get_setContainer] at hc
    split at hc
    · simp at hc; rw [← hc]; exact distinct_mergeContainer _ _ hold
    · exact hd n' c hc
  · intro n' w x
    unfold indexProperty
    simp only [idx, get_setContainer]
    by_cases hn : n' = n
    · subst hn
      simp only [if_true, idx_mergeContainer, (O.entries_perm _).any_eq, any_same_iff he1, Bool.or_eq_true]
      rw [he2, hv2]
      have h0 : Container.idx K ((m.propertyValues.get n').getD []) w x = true ↔
          (match m.propertyValues.get n' with
            | some c => Container.idx K c w x
            | none => false) = true := by
        cases m.propertyValues.get n' with
        | none => simp [Container.idx, Container.find_nil]
        | some c => simp
      rw [h0]
      have hnil : Container.idx K [] w x = false := by simp [Container.idx, Container.find_nil]
      rw [hnil]
      cases x with
      | inl i =>
        simp only [Bool.false_eq_true, false_or, Sum.inl.injEq, reduceCtorEq, false_and, exists_false, or_false,
          prop, graph, SMap.contains_iff, true_and]
        constructor
        · rintro (h | ⟨i', rfl, ⟨t, ht⟩, h⟩)
          · exact Or.inl h
          · exact Or.inr ⟨by rw [ht]; simp, h⟩
        · rintro (h | ⟨hne, h⟩)
          · exact Or.inl h
          · right
            refine ⟨i, rfl, ?_, h⟩
            cases hg : m.vertices.get i with
            | none => exact absurd hg hne
            | some t => exact ⟨t, rfl⟩
      | inr e =>
        simp only [Bool.false_eq_true, false_or, Sum.inr.injEq, reduceCtorEq, false_and, exists_false, or_false,
          prop, graph, true_and]
        constructor
        · rintro (h | ⟨i', rfl, ht, h⟩)
          · exact Or.inl h
          · exact Or.inr ⟨ht, h⟩
        · rintro (h | ⟨ht, h⟩)
          · exact Or.inl h
          · exact Or.inr ⟨e, rfl, ht, h⟩
    · simp [hn]

/-- `index_property`: marks the name, keeps the invariants; keeps completeness if there are no orphan properties. -/
theorem indexProperty_eff {O : HashOrder} (n : Identifier) (m : Mem) :
    (indexProperty K O n m).2 = .ok () ∧ (indexProperty K O n m).1.graph = m.graph.addIndex n ∧
    (WF K b m → WF K b (indexProperty K O n m).1) ∧
    (AllDistinct K m → m.graph.NoOrphans → Full K m → Full K (indexProperty K O n m).1) := by
  refine ⟨rfl, ?_, ?_, ?_⟩
  · ext i n' w
    · rfl
    · rfl
    · rfl
    · rfl
    · simp only [graph, Graph.addIndex, indexProperty, SMap.contains, get_setContainer]
      by_cases h : i = n <;> simp [h]
  · intro w
    obtain ⟨h1, h2⟩ := indexProperty_idx n m w.distinct
    refine ⟨w.rev, h1, ?_⟩
    intro hb n' v x hx
    have hp : (indexProperty K O n m).1.prop x n' = m.prop x n' := by cases x <;> rfl
    rw [hp]
    rcases (h2 n' v x).1 hx with h | ⟨rfl, _, h⟩
    · exact w.sound hb n' v x h
    · exact h
  · intro hd hno hf n' x w hn hx
    obtain ⟨_, h2⟩ := indexProperty_idx n m hd
    have hp : (indexProperty K O n m).1.prop x n' = m.prop x n' := by cases x <;> rfl
    rw [hp] at hx
    rw [h2]
    by_cases hc : m.propertyValues.contains n' = true
    · left; exact hf n' x w hc hx
    · right
      have hnn : n' = n := by
        simp only [indexProperty, SMap.contains, get_setContainer] at hn hc
        by_cases h : n' = n
        · exact h
        · rw [if_neg h] at hn; exact absurd hn hc
      refine ⟨hnn, ?_, w, by rw [← hnn]; exact hx, K.refl _⟩
      cases x with
      | inl i => exact hno.1 i n' (by simp only [graph]; simp only [prop] at hx; rw [hx]; simp)
      | inr e => exact hno.2 e n' (by simp only [graph]; simp only [prop] at hx; rw [hx]; simp)

end Mem
end IndraDB
