import Verif.Spec.Equality
import Verif.Proofs.Truth
/-
Laws of `==` on queries, bulk items and replies.
-/
set_option linter.unusedSimpArgs false
namespace IndraDB

section vec
variable {α : Type} {eq : α → α → Bool}

theorem vecEq_reflSymm (h : ReflSymm eq) : ReflSymm (vecEq eq) := by
  constructor
  · intro l
    induction l with
    | nil => rfl
    | cons a l ih => simp [vecEq, h.1 a, ih]
  · intro l
    induction l with
    | nil => intro m; cases m <;> simp [vecEq]
    | cons a l ih =>
      intro m
      cases m with
      | nil => simp [vecEq]
      | cons b m =>
        simp only [vecEq, Bool.and_eq_true]
        exact fun hx => ⟨h.2 a b hx.1, ih m hx.2⟩

theorem vecEq_trans {D : α → Prop} (h : TransOn D eq) : TransOn (fun l => ∀ x ∈ l, D x) (vecEq eq) := by
  intro l
  induction l with
  | nil => intro m k _ _ _; cases m <;> cases k <;> simp [vecEq]
  | cons a l ih =>
    intro m k hl hm hk
    cases m with
    | nil => simp [vecEq]
    | cons b m =>
      cases k with
      | nil => simp [vecEq]
      | cons c k =>
        simp only [vecEq, Bool.and_eq_true]
        intro h1 h2
        exact ⟨h a b c (hl a (by simp)) (hm b (by simp)) (hk c (by simp)) h1.1 h2.1,
          ih m k (fun x hx => hl x (by simp [hx])) (fun x hx => hm x (by simp [hx])) (fun x hx => hk x (by simp [hx]))
            h1.2 h2.2⟩

/-- If elements are equal exactly if their images are, then lists are. -/
theorem vecEq_map {β : Type} {D : α → Prop} {f : α → β} (h : ∀ a b, D a → D b → (eq a b = true ↔ f a = f b)) :
    ∀ l m, (∀ x ∈ l, D x) → (∀ x ∈ m, D x) → (vecEq eq l m = true ↔ l.map f = m.map f) := by
  intro l
  induction l with
  | nil => intro m _ _; cases m <;> simp [vecEq]
  | cons a l ih =>
    intro m hl hm
    cases m with
    | nil => simp [vecEq]
    | cons b m =>
      simp only [vecEq, Bool.and_eq_true, List.map_cons, List.cons.injEq]
      rw [h a b (hl a (by simp)) (hm b (by simp)),
        ih m (fun x hx => hl x (by simp [hx])) (fun x hx => hm x (by simp [hx]))]

theorem vecEq_ident {D : α → Prop} (h : ∀ a b, D a → D b → eq a b = true → a = b) :
    ∀ l m, (∀ x ∈ l, D x) → (∀ x ∈ m, D x) → vecEq eq l m = true → l = m := by
  intro l
  induction l with
  | nil => intro m _ _; cases m <;> simp [vecEq]
  | cons a l ih =>
    intro m hl hm
    cases m with
    | nil => simp [vecEq]
    | cons b m =>
      simp only [vecEq, Bool.and_eq_true]
      intro hx
      rw [h a b (hl a (by simp)) (hm b (by simp)) hx.1,
        ih m (fun x hx => hl x (by simp [hx])) (fun x hx => hm x (by simp [hx])) hx.2]

theorem vecEq_decide [DecidableEq α] (l m : List α) : vecEq (fun a b : α => decide (a = b)) l m = true ↔ l = m := by
  have := vecEq_map (D := fun _ => True) (f := id) (eq := fun a b : α => decide (a = b)) (by simp) l m (by simp) (by simp)
  simpa using this

end vec

theorem decide_reflSymm {α : Type} [DecidableEq α] : ReflSymm (fun a b : α => decide (a = b)) :=
  ⟨by simp, by intro a b h; simp at h; simp [h]⟩

section
variable (hJ : ReflSymm Json.eq)

theorem Vertex.eq_reflSymm : ReflSymm Vertex.eq :=
  ⟨by simp [Vertex.eq], by intro a b h; simp [Vertex.eq] at h ⊢; exact h.symm⟩

include hJ

theorem NamedProperty.eq_reflSymm : ReflSymm NamedProperty.eq := by
  constructor
  · intro a; simp [NamedProperty.eq, hJ.1]
  · intro a b h
    simp only [NamedProperty.eq, Bool.and_eq_true, decide_eq_true_eq] at h ⊢
    exact ⟨h.1.symm, hJ.2 _ _ h.2⟩

theorem VertexProperties.eq_reflSymm : ReflSymm VertexProperties.eq := by
  have hn := vecEq_reflSymm (NamedProperty.eq_reflSymm hJ)
  constructor
  · intro a; simp [VertexProperties.eq, Vertex.eq_reflSymm.1, hn.1]
  · intro a b h
    simp only [VertexProperties.eq, Bool.and_eq_true] at h ⊢
    exact ⟨Vertex.eq_reflSymm.2 _ _ h.1, hn.2 _ _ h.2⟩

theorem EdgeProperties.eq_reflSymm : ReflSymm EdgeProperties.eq := by
  have hn := vecEq_reflSymm (NamedProperty.eq_reflSymm hJ)
  constructor
  · intro a; simp [EdgeProperties.eq, hn.1]
  · intro a b h
    simp only [EdgeProperties.eq, Bool.and_eq_true, decide_eq_true_eq] at h ⊢
    exact ⟨h.1.symm, hn.2 _ _ h.2⟩

theorem Output.eq_reflSymm : ReflSymm Output.eq := by
  constructor
  · intro a
    cases a with
    | vertices l => exact (vecEq_reflSymm Vertex.eq_reflSymm).1 l
    | edges l => exact (vecEq_reflSymm decide_reflSymm).1 l
    | count n => simp [Output.eq]
    | vertexProperties l => exact (vecEq_reflSymm (VertexProperties.eq_reflSymm hJ)).1 l
    | edgeProperties l => exact (vecEq_reflSymm (EdgeProperties.eq_reflSymm hJ)).1 l
  · intro a b
    cases a <;> cases b <;> simp only [Output.eq, Bool.false_eq_true, false_imp_iff]
    case vertices => exact (vecEq_reflSymm Vertex.eq_reflSymm).2 _ _
    case edges => exact (vecEq_reflSymm decide_reflSymm).2 _ _
    case count => simp only [decide_eq_true_eq]; exact Eq.symm
    case vertexProperties => exact (vecEq_reflSymm (VertexProperties.eq_reflSymm hJ)).2 _ _
    case edgeProperties => exact (vecEq_reflSymm (EdgeProperties.eq_reflSymm hJ)).2 _ _

theorem BulkInsertItem.eq_reflSymm : ReflSymm BulkInsertItem.eq := by
  constructor
  · intro a; cases a <;> simp [BulkInsertItem.eq, hJ.1, Vertex.eq_reflSymm.1]
  · intro a b
    cases a <;> cases b <;> simp only [BulkInsertItem.eq, Bool.false_eq_true, false_imp_iff, Bool.and_eq_true,
      decide_eq_true_eq]
    case vertex => exact Vertex.eq_reflSymm.2 _ _
    case edge => exact Eq.symm
    all_goals exact fun h => ⟨⟨h.1.1.symm, h.1.2.symm⟩, hJ.2 _ _ h.2⟩

theorem Query.eq_reflSymm : ReflSymm Query.eq := by
  constructor
  · intro a
    induction a <;> simp_all [Query.eq, hJ.1, vecEq_decide]
  · intro a
    induction a <;> intro b <;> cases b <;> simp only [Query.eq, Bool.false_eq_true, false_imp_iff, Bool.and_eq_true,
      decide_eq_true_eq, vecEq_decide, imp_self]
    case vertexWithPropertyValue => exact fun h => ⟨h.1.symm, hJ.2 _ _ h.2⟩
    case edgeWithPropertyValue => exact fun h => ⟨h.1.symm, hJ.2 _ _ h.2⟩
    case pipe ih _ _ _ _ => exact fun h => ⟨⟨⟨ih _ h.1.1.1, h.1.1.2.symm⟩, h.1.2.symm⟩, h.2.symm⟩
    case pipeProperty ih _ _ => exact fun h => ⟨ih _ h.1, h.2.symm⟩
    case pipeWithPropertyPresence ih _ _ _ => exact fun h => ⟨⟨ih _ h.1.1, h.1.2.symm⟩, h.2.symm⟩
    case pipeWithPropertyValue ih _ _ _ _ =>
      exact fun h => ⟨⟨⟨ih _ h.1.1.1, h.1.1.2.symm⟩, hJ.2 _ _ h.1.2⟩, h.2.symm⟩
    case incl ih _ => exact ih _
    case count ih _ => exact ih _
    case rangeVertex => exact fun h => ⟨⟨h.1.1.symm, h.1.2.symm⟩, h.2.symm⟩
    all_goals exact Eq.symm

end

section trans
variable {V : Json → Prop} (hT : TransOn V Json.eq)
include hT

theorem NamedProperty.eq_trans : TransOn (fun p => V p.value) NamedProperty.eq := by
  intro a b c ha hb hc
  simp only [NamedProperty.eq, Bool.and_eq_true, decide_eq_true_eq]
  exact fun h1 h2 => ⟨h1.1.trans h2.1, hT _ _ _ ha hb hc h1.2 h2.2⟩

theorem Output.eq_trans : TransOn (fun o => o.ValuesIn V) Output.eq := by
  have hv : TransOn (fun _ => True) Vertex.eq := by
    intro a b c _ _ _; simp only [Vertex.eq, decide_eq_true_eq]; exact Eq.trans
  have hn := vecEq_trans (NamedProperty.eq_trans hT)
  have hvp : TransOn (fun x => ∀ p ∈ x.props, V p.value) VertexProperties.eq := by
    intro a b c ha hb hc
    simp only [VertexProperties.eq, Bool.and_eq_true]
    exact fun h1 h2 => ⟨hv _ _ _ trivial trivial trivial h1.1 h2.1, hn _ _ _ ha hb hc h1.2 h2.2⟩
  have hep : TransOn (fun x => ∀ p ∈ x.props, V p.value) EdgeProperties.eq := by
    intro a b c ha hb hc
    simp only [EdgeProperties.eq, Bool.and_eq_true, decide_eq_true_eq]
    exact fun h1 h2 => ⟨h1.1.trans h2.1, hn _ _ _ ha hb hc h1.2 h2.2⟩
  intro a b c ha hb hc h1 h2
  match a, b, c with
  | .vertices _, .vertices _, .vertices _ => exact vecEq_trans hv _ _ _ (by simp) (by simp) (by simp) h1 h2
  | .edges l, .edges m, .edges k =>
    exact (vecEq_decide l k).2 (((vecEq_decide l m).1 h1).trans ((vecEq_decide m k).1 h2))
  | .count _, .count _, .count _ =>
    simp only [Output.eq, decide_eq_true_eq] at h1 h2 ⊢
    exact h1.trans h2
  | .vertexProperties _, .vertexProperties _, .vertexProperties _ =>
    exact vecEq_trans hvp _ _ _ (fun x hx p hp => ((ha x hx).2 p hp).2) (fun x hx p hp => ((hb x hx).2 p hp).2)
      (fun x hx p hp => ((hc x hx).2 p hp).2) h1 h2
  | .edgeProperties _, .edgeProperties _, .edgeProperties _ =>
    exact vecEq_trans hep _ _ _ (fun x hx p hp => ((ha x hx).2 p hp).2) (fun x hx p hp => ((hb x hx).2 p hp).2)
      (fun x hx p hp => ((hc x hx).2 p hp).2) h1 h2
  all_goals simp only [Output.eq, Bool.false_eq_true] at h1 h2

end trans

section exact'
variable {V : Json → Prop} (hV : ∀ x y, V x → V y → (x.eq y = true ↔ x = y))
include hV

theorem NamedProperty.eq_iff {a b : NamedProperty} (ha : V a.value) (hb : V b.value) : a.eq b = true ↔ a = b := by
  obtain ⟨n, v⟩ := a
  obtain ⟨m, w⟩ := b
  simp only [NamedProperty.eq, Bool.and_eq_true, decide_eq_true_eq, NamedProperty.mk.injEq]
  rw [hV v w ha hb]

theorem props_eq_iff {l m : List NamedProperty} (hl : ∀ x ∈ l, V x.value) (hm : ∀ x ∈ m, V x.value) :
    vecEq NamedProperty.eq l m = true ↔ l = m := by
  have := vecEq_map (D := fun p : NamedProperty => V p.value) (f := id) (eq := NamedProperty.eq)
    (fun a b ha hb => NamedProperty.eq_iff hV ha hb) l m hl hm
  simpa using this

theorem Output.eq_iff (a b : Output) (ha : a.ValuesIn V) (hb : b.ValuesIn V) :
    a.eq b = true ↔ a.untyped = b.untyped := by
  have hv : ∀ x y : Vertex, x.eq y = true ↔ x.untyped = y.untyped := by
    intro x y; simp [Vertex.eq, Vertex.untyped]
  cases a <;> cases b <;> simp only [Output.eq, Output.untyped, Bool.false_eq_true, false_iff, reduceCtorEq,
    not_false_eq_true, Output.vertices.injEq, Output.vertexProperties.injEq, Output.edges.injEq,
    Output.count.injEq, Output.edgeProperties.injEq, decide_eq_true_eq]
  case vertices l m =>
    exact vecEq_map (D := fun _ => True) (fun x y _ _ => hv x y) l m (by simp) (by simp)
  case edges l m => exact vecEq_decide l m
  case vertexProperties l m =>
    refine vecEq_map (D := fun x => ∀ p ∈ x.props, V p.value) ?_ l m (fun x hx p hp => ((ha x hx).2 p hp).2)
      (fun x hx p hp => ((hb x hx).2 p hp).2)
    intro x y hx hy
    simp only [VertexProperties.eq, Bool.and_eq_true, VertexProperties.mk.injEq]
    rw [hv, props_eq_iff hV hx hy]
  case edgeProperties l m =>
    have := vecEq_map (eq := EdgeProperties.eq) (D := fun x => ∀ p ∈ x.props, V p.value) (f := id) ?_ l m
      (fun x hx p hp => ((ha x hx).2 p hp).2) (fun x hx p hp => ((hb x hx).2 p hp).2)
    · simpa using this
    · intro x y hx hy
      obtain ⟨e, p⟩ := x
      obtain ⟨f, q⟩ := y
      simp only [EdgeProperties.eq, Bool.and_eq_true, id, EdgeProperties.mk.injEq, decide_eq_true_eq]
      rw [props_eq_iff hV hx hy]

theorem BulkInsertItem.eq_iff (a b : BulkInsertItem) (ha : a.ValuesIn V) (hb : b.ValuesIn V) :
    a.eq b = true ↔ a.untyped = b.untyped := by
  cases a <;> cases b <;> simp only [BulkInsertItem.eq, BulkInsertItem.untyped, Bool.false_eq_true, false_iff,
    reduceCtorEq, not_false_eq_true, BulkInsertItem.vertex.injEq, BulkInsertItem.edge.injEq,
    BulkInsertItem.vertexProperty.injEq, BulkInsertItem.edgeProperty.injEq, decide_eq_true_eq, Bool.and_eq_true]
  case vertex x y => simp [Vertex.eq, Vertex.untyped]
  case vertexProperty => rw [hV _ _ ha.2 hb.2, and_assoc]
  case edgeProperty => rw [hV _ _ ha.2.2 hb.2.2, and_assoc]

theorem Query.eq_iff (a : Query) : ∀ b, a.ValuesIn V → b.ValuesIn V → (a.eq b = true ↔ a = b) := by
  induction a <;> intro b ha hb <;> cases b <;> simp only [Query.eq, Bool.false_eq_true, false_iff, reduceCtorEq,
    not_false_eq_true, Query.rangeVertex.injEq, Query.specificVertex.injEq, Query.vertexWithPropertyPresence.injEq,
    Query.vertexWithPropertyValue.injEq, Query.specificEdge.injEq, Query.edgeWithPropertyPresence.injEq,
    Query.edgeWithPropertyValue.injEq, Query.pipe.injEq, Query.pipeProperty.injEq, Query.pipeWithPropertyPresence.injEq,
    Query.pipeWithPropertyValue.injEq, Query.incl.injEq, Query.count.injEq, decide_eq_true_eq, Bool.and_eq_true,
    vecEq_decide, and_assoc]
  case vertexWithPropertyValue => rw [hV _ _ ha.2 hb.2]
  case edgeWithPropertyValue => rw [hV _ _ ha.2 hb.2]
  case pipe ih _ _ _ _ => rw [ih _ ha.1 hb.1]
  case pipeProperty ih _ _ => rw [ih _ ha.1 hb.1]
  case pipeWithPropertyPresence ih _ _ _ => rw [ih _ ha.1 hb.1]
  case pipeWithPropertyValue ih _ _ _ _ => rw [ih _ ha.1 hb.1, hV _ _ ha.2.2 hb.2.2]
  case incl ih _ => exact ih _ ha hb
  case count ih _ => exact ih _ ha hb

end exact'

/-- Outputs that are true of the same contents and `==` are identical. -/
theorem Output.eq_true {g : Graph} {a b : Output} (ha : a.VerticesTrue g ∧ a.EdgesTrue g)
    (hb : b.VerticesTrue g ∧ b.EdgesTrue g) (h : a.eq b = true) : a = b := by
  have hv : ∀ x y : Vertex, g.vertex x.id = some x.t → g.vertex y.id = some y.t → x.eq y = true → x = y := by
    rintro ⟨i, t⟩ ⟨j, u⟩ hx hy he
    simp only [Vertex.eq, decide_eq_true_eq] at he
    subst he
    simp only at hx hy
    rw [hx] at hy
    cases hy; rfl
  have hp : ∀ {get : Identifier → Option Json} (l m : List NamedProperty), (∀ p ∈ l, get p.name = some p.value) →
      (∀ p ∈ m, get p.name = some p.value) → vecEq NamedProperty.eq l m = true → l = m := by
    intro get
    refine vecEq_ident ?_
    rintro ⟨n, v⟩ ⟨m, w⟩ hx hy he
    simp only [NamedProperty.eq, Bool.and_eq_true, decide_eq_true_eq] at he
    obtain ⟨rfl, _⟩ := he
    simp only at hx hy
    rw [hx] at hy
    cases hy; rfl
  cases a <;> cases b <;> simp only [Output.eq, Bool.false_eq_true] at h
  case vertices l m => exact congrArg _ (vecEq_ident (D := fun v : Vertex => g.vertex v.id = some v.t) hv l m ha.1 hb.1 h)
  case edges l m => exact congrArg _ ((vecEq_decide l m).1 h)
  case count => exact congrArg _ (of_decide_eq_true h)
  case vertexProperties l m =>
    refine congrArg _ (vecEq_ident
      (D := fun x : VertexProperties => g.vertex x.vertex.id = some x.vertex.t ∧ PropsTrue (g.vprop x.vertex.id) x.props) ?_ l m ha.1 hb.1 h)
    rintro ⟨x, p⟩ ⟨y, q⟩ hx hy he
    simp only [VertexProperties.eq, Bool.and_eq_true] at he
    have := hv x y hx.1 hy.1 he.1
    subst this
    rw [hp p q hx.2.2.2 hy.2.2.2 he.2]
  case edgeProperties l m =>
    refine congrArg _ (vecEq_ident
      (D := fun x : EdgeProperties => g.edge x.edge = true ∧ PropsTrue (g.eprop x.edge) x.props) ?_ l m ha.2 hb.2 h)
    rintro ⟨x, p⟩ ⟨y, q⟩ hx hy he
    simp only [EdgeProperties.eq, Bool.and_eq_true, decide_eq_true_eq] at he
    obtain ⟨rfl, he⟩ := he
    rw [hp p q hx.2.2.2 hy.2.2.2 he]

theorem Store.RepliesTrue.eqIdentical {S : Store} {P : Query → Prop} (h : S.RepliesTrue P) : S.EqMeansIdentical P := by
  intro s hr env env' q q' os os' h1 h2 hq hq' o ho o' ho' he
  have a := h s hr env env q os h1 o ho
  have b := h s hr env' env q' os' h2 o' ho'
  exact Output.eq_true ⟨a.1, a.2 hq⟩ ⟨b.1, b.2 hq'⟩ he

end IndraDB
