import Verif.Model.Database
import Verif.Spec.Graph
/-
The query evaluator computes acceptable answers, for every `Reads` that faithfully reads a graph.
-/
set_option linter.unusedSimpArgs false
namespace IndraDB

/-! ### The output stack -/

/-- The evaluator without the stack: values of intermediate includes, and the value. -/
def evalStage (inner : Query) (r : Res (List Output × Output)) (stage : Output → Res Output) :
    Res (List Output × Output) :=
  match r with
  | .error f => .error f
  | .ok (inc, v) => (stage v).map (fun w => (inc ++ (if inner.isInclude then [v] else []), w))

def single (r : Res Output) : Res (List Output × Output) := r.map (fun v => ([], v))

def eval (R : Reads) : Query → Res (List Output × Output)
  | .allVertex => single (do let iter ← R.allVertices; return .vertices (← collect iter))
  | .rangeVertex limit t startId => single (do
    let iter ← match startId with
      | some id => R.rangeVertices id
      | none => R.allVertices
    return .vertices (← collect ((filterT (·.t) t iter).take limit.toNat)))
  | .specificVertex ids => single (do
    let iter ← R.specificVertices ids
    return .vertices (← collect iter))
  | .pipe inner d limit t => evalStage inner (eval R inner) (stagePipe R d limit t)
  | .pipeProperty inner name => evalStage inner (eval R inner) (stageProperty R name)
  | .vertexWithPropertyPresence name => single (do
    let ids ← indexed (R.vertexIdsWithProperty name)
    let iter ← R.specificVertices ids
    return .vertices (← collect iter))
  | .vertexWithPropertyValue name value => single (do
    let ids ← indexed (R.vertexIdsWithPropertyValue name value)
    let iter ← R.specificVertices ids
    return .vertices (← collect iter))
  | .edgeWithPropertyPresence name => single (do return .edges (← indexed (R.edgesWithProperty name)))
  | .edgeWithPropertyValue name value => single (do return .edges (← indexed (R.edgesWithPropertyValue name value)))
  | .pipeWithPropertyPresence inner name ex =>
    evalStage inner (eval R inner) (stageFilter (R.edgesWithProperty name) (R.vertexIdsWithProperty name) ex)
  | .pipeWithPropertyValue inner name value eq =>
    evalStage inner (eval R inner)
      (stageFilter (R.edgesWithPropertyValue name value) (R.vertexIdsWithPropertyValue name value) eq)
  | .allEdge => single (do let iter ← R.allEdges; return .edges (← collect iter))
  | .specificEdge edges => single (do
    let iter ← R.specificEdges edges
    return .edges (← collect iter))
  | .incl inner => eval R inner
  | .count .allVertex => .ok ([], .count R.vertexCount)
  | .count .allEdge => .ok ([], .count R.edgeCount)
  | .count inner => evalStage inner (eval R inner) (fun v => do return .count (← countOf v))

theorem vecPop_concat {α : Type} (l : List α) (a : α) : vecPop (l ++ [a]) = some (l, a) := by
  simp [vecPop]

theorem vecPop_concat' {α : Type} (l m : List α) (a : α) : vecPop (l ++ (m ++ [a])) = some (l ++ m, a) := by
  rw [← List.append_assoc]; exact vecPop_concat _ _

/-- Pushes an evaluated query onto the stack. -/
def pushAll (out : List Output) (r : Res (List Output × Output)) : Res (List Output) :=
  r.map (fun p => out ++ (p.1 ++ [p.2]))

theorem runStage_push (inner : Query) (out : List Output) (r : Res (List Output × Output)) (stage : Output → Res Output) :
    runStage inner (pushAll out r) stage = pushAll out (evalStage inner r stage) := by
  unfold runStage pushAll evalStage
  cases r with
  | error f => rfl
  | ok p =>
    obtain ⟨inc, v⟩ := p
    simp only [Except.map, Bind.bind, Except.bind, vecPop_concat']
    cases stage v with
    | error f => rfl
    | ok w => cases inner.isInclude <;> simp [Except.map, Pure.pure, Except.pure]

theorem push_single (out : List Output) (r : Res Output) :
    pushAll out (single r) = r.map (fun v => out ++ [v]) := by
  unfold pushAll single
  cases r <;> simp [Except.map]

/-- The evaluator only pushes onto the stack, and never pops more than it pushed. -/
theorem query_eq (R : Reads) (q : Query) (out : List Output) : query R q out = pushAll out (eval R q) := by
  induction q generalizing out with
  | allVertex =>
    rw [eval, push_single, query]
    cases R.allVertices with
    | error f => rfl
    | ok iter => simp only [Bind.bind, Except.bind]; cases collect iter <;> rfl
  | rangeVertex limit t startId =>
    rw [eval, push_single]
    simp only [query]
    cases startId with
    | none =>
      cases R.allVertices with
      | error f => rfl
      | ok iter => simp only [Bind.bind, Except.bind]; cases collect _ <;> rfl
    | some id =>
      simp only
      cases R.rangeVertices id with
      | error f => rfl
      | ok iter => simp only [Bind.bind, Except.bind]; cases collect _ <;> rfl
  | specificVertex ids =>
    rw [eval, push_single, query]
    cases R.specificVertices ids with
    | error f => rfl
    | ok iter => simp only [Bind.bind, Except.bind]; cases collect iter <;> rfl
  | vertexWithPropertyPresence n =>
    rw [eval, push_single, query]
    cases indexed (R.vertexIdsWithProperty n) with
    | error f => rfl
    | ok ids =>
      simp only [Bind.bind, Except.bind]
      cases R.specificVertices ids with
      | error f => rfl
      | ok iter => simp only; cases collect iter <;> rfl
  | vertexWithPropertyValue n v =>
    rw [eval, push_single, query]
    cases indexed (R.vertexIdsWithPropertyValue n v) with
    | error f => rfl
    | ok ids =>
      simp only [Bind.bind, Except.bind]
      cases R.specificVertices ids with
      | error f => rfl
      | ok iter => simp only; cases collect iter <;> rfl
  | allEdge =>
    rw [eval, push_single, query]
    cases R.allEdges with
    | error f => rfl
    | ok iter => simp only [Bind.bind, Except.bind]; cases collect iter <;> rfl
  | specificEdge ids =>
    rw [eval, push_single, query]
    cases R.specificEdges ids with
    | error f => rfl
    | ok iter => simp only [Bind.bind, Except.bind]; cases collect iter <;> rfl
  | edgeWithPropertyPresence n =>
    rw [eval, push_single, query]
    cases indexed (R.edgesWithProperty n) <;> rfl
  | edgeWithPropertyValue n v =>
    rw [eval, push_single, query]
    cases indexed (R.edgesWithPropertyValue n v) <;> rfl
  | pipe i d l t ih => rw [eval, query, ih, runStage_push]
  | pipeProperty i n ih => rw [eval, query, ih, runStage_push]
  | pipeWithPropertyPresence i n e ih => rw [eval, query, ih, runStage_push]
  | pipeWithPropertyValue i n v e ih => rw [eval, query, ih, runStage_push]
  | incl i ih =>
    rw [eval, query, ih]
    unfold pushAll
    cases eval R i with
    | error f => rfl
    | ok p => simp [Except.map, Bind.bind, Except.bind, vecPop_concat', Pure.pure, Except.pure]
  | count i ih =>
    cases i
    case allVertex => simp [eval, query, pushAll, Except.map, Pure.pure, Except.pure]
    case allEdge => simp [eval, query, pushAll, Except.map, Pure.pure, Except.pure]
    all_goals
      rw [eval, query, ih, runStage_push]
      all_goals first | exact fun h => nomatch h | skip

theorem getQuery_eq (R : Reads) (q : Query) :
    getQuery R q = (eval R q).map (fun p => p.1 ++ [p.2]) := by
  rw [getQuery, query_eq, pushAll]; simp

theorem lastOutput_eq (R : Reads) (q : Query) : lastOutput R q = (eval R q).map (·.2) := by
  unfold lastOutput
  rw [query_eq, pushAll]
  cases eval R q with
  | error f => rfl
  | ok p => simp [Except.map, Bind.bind, Except.bind, vecPop_concat, Pure.pure, Except.pure]

/-! ### Faithful reads -/

/-- `r` yields exactly the items `l`, without faults. -/
def Yields {α : Type} (r : Res (DynIter α)) (l : List α) : Prop := r = .ok (l.map .ok)

/-- An index read: `None` iff not indexed, else a listing. -/
def YieldsIndex {α : Type} (I : IndexView) (ix : Bool) (r : Res (Option (DynIter α))) (P : α → Bool) : Prop :=
  if ix then ∃ l, r = .ok (some (l.map .ok)) ∧ Lists I l P else r = .ok none

/-- The reads `R` faithfully read the graph `g` with index contents `I`, with conventions `C`. -/
structure Faithful (R : Reads) (g : Graph) (I : IndexView) (C : Conv) : Prop where
  allVertices : ∃ l, Yields R.allVertices l ∧ l.length = R.vertexCount ∧
    Enumerates vertexLt l (fun v => g.vertex v.id = some v.t)
  rangeVertices : ∀ s, ∃ l, Yields (R.rangeVertices s) l ∧
    Enumerates vertexLt l (fun v => g.vertex v.id = some v.t ∧ Order.lt v.id s = false)
  specificVertices : ∀ ids, Yields (R.specificVertices ids) (g.lookup ids)
  vIds : ∀ n, YieldsIndex I (g.indexed n) (R.vertexIdsWithProperty n) (I.vPresent n)
  vIdsValue : ∀ n v, YieldsIndex I (g.indexed n) (R.vertexIdsWithPropertyValue n v) (I.vValue n v)
  allEdges : ∃ l, Yields R.allEdges l ∧ l.length = R.edgeCount ∧ Enumerates C.edgeLt l (fun e => g.edge e = true)
  rangeEdges : ∀ lo, ∃ l, Yields (R.rangeEdges lo) l ∧
    Enumerates C.edgeLt l (fun e => g.edge e = true ∧ C.edgeLt e lo = false)
  rangeReversedEdges : ∀ lo, ∃ l, Yields (R.rangeReversedEdges lo) l ∧
    Enumerates C.edgeLt l (fun e => g.edge e.reversed = true ∧ C.edgeLt e lo = false)
  specificEdges : ∀ es, Yields (R.specificEdges es) (es.filter g.edge)
  eIds : ∀ n, YieldsIndex I (g.indexed n) (R.edgesWithProperty n) (I.ePresent n)
  eIdsValue : ∀ n v, YieldsIndex I (g.indexed n) (R.edgesWithPropertyValue n v) (I.eValue n v)
  vertexProperty : ∀ v n, R.vertexProperty v n = .ok (g.vprop v.id n)
  allVertexProps : ∀ v, if C.propsPanic v.id then R.allVertexPropertiesForVertex v = .error .panic
    else ∃ l, Yields (R.allVertexPropertiesForVertex v) l ∧
      Enumerates (fun a b : Identifier × Json => Order.lt a.1 b.1) l (fun p => g.vprop v.id p.1 = some p.2)
  edgeProperty : ∀ e n, R.edgeProperty e n = .ok (g.eprop e n)
  allEdgeProps : ∀ e, ∃ l, Yields (R.allEdgePropertiesForEdge e) l ∧
    Enumerates (fun a b : Identifier × Json => Order.lt a.1 b.1) l (fun p => g.eprop e p.1 = some p.2)

theorem filterIter_ok {α : Type} (p : α → Bool) (l : List α) :
    filterIter p (l.map .ok) = (l.filter p).map .ok := by
  unfold filterIter
  rw [List.filter_map]; rfl

theorem takeWhileIter_ok {α : Type} (p : α → Bool) (l : List α) :
    takeWhileIter p (l.map .ok) = (l.takeWhile p).map .ok := by
  unfold takeWhileIter
  rw [List.takeWhile_map]; rfl

theorem filterT_ok {α : Type} (ty : α → Identifier) (t : Option Identifier) (l : List α) :
    filterT ty t (l.map .ok) = (l.filter (fun v => decide (∀ t', t = some t' → ty v = t'))).map .ok := by
  unfold filterT
  cases t with
  | none =>
    have : l.filter (fun v => decide (∀ t', (none : Option Identifier) = some t' → ty v = t')) = l := by
      rw [List.filter_eq_self]; intro a _; simp
    rw [this]
  | some t =>
    simp only [filterIter_ok]
    congr 1
    apply List.filter_congr
    intro v _
    simp [eq_comm]

theorem reverseIter_ok (l : List Edge) : reverseIter (l.map .ok) = (l.map Edge.reversed).map .ok := by
  unfold reverseIter; simp

theorem collect_take_ok {α : Type} (l : List α) (n : Nat) : collect ((l.map .ok).take n) = .ok (l.take n) := by
  rw [← List.map_take, collect_map_ok]

theorem Enumerates.filter {α : Type} {lt : α → α → Bool} {l : List α} {P : α → Prop} (h : Enumerates lt l P)
    (p : α → Bool) : Enumerates lt (l.filter p) (fun x => P x ∧ p x = true) :=
  ⟨h.sorted.filter _, fun x => by rw [List.mem_filter, h.mem]⟩

theorem Enumerates.congr {α : Type} {lt : α → α → Bool} {l : List α} {P Q : α → Prop} (h : Enumerates lt l P)
    (hp : ∀ x, P x ↔ Q x) : Enumerates lt l Q := ⟨h.sorted, fun x => (h.mem x).trans (hp x)⟩

/-- At most one list enumerates a predicate. -/
theorem Enumerates.unique {α : Type} {lt : α → α → Bool} {l1 l2 : List α} {P : α → Prop}
    (hirr : ∀ a, lt a a = false) (htr : ∀ a b c, lt a b = true → lt b c = true → lt a c = true)
    (h1 : Enumerates lt l1 P) (h2 : Enumerates lt l2 P) : l1 = l2 := by
  obtain ⟨s1, m1⟩ := h1
  obtain ⟨s2, m2⟩ := h2
  have h : ∀ x, x ∈ l1 ↔ x ∈ l2 := fun x => (m1 x).trans (m2 x).symm
  clear m1 m2
  induction l1 generalizing l2 with
  | nil =>
    cases l2 with
    | nil => rfl
    | cons b _ => exact absurd ((h b).2 (by simp)) (by simp)
  | cons a r ih =>
    cases l2 with
    | nil => exact absurd ((h a).1 (by simp)) (by simp)
    | cons b s =>
      rw [List.pairwise_cons] at s1 s2
      have hab : a = b := by
        rcases List.mem_cons.1 ((h a).1 (by simp)) with h3 | h3
        · exact h3
        · rcases List.mem_cons.1 ((h b).2 (by simp)) with h4 | h4
          · exact h4.symm
          · have := htr _ _ _ (s1.1 _ h4) (s2.1 _ h3)
            simp [hirr] at this
      subst hab
      congr 1
      refine ih s1.2 s2.2 ?_
      intro x
      constructor
      · intro hx
        rcases List.mem_cons.1 ((h x).1 (by simp [hx])) with h3 | h3
        · have := s1.1 _ hx; rw [h3] at this; simp [hirr] at this
        · exact h3
      · intro hx
        rcases List.mem_cons.1 ((h x).2 (by simp [hx])) with h3 | h3
        · have := s2.1 _ hx; rw [h3] at this; simp [hirr] at this
        · exact h3

theorem Conv.out_mono (C : Conv) (a b : Edge) (h : C.edgeLt a b = true) : Order.lt b.outboundId a.outboundId = false := by
  cases h2 : Order.lt b.outboundId a.outboundId with
  | false => rfl
  | true =>
    have := C.edge_trans _ _ _ h (C.out_lt _ _ h2)
    rw [C.edge_irrefl] at this; exact absurd this (by simp)

section
variable {R : Reads} {g : Graph} {I : IndexView} {C : Conv}

/-- The iterator for one vertex yields exactly its edges. -/
theorem pipeVertexIter_spec (F : Faithful R g I C) (d : EdgeDirection) (t : Option Identifier) (v : Vertex) :
    ∃ l, Yields (pipeVertexIter R d t v) l ∧
      Enumerates (C.dirLt d) l (fun e => g.edge e = true ∧ d.endpoint e = v.id ∧ TypeOk t e.t) := by
  -- the lower bound is below every edge leaving `v` that passes the filter
  have hbound : ∀ e : Edge, e.outboundId = v.id → TypeOk t e.t →
      C.edgeLt e (pipeBound t v) = false := by
    intro e he ht
    cases t with
    | none => simp only [pipeBound]; rw [← he]; exact C.bound e
    | some t => simp only [pipeBound]; rw [← he, ← ht t rfl]; exact C.bound_t e
  -- generic part: from a sorted listing of the edges above the bound
  have key : ∀ (G : Edge → Prop) (l : List Edge),
      Enumerates C.edgeLt l (fun e => G e ∧ C.edgeLt e
        (pipeBound t v) = false) →
      Enumerates C.edgeLt
        ((l.takeWhile (fun e => decide (e.outboundId = v.id))).filter
          (fun e => decide (∀ t', t = some t' → e.t = t')))
        (fun e => G e ∧ e.outboundId = v.id ∧ TypeOk t e.t) := by
    intro G l hl
    have hge : ∀ e ∈ l, Order.lt e.outboundId v.id = false := by
      intro e he
      have h2 := ((hl.mem e).1 he).2
      cases hlt : Order.lt e.outboundId v.id with
      | false => rfl
      | true =>
        have := C.out_lt e (pipeBound t v)
          (by cases t <;> exact hlt)
        rw [h2] at this; exact absurd this (by simp)
    have htw : l.takeWhile (fun e => decide (e.outboundId = v.id)) = l.filter (fun e => decide (e.outboundId = v.id)) := by
      apply takeWhile_eq_filter
      refine hl.sorted.imp_of_mem ?_
      intro a b ha hb hab hb'
      simp only [decide_eq_true_eq] at hb' ⊢
      have h1 := C.out_mono a b hab
      rw [hb'] at h1
      exact Order.tri _ _ (hge a ha) h1
    rw [htw]
    refine ((hl.filter _).filter _).congr ?_
    intro e
    simp only [decide_eq_true_eq]
    constructor
    · rintro ⟨⟨⟨h1, _⟩, h2⟩, h3⟩; exact ⟨h1, h2, h3⟩
    · rintro ⟨h1, h2, h3⟩; exact ⟨⟨⟨h1, hbound e h2 h3⟩, h2⟩, h3⟩
  cases d with
  | outbound =>
    obtain ⟨l, hy, hl⟩ := F.rangeEdges (pipeBound t v)
    refine ⟨_, ?_, key _ l hl⟩
    unfold Yields pipeVertexIter at *
    simp only [hy, Bind.bind, Except.bind, Pure.pure, Except.pure, takeWhileIter_ok, filterT_ok]
  | inbound =>
    obtain ⟨l, hy, hl⟩ := F.rangeReversedEdges (pipeBound t v)
    have h := key (fun e => g.edge e.reversed = true) l hl
    refine ⟨((l.takeWhile (fun e => decide (e.outboundId = v.id))).filter
          (fun e => decide (∀ t', t = some t' → e.t = t'))).map Edge.reversed, ?_, ⟨?_, ?_⟩⟩
    · unfold Yields pipeVertexIter at *
      simp only [hy, Bind.bind, Except.bind, Pure.pure, Except.pure, takeWhileIter_ok, filterT_ok, reverseIter_ok]
    · rw [List.pairwise_map]
      exact h.sorted.imp (fun h => by simpa [Conv.dirLt] using h)
    · intro e
      rw [List.mem_map]
      constructor
      · rintro ⟨e', he', rfl⟩
        have := (h.mem e').1 he'
        exact ⟨by simpa using this.1, this.2.1, this.2.2⟩
      · rintro ⟨h1, h2, h3⟩
        exact ⟨e.reversed, (h.mem e.reversed).2 ⟨by simpa using h1, h2, h3⟩, rfl⟩

/-- The loop over the piped vertices concatenates and cuts at the limit; the subtraction never underflows. -/
theorem pipeVertices_spec {per : Uuid → List Edge} {d : EdgeDirection} {t : Option Identifier}
    (hper : ∀ v : Vertex, Yields (pipeVertexIter R d t v) (per v.id)) (limit : UInt32) (vs : List Vertex) :
    ∀ acc : List Edge, acc.length ≤ limit.toNat →
    pipeVertices R d limit t vs acc = .ok ((acc ++ vs.flatMap (fun v => per v.id)).take limit.toNat) := by
  induction vs with
  | nil => intro acc h; simp [pipeVertices, List.take_of_length_le h]
  | cons v vs ih =>
    intro acc h
    have hy : pipeVertexIter R d t v = .ok ((per v.id).map .ok) := hper v
    have hn : ¬ limit.toNat < acc.length := by omega
    rw [pipeVertices]
    simp only [hy, Bind.bind, Except.bind, hn, if_false, collect_take_ok, Pure.pure, Except.pure]
    have e1 : acc ++ (per v.id).take (limit.toNat - acc.length) = (acc ++ per v.id).take limit.toNat := by
      rw [List.take_append, List.take_of_length_le h]
    split
    · rename_i hge
      rw [e1] at hge ⊢
      rw [List.flatMap_cons, ← List.append_assoc, List.take_append (l₁ := acc ++ per v.id)]
      have : limit.toNat ≤ (acc ++ per v.id).length := by
        rw [List.length_take] at hge; omega
      rw [Nat.sub_eq_zero_of_le this]; simp
    · rename_i hlt
      have hl : (acc ++ per v.id).length ≤ limit.toNat := by
        rw [e1, List.length_take] at hlt; omega
      rw [e1, List.take_of_length_le hl]
      rw [ih _ hl, List.flatMap_cons, List.append_assoc]

theorem pipeEdges_spec (F : Faithful R g I C) (d : EdgeDirection) (limit : UInt32) (t : Option Identifier)
    (es : List Edge) : PipeStage g C d limit.toNat t (.edges es) (pipeEdges R d limit t es) := by
  refine ⟨_, rfl, ?_⟩
  have hy := F.specificVertices (es.map d.endpoint)
  unfold Yields at hy
  unfold pipeEdges
  cases d
  · have e1 : es.map (·.outboundId) = es.map EdgeDirection.outbound.endpoint := rfl
    simp only [e1, hy, Bind.bind, Except.bind, filterT_ok, collect_take_ok, Pure.pure, Except.pure]
  · have e1 : es.map (·.inboundId) = es.map EdgeDirection.inbound.endpoint := rfl
    simp only [e1, hy, Bind.bind, Except.bind, filterT_ok, collect_take_ok, Pure.pure, Except.pure]

theorem stagePipe_spec (F : Faithful R g I C) (d : EdgeDirection) (limit : UInt32) (t : Option Identifier)
    (v : Output) : PipeStage g C d limit.toNat t v (stagePipe R d limit t v) := by
  cases v with
  | edges es => exact pipeEdges_spec F d limit t es
  | vertices vs =>
    refine ⟨fun id => Classical.choose (pipeVertexIter_spec F d t ⟨id, Identifier.empty⟩), ?_, ?_⟩
    · intro id; exact (Classical.choose_spec (pipeVertexIter_spec F d t ⟨id, Identifier.empty⟩)).2
    · simp only [stagePipe]
      rw [pipeVertices_spec (per := fun id => Classical.choose (pipeVertexIter_spec F d t ⟨id, Identifier.empty⟩))]
      · simp [Bind.bind, Except.bind, Pure.pure, Except.pure]
      · intro v
        have h := (Classical.choose_spec (pipeVertexIter_spec F d t ⟨v.id, Identifier.empty⟩)).1
        have e : pipeVertexIter R d t v = pipeVertexIter R d t ⟨v.id, Identifier.empty⟩ := by
          unfold pipeVertexIter pipeBound; rfl
        rw [e]; exact h
      · simp
  | _ => rfl

/-! ### Property stages -/

theorem propList_map {get : Identifier → Option Json} {l : List (Identifier × Json)}
    (h : Enumerates (fun a b : Identifier × Json => Order.lt a.1 b.1) l (fun p => get p.1 = some p.2)) :
    PropList get none (l.map (fun p => ⟨p.1, p.2⟩)) := by
  refine ⟨?_, ?_⟩
  · rw [List.pairwise_map]; exact h.sorted
  · intro p
    rw [List.mem_map]
    constructor
    · rintro ⟨q, hq, rfl⟩; exact (h.mem q).1 hq
    · intro hp; exact ⟨(p.name, p.value), (h.mem _).2 hp, rfl⟩

/-- A property list is determined. -/
theorem PropList.unique {get : Identifier → Option Json} {name : Option Identifier} {l1 l2 : List NamedProperty}
    (h1 : PropList get name l1) (h2 : PropList get name l2) : l1 = l2 := by
  cases name with
  | some n => exact h1.trans h2.symm
  | none =>
    exact Enumerates.unique (fun a => Order.irrefl a.name) (fun a b c h1 h2 => Order.trans a.name b.name c.name h1 h2) h1 h2

theorem ownerProps_some {one : Identifier → Res (Option Json)} {all : Res (DynIter (Identifier × Json))}
    {get : Identifier → Option Json} (h : ∀ n, one n = .ok (get n)) (n : Identifier) :
    ownerProps one all (some n) = .ok ((get n).toList.map (fun v => ⟨n, v⟩)) := by
  unfold ownerProps
  simp only [h, Bind.bind, Except.bind, Pure.pure, Except.pure]
  cases get n <;> rfl

theorem ownerProps_none {one : Identifier → Res (Option Json)} {all : Res (DynIter (Identifier × Json))}
    {l : List (Identifier × Json)} (h : Yields all l) :
    ownerProps one all none = .ok (l.map (fun p => ⟨p.1, p.2⟩)) := by
  unfold Yields at h
  unfold ownerProps
  simp only [h, Bind.bind, Except.bind, Pure.pure, Except.pure, collect_map_ok]

/-- Properties of one owner. -/
theorem ownerProps_spec {one : Identifier → Res (Option Json)} {all : Res (DynIter (Identifier × Json))}
    {get : Identifier → Option Json} (name : Option Identifier) (h1 : ∀ n, one n = .ok (get n))
    (h2 : name = none → ∃ l, Yields all l ∧
      Enumerates (fun a b : Identifier × Json => Order.lt a.1 b.1) l (fun p => get p.1 = some p.2)) :
    ∃ l, ownerProps one all name = .ok l ∧ PropList get name l := by
  cases name with
  | some n => exact ⟨_, ownerProps_some h1 n, rfl⟩
  | none =>
    obtain ⟨l, hy, hl⟩ := h2 rfl
    exact ⟨_, ownerProps_none hy, propList_map hl⟩

theorem pipeEdgeProps_eq {name : Option Identifier} {props : Edge → List NamedProperty}
    (h : ∀ e, ownerProps (R.edgeProperty e) (R.allEdgePropertiesForEdge e) name = .ok (props e)) (es : List Edge) :
    pipeEdgeProps R name es =
      .ok (es.filterMap (fun e => if props e = [] then none else some ⟨e, props e⟩)) := by
  induction es with
  | nil => rfl
  | cons e es ih =>
    rw [pipeEdgeProps]
    simp only [h, ih, Bind.bind, Except.bind, Pure.pure, Except.pure]
    rw [List.filterMap_cons]
    cases hp : props e with
    | nil => simp
    | cons a r => simp

theorem pipeVertexProps_eq {name : Option Identifier} {props : Uuid → List NamedProperty} (vs : List Vertex)
    (h : ∀ v ∈ vs, ownerProps (R.vertexProperty v) (R.allVertexPropertiesForVertex v) name = .ok (props v.id)) :
    pipeVertexProps R name vs =
      .ok (vs.filterMap (fun v => if props v.id = [] then none else some ⟨v, props v.id⟩)) := by
  induction vs with
  | nil => rfl
  | cons v vs ih =>
    rw [pipeVertexProps]
    simp only [h v (by simp), ih (fun x hx => h x (by simp [hx])), Bind.bind, Except.bind, Pure.pure, Except.pure]
    rw [List.filterMap_cons]
    cases hp : props v.id with
    | nil => simp
    | cons a r => simp

theorem pipeVertexProps_panic (F : Faithful R g I C) (vs : List Vertex) (h : ∃ x ∈ vs, C.propsPanic x.id = true) :
    pipeVertexProps R none vs = .error .panic := by
  induction vs with
  | nil => obtain ⟨x, hx, _⟩ := h; simp at hx
  | cons v vs ih =>
    rw [pipeVertexProps]
    have hv := F.allVertexProps v
    by_cases hp : C.propsPanic v.id = true
    · rw [if_pos hp] at hv
      simp only [ownerProps, hv, Bind.bind, Except.bind]
    · rw [if_neg hp] at hv
      obtain ⟨l, hy, _⟩ := hv
      rw [ownerProps_none hy]
      obtain ⟨x, hx, hxp⟩ := h
      have : x ∈ vs := by
        rcases List.mem_cons.1 hx with rfl | hx
        · exact absurd hxp hp
        · exact hx
      rw [ih ⟨x, this, hxp⟩]
      rfl

theorem stageProperty_spec (F : Faithful R g I C) (name : Option Identifier) (v : Output) :
    PropertyStage g C name v (stageProperty R name v) := by
  cases v with
  | edges es =>
    have h := fun e => ownerProps_spec (get := g.eprop e) name (F.edgeProperty e) (fun _ => F.allEdgeProps e)
    refine ⟨fun e => Classical.choose (h e), fun e => (Classical.choose_spec (h e)).2, ?_⟩
    simp only [stageProperty]
    rw [pipeEdgeProps_eq (props := fun e => Classical.choose (h e)) (fun e => (Classical.choose_spec (h e)).1)]
    rfl
  | vertices vs =>
    unfold PropertyStage
    simp only
    by_cases hp : name = none ∧ ∃ x ∈ vs, C.propsPanic x.id = true
    · rw [if_pos hp]
      obtain ⟨rfl, hp⟩ := hp
      simp only [stageProperty]
      rw [pipeVertexProps_panic F vs hp]; rfl
    · rw [if_neg hp]
      have h : ∀ id, ∃ l, (∃ x ∈ vs, x.id = id) → PropList (g.vprop id) name l ∧ ∀ x ∈ vs, x.id = id →
          ownerProps (R.vertexProperty x) (R.allVertexPropertiesForVertex x) name = .ok l := by
        intro id
        by_cases hq : ∃ x ∈ vs, x.id = id
        · obtain ⟨x, hx, rfl⟩ := hq
          have hnp : name = none → C.propsPanic x.id = false := by
            intro hn
            cases hc : C.propsPanic x.id with
            | false => rfl
            | true => exact absurd ⟨hn, x, hx, hc⟩ hp
          have hall : ∀ y : Vertex, y.id = x.id → ∃ l,
              ownerProps (R.vertexProperty y) (R.allVertexPropertiesForVertex y) name = .ok l ∧
              PropList (g.vprop x.id) name l := by
            intro y hy
            refine ownerProps_spec (get := g.vprop x.id) name (fun n => by rw [F.vertexProperty, hy]) ?_
            intro hn
            have h2 := F.allVertexProps y
            rw [hy, hnp hn] at h2
            exact h2
          obtain ⟨l, hl, hpl⟩ := hall x rfl
          refine ⟨l, fun _ => ⟨hpl, ?_⟩⟩
          intro y _ hy
          obtain ⟨l', hl', hpl'⟩ := hall y hy
          rw [hl', PropList.unique hpl hpl']
        · exact ⟨[], fun h => absurd h hq⟩
      refine ⟨fun id => Classical.choose (h id), fun x hx => (Classical.choose_spec (h x.id) ⟨x, hx, rfl⟩).1, ?_⟩
      simp only [stageProperty]
      rw [pipeVertexProps_eq (props := fun id => Classical.choose (h id)) vs
        (fun x hx => (Classical.choose_spec (h x.id) ⟨x, hx, rfl⟩).2 x hx rfl)]
      rfl
  | _ => rfl

/-! ### Filter stages -/

theorem keepIf_eq (k c : Bool) : keepIf k c = (c == k) := by cases k <;> cases c <;> rfl

theorem indexed_some {α : Type} {l : List α} {r : Res (Option (DynIter α))} (h : r = .ok (some (l.map .ok))) :
    indexed r = .ok l := by
  subst h; simp [indexed, Bind.bind, Except.bind, collect_map_ok]

theorem indexed_none {α : Type} {r : Res (Option (DynIter α))} (h : r = .ok none) :
    indexed r = .error (.err .notIndexed) := by
  subst h; rfl

theorem contains_lists {α : Type} [DecidableEq α] {l : List α} {P : α → Bool} (h : Lists I l P) (x : α) :
    l.contains x = P x := by
  have := h.1 x
  cases hp : P x with
  | true => simp [this, hp]
  | false => simp [this, hp]

theorem stageFilter_spec {n : Identifier} {vin : Uuid → Bool} {ein : Edge → Bool}
    {es : Res (Option (DynIter Edge))} {vs : Res (Option (DynIter Uuid))} (keep : Bool)
    (he : YieldsIndex I (g.indexed n) es ein) (hv : YieldsIndex I (g.indexed n) vs vin) (v : Output) :
    FilterStage g n vin ein keep v (stageFilter es vs keep v) := by
  unfold YieldsIndex at he hv
  cases v with
  | edges piped =>
    simp only [FilterStage, stageFilter]
    cases hi : g.indexed n with
    | false =>
      rw [hi] at he
      simp only [Bool.false_eq_true, if_false] at he ⊢
      rw [indexed_none he]; rfl
    | true =>
      rw [hi] at he
      simp only [if_true] at he ⊢
      obtain ⟨l, hl, hls⟩ := he
      rw [indexed_some hl]
      simp only [Bind.bind, Except.bind, Pure.pure, Except.pure, keepIf_eq, contains_lists hls]
  | vertices piped =>
    simp only [FilterStage, stageFilter]
    cases hi : g.indexed n with
    | false =>
      rw [hi] at hv
      simp only [Bool.false_eq_true, if_false] at hv ⊢
      rw [indexed_none hv]; rfl
    | true =>
      rw [hi] at hv
      simp only [if_true] at hv ⊢
      obtain ⟨l, hl, hls⟩ := hv
      rw [indexed_some hl]
      simp only [Bind.bind, Except.bind, Pure.pure, Except.pure, keepIf_eq, contains_lists hls]
  | _ => rfl

theorem stageCount_spec (v : Output) : CountStage v (do return .count (← countOf v)) := by
  cases v <;> rfl

theorem next_evalStage {i : Query} {S : Output → Res Output → Prop} {stage : Output → Res Output}
    (h : ∀ v, S v (stage v)) (r : Res (List Output × Output)) : Next i S r (evalStage i r stage) := by
  unfold Next evalStage
  cases r with
  | error f => rfl
  | ok p => exact ⟨_, h _, rfl⟩

/-- **The evaluator is correct**: on faithful reads it computes an acceptable answer, for every query. -/
theorem eval_answers (F : Faithful R g I C) (q : Query) : Answers g I C q (eval R q) := by
  induction q with
  | allVertex =>
    obtain ⟨l, hy, _, hl⟩ := F.allVertices
    refine ⟨l, hl, ?_⟩
    simp only [eval, Yields] at *
    simp [hy, Bind.bind, Except.bind, collect_map_ok, single, Except.map, Pure.pure, Except.pure]
  | rangeVertex limit t start =>
    cases start with
    | none =>
      obtain ⟨l, hy, _, hl⟩ := F.allVertices
      refine ⟨_, (hl.filter (fun v => decide (∀ t', t = some t' → v.t = t'))).congr ?_, ?_⟩
      · intro v; simp [TypeOk]
      · simp only [eval, Yields] at *
        simp only [hy, Bind.bind, Except.bind, filterT_ok, collect_take_ok, single, Except.map, Pure.pure, Except.pure]
    | some s =>
      obtain ⟨l, hy, hl⟩ := F.rangeVertices s
      refine ⟨_, (hl.filter (fun v => decide (∀ t', t = some t' → v.t = t'))).congr ?_, ?_⟩
      · intro v
        simp only [TypeOk, decide_eq_true_eq, Option.some.injEq, forall_eq']
        constructor
        · rintro ⟨⟨h1, h2⟩, h3⟩; exact ⟨h1, h3, h2⟩
        · rintro ⟨h1, h3, h2⟩; exact ⟨⟨h1, h2⟩, h3⟩
      · simp only [eval, Yields] at *
        simp only [hy, Bind.bind, Except.bind, filterT_ok, collect_take_ok, single, Except.map, Pure.pure, Except.pure]
  | specificVertex ids =>
    have hy := F.specificVertices ids
    simp only [Answers, eval, Yields] at *
    simp only [hy, Bind.bind, Except.bind, collect_map_ok, single, Except.map, Pure.pure, Except.pure]
  | vertexWithPropertyPresence n =>
    have hi := F.vIds n
    simp only [Answers, eval]
    unfold YieldsIndex at hi
    split
    · rename_i hx
      rw [if_pos hx] at hi
      obtain ⟨l, hl, hls⟩ := hi
      refine ⟨l, hls, ?_⟩
      have hy := F.specificVertices l
      unfold Yields at hy
      rw [indexed_some hl]
      simp only [hy, Bind.bind, Except.bind, collect_map_ok, single, Except.map, Pure.pure, Except.pure]
    · rename_i hx
      rw [if_neg hx] at hi
      rw [indexed_none hi]; rfl
  | vertexWithPropertyValue n v =>
    have hi := F.vIdsValue n v
    simp only [Answers, eval]
    unfold YieldsIndex at hi
    split
    · rename_i hx
      rw [if_pos hx] at hi
      obtain ⟨l, hl, hls⟩ := hi
      refine ⟨l, hls, ?_⟩
      have hy := F.specificVertices l
      unfold Yields at hy
      rw [indexed_some hl]
      simp only [hy, Bind.bind, Except.bind, collect_map_ok, single, Except.map, Pure.pure, Except.pure]
    · rename_i hx
      rw [if_neg hx] at hi
      rw [indexed_none hi]; rfl
  | allEdge =>
    obtain ⟨l, hy, _, hl⟩ := F.allEdges
    refine ⟨l, hl, ?_⟩
    simp only [eval, Yields] at *
    simp [hy, Bind.bind, Except.bind, collect_map_ok, single, Except.map, Pure.pure, Except.pure]
  | specificEdge es =>
    have hy := F.specificEdges es
    simp only [Answers, eval, Yields] at *
    simp only [hy, Bind.bind, Except.bind, collect_map_ok, single, Except.map, Pure.pure, Except.pure]
  | edgeWithPropertyPresence n =>
    have hi := F.eIds n
    simp only [Answers, eval]
    unfold YieldsIndex at hi
    split
    · rename_i hx
      rw [if_pos hx] at hi
      obtain ⟨l, hl, hls⟩ := hi
      exact ⟨l, hls, by rw [indexed_some hl]; rfl⟩
    · rename_i hx
      rw [if_neg hx] at hi
      rw [indexed_none hi]; rfl
  | edgeWithPropertyValue n v =>
    have hi := F.eIdsValue n v
    simp only [Answers, eval]
    unfold YieldsIndex at hi
    split
    · rename_i hx
      rw [if_pos hx] at hi
      obtain ⟨l, hl, hls⟩ := hi
      exact ⟨l, hls, by rw [indexed_some hl]; rfl⟩
    · rename_i hx
      rw [if_neg hx] at hi
      rw [indexed_none hi]; rfl
  | pipe i d l t ih => exact ⟨_, ih, next_evalStage (stagePipe_spec F d l t) _⟩
  | pipeProperty i n ih => exact ⟨_, ih, next_evalStage (stageProperty_spec F n) _⟩
  | pipeWithPropertyPresence i n k ih =>
    exact ⟨_, ih, next_evalStage (stageFilter_spec k (F.eIds n) (F.vIds n)) _⟩
  | pipeWithPropertyValue i n v k ih =>
    exact ⟨_, ih, next_evalStage (stageFilter_spec k (F.eIdsValue n v) (F.vIdsValue n v)) _⟩
  | incl i ih => simpa [Answers, eval] using ih
  | count i ih =>
    cases i
    case allVertex =>
      obtain ⟨l, hy, hc, hl⟩ := F.allVertices
      refine ⟨.ok ([], .vertices l), ⟨l, hl, rfl⟩, .ok (.count l.length), rfl, ?_⟩
      simp [eval, hc, Except.map, Query.isInclude]
    case allEdge =>
      obtain ⟨l, hy, hc, hl⟩ := F.allEdges
      refine ⟨.ok ([], .edges l), ⟨l, hl, rfl⟩, .ok (.count l.length), rfl, ?_⟩
      simp [eval, hc, Except.map, Query.isInclude]
    all_goals
      exact ⟨_, ih, next_evalStage stageCount_spec (eval R _)⟩

end
end IndraDB
