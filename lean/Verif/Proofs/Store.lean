import Verif.Spec.Store
import Verif.Proofs.Query
import Verif.Proofs.Answers
/-
A store whose reads are faithful and whose calls follow `StepWith` has the properties of `Spec/Store.lean`.
-/
set_option linter.unusedSimpArgs false
namespace IndraDB

/-- The store's calls are those of a transaction with faithful reads. -/
structure Conforms (S : Store) (C : Conv) (Sm : Sem) where
  reads : S.Env → S.State → Reads
  get_eq : ∀ s, S.Reach s → ∀ env q, (S.step env (.get q) s).2 = (getQuery (reads env s) q).map .outputs
  faithful : ∀ s, S.Reach s → ∀ env, Faithful (reads env s) (S.graph s) (S.index env s) C
  step : ∀ s, S.Reach s → ∀ env op, op.ValuesOk S.okValue →
    StepWith Sm (S.graph s) (eval (reads env s)) op (S.graph (S.step env op s).1) (S.step env op s).2 ∨
    ((S.step env op s).2 = .error .panic ∧ ((∃ q, op = .delete q) ∨ (∃ q n x, op = .setProperties q n x) ∨
      ∃ l, op = .bulkInsert l))
  /-- a call whose query fails or gives a value of the wrong kind writes nothing, and follows the specification -/
  step_noWrite : ∀ s, S.Reach s → ∀ env op,
    ((∃ q, op = .delete q ∧ ((∃ f, eval (reads env s) q = .error f) ∨
      ∃ p, eval (reads env s) q = .ok p ∧ p.2.kind = .count)) ∨
     (∃ q n x, op = .setProperties q n x ∧ ((∃ f, eval (reads env s) q = .error f) ∨
      ∃ p, eval (reads env s) q = .ok p ∧ p.2.kind ≠ .vertices ∧ p.2.kind ≠ .edges))) →
    StepWith Sm (S.graph s) (eval (reads env s)) op (S.graph (S.step env op s).1) (S.step env op s).2
  /-- writes do not change which names are indexed -/
  sem_index : (∀ g ids, (Sm.dropVertices g ids).indexed = g.indexed) ∧ (∀ g es, (Sm.dropEdges g es).indexed = g.indexed) ∧
    ∀ g i, (Sm.bulkItem g i).indexed = g.indexed
  alive_back : ∀ s env op, S.alive (S.step env op s).1 = true → S.alive s = true
  alive_ok : ∀ s, S.Reach s → ∀ env op, op.ValuesOk S.okValue → S.alive (S.step env op s).1 = true → (S.step env op s).2 ≠ .error .panic

theorem Store.run_append (S : Store) (h1 h2 : List (S.Env × Op)) : ∀ s, S.run (h1 ++ h2) s = S.run h2 (S.run h1 s) := by
  induction h1 with
  | nil => intro s; rfl
  | cons a r ih => intro s; exact ih _

theorem Store.Reach.next {S : Store} {s : S.State} (h : S.Reach s) (env : S.Env) (op : Op)
    (hv : op.ValuesOk S.okValue) (ha : S.alive (S.step env op s).1 = true) : S.Reach (S.step env op s).1 := by
  obtain ⟨hist, rfl, _, ho⟩ := h
  refine ⟨hist ++ [(env, op)], by rw [Store.run_append]; rfl, ha, fun p hp => ?_⟩
  rcases List.mem_append.1 hp with hp | hp
  · exact ho p hp
  · simp only [List.mem_singleton] at hp; subst hp; exact hv

namespace Conforms
variable {S : Store} {C : Conv} {Sm : Sem} (F : Conforms S C Sm)
include F

theorem ask_eq {s : S.State} (h : S.Reach s) (env : S.Env) (q : Query) :
    S.ask env q s = (eval (F.reads env s) q).map (fun p => p.1 ++ [p.2]) := by
  unfold Store.ask
  rw [F.get_eq s h, getQuery_eq]
  cases eval (F.reads env s) q <;> rfl

theorem value_eq {s : S.State} (h : S.Reach s) (env : S.Env) (q : Query) :
    S.value env q s = (eval (F.reads env s) q).map (·.2) := by
  unfold Store.value
  rw [F.ask_eq h]
  cases eval (F.reads env s) q with
  | error f => rfl
  | ok p => simp [Except.map]

end Conforms

theorem map_ok_iff {α β : Type} {f : α → β} {r : Res α} {b : β} : r.map f = .ok b ↔ ∃ a, r = .ok a ∧ f a = b := by
  cases r <;> simp [Except.map]

theorem map_error_iff {α β : Type} {f : α → β} {r : Res α} {x : Fault} :
    r.map f = .error x ↔ r = .error x := by
  cases r <;> simp [Except.map]

/-- The value of a stage. -/
theorem value_evalStage {i : Query} {r : Res (List Output × Output)} {stage : Output → Res Output} {v : Output}
    (h : r.map (·.2) = .ok v) : (evalStage i r stage).map (·.2) = stage v := by
  obtain ⟨⟨inc, v'⟩, rfl, rfl⟩ := map_ok_iff.1 h
  unfold evalStage
  simp only
  cases stage v' <;> rfl

theorem eval_count {R : Reads} {g : Graph} {I : IndexView} {C : Conv} (F : Faithful R g I C) (i : Query) :
    eval R (.count i) = evalStage i (eval R i) (fun v => do return .count (← countOf v)) := by
  cases i
  case allVertex =>
    obtain ⟨l, hy, hc, hl⟩ := F.allVertices
    simp only [eval, ← hc]
    rw [hy]
    simp [single, Bind.bind, Except.bind, collect_map_ok, evalStage, Except.map, countOf, Query.isInclude, Pure.pure,
      Except.pure]
  case allEdge =>
    obtain ⟨l, hy, hc, hl⟩ := F.allEdges
    simp only [eval, ← hc]
    rw [hy]
    simp [single, Bind.bind, Except.bind, collect_map_ok, evalStage, Except.map, countOf, Query.isInclude, Pure.pure,
      Except.pure]
  all_goals rfl

section
variable {R : Reads} {g : Graph} {I : IndexView} {C : Conv}

/-- Values of intermediate includes. -/
def ValuesOfEval (R : Reads) : List Query → List Output → Prop
  | [], [] => True
  | q :: qs, o :: os => (eval R q).map (·.2) = .ok o ∧ ValuesOfEval R qs os
  | _, _ => False

theorem ValuesOfEval.append {R : Reads} : ∀ {qs qs' : List Query} {os os' : List Output}, ValuesOfEval R qs os →
    ValuesOfEval R qs' os' → ValuesOfEval R (qs ++ qs') (os ++ os')
  | [], _, [], _, _, h => h
  | _ :: _, _, _ :: _, _, h, h' => ⟨h.1, ValuesOfEval.append h.2 h'⟩
  | [], _, _ :: _, _, h, _ => absurd h (by simp [ValuesOfEval])
  | _ :: _, _, [], _, h, _ => absurd h (by simp [ValuesOfEval])

theorem eval_includes (F : ∀ i, eval R (.count i) = evalStage i (eval R i) (fun v => do return .count (← countOf v))) (q : Query) : ∀ inc v, eval R q = .ok (inc, v) →
    ValuesOfEval R q.includes inc := by
  have leaf : ∀ (r : Res Output) inc v, single r = .ok (inc, v) → ValuesOfEval R [] inc := by
    intro r inc v h
    cases r with
    | error f => simp [single, Except.map] at h
    | ok x => simp [single, Except.map] at h; rw [h.1]; trivial
  have stage : ∀ (i : Query) (st : Output → Res Output),
      (∀ inc v, eval R i = .ok (inc, v) → ValuesOfEval R i.includes inc) →
      ∀ inc v, evalStage i (eval R i) st = .ok (inc, v) →
      ValuesOfEval R (i.includes ++ (if i.isInclude then [i] else [])) inc := by
    intro i st ih inc v h
    cases hi : eval R i with
    | error f => rw [hi] at h; simp [evalStage] at h
    | ok p =>
      obtain ⟨inc', v'⟩ := p
      rw [hi] at h
      simp only [evalStage] at h
      obtain ⟨w, _, hw⟩ := map_ok_iff.1 h
      simp only [Prod.mk.injEq] at hw
      rw [← hw.1]
      refine (ih _ _ hi).append ?_
      cases i.isInclude with
      | false => simp [ValuesOfEval]
      | true => simp [ValuesOfEval, hi, Except.map]
  induction q with
  | pipe i d l t ih => exact stage i _ ih
  | pipeProperty i n ih => exact stage i _ ih
  | pipeWithPropertyPresence i n k ih => exact stage i _ ih
  | pipeWithPropertyValue i n v k ih => exact stage i _ ih
  | incl i ih => exact ih
  | count i ih => rw [F]; exact stage i _ ih
  | _ => intro inc v h; exact leaf _ inc v h

theorem evalStage_error {i : Query} {r : Res (List Output × Output)} {stage : Output → Res Output} {f : Fault} :
    evalStage i r stage = .error f ↔ r = .error f ∨ ∃ inc v, r = .ok (inc, v) ∧ stage v = .error f := by
  cases r with
  | error x => simp [evalStage]
  | ok p =>
    obtain ⟨inc, v⟩ := p
    simp only [evalStage, map_error_iff]
    constructor
    · intro h; exact Or.inr ⟨inc, v, rfl, h⟩
    · rintro (h | ⟨_, _, h1, h2⟩)
      · exact absurd h (by simp)
      · cases h1; exact h2

theorem evalStage_ok {i : Query} {r : Res (List Output × Output)} {stage : Output → Res Output} {p : List Output × Output}
    (h : evalStage i r stage = .ok p) : ∃ inc v, r = .ok (inc, v) ∧ stage v = .ok p.2 := by
  cases r with
  | error x => simp [evalStage] at h
  | ok p' =>
    obtain ⟨inc, v⟩ := p'
    simp only [evalStage] at h
    obtain ⟨w, h1, h2⟩ := map_ok_iff.1 h
    exact ⟨inc, v, rfl, by rw [h1, ← h2]⟩

theorem filterMap_congr' {α β : Type} {f g : α → Option β} {l : List α} (h : ∀ x ∈ l, f x = g x) :
    l.filterMap f = l.filterMap g := by
  induction l with
  | nil => rfl
  | cons a r ih =>
    simp only [List.filterMap_cons, h a (by simp), ih (fun x hx => h x (by simp [hx]))]

theorem List.map_filter_eq_filterMap' {α β : Type} (p : α → List β) (f : α → γ) (l : List α) [DecidableEq β] :
    l.filterMap (fun x => if p x = [] then none else some (f x)) = (l.filter (fun x => decide (p x ≠ []))).map f := by
  induction l with
  | nil => rfl
  | cons a r ih =>
    by_cases h : p a = []
    · simp [h, ih]
    · simp [h, ih]

/-- What the static type of a built query says about its value: properties and counts are recognised; a pipe reports the
type of its input, but elements stay elements. -/
def KindOk (q : Query) (k : Kind) : Prop :=
  match q.outputType with
  | .ok .vertices | .ok .edges => k = .vertices ∨ k = .edges
  | .ok .count => k = .count
  | .ok _ => k = .vertexProperties ∨ k = .edgeProperties
  | .error _ => False

theorem checkNestable_iff {i : Query} : Query.checkNestable i = .ok () ↔
    i.outputType = .ok .vertices ∨ i.outputType = .ok .edges := by
  unfold Query.checkNestable
  cases i.outputType with
  | error e => simp
  | ok k => cases k <;> simp

theorem newPipe_nestable {i : Query} {f : Unit → Query} (h : ∃ q, (Query.checkNestable i).map f = .ok q) :
    i.outputType = .ok .vertices ∨ i.outputType = .ok .edges := by
  obtain ⟨q, hq⟩ := h
  rw [← checkNestable_iff]
  cases hc : Query.checkNestable i with
  | error e => rw [hc] at hq; simp [Except.map] at hq
  | ok u => rfl

theorem kind_nestable {i : Query} {k : Kind} (h : i.outputType = .ok .vertices ∨ i.outputType = .ok .edges)
    (hk : KindOk i k) : k = .vertices ∨ k = .edges := by
  unfold KindOk at hk
  rcases h with h | h <;> rw [h] at hk <;> exact hk

/-- Values of built queries have the announced kind, and their evaluation never fails with `OperationOnQuery`. -/
theorem built_spec (F : Faithful R g I C) {q : Query} (hb : q.Built) :
    eval R q ≠ .error (.err .operationOnQuery) ∧ ∀ p, eval R q = .ok p → KindOk q p.2.kind := by
  have leafOk : ∀ (l : Res (List Vertex)) (q : Query), q.outputType = .ok .vertices →
      l ≠ .error (.err .operationOnQuery) →
      (single (l.map .vertices)) ≠ .error (.err .operationOnQuery) ∧
      ∀ p, single (l.map .vertices) = .ok p → KindOk q p.2.kind := by
    intro l q hq hl
    cases l with
    | error f => simp [single, Except.map] at hl ⊢; exact hl
    | ok l => simp [single, Except.map, KindOk, hq, Output.kind]
  have leafOkE : ∀ (l : Res (List Edge)) (q : Query), q.outputType = .ok .edges →
      l ≠ .error (.err .operationOnQuery) →
      (single (l.map .edges)) ≠ .error (.err .operationOnQuery) ∧
      ∀ p, single (l.map .edges) = .ok p → KindOk q p.2.kind := by
    intro l q hq hl
    cases l with
    | error f => simp [single, Except.map] at hl ⊢; exact hl
    | ok l => simp [single, Except.map, KindOk, hq, Output.kind]
  -- leaves through `Answers`
  have viaAnswers : ∀ (q : Query), (∀ r, Answers g I C q r → r ≠ .error (.err .operationOnQuery) ∧
      ∀ p, r = .ok p → KindOk q p.2.kind) → eval R q ≠ .error (.err .operationOnQuery) ∧
      ∀ p, eval R q = .ok p → KindOk q p.2.kind := fun q h => h _ (eval_answers F q)
  induction hb with
  | allVertex =>
    refine viaAnswers _ ?_
    rintro r ⟨l, _, rfl⟩; simp [KindOk, Query.outputType, Output.kind]
  | rangeVertex =>
    refine viaAnswers _ ?_
    rintro r ⟨l, _, rfl⟩; simp [KindOk, Query.outputType, Output.kind]
  | specificVertex =>
    refine viaAnswers _ ?_
    rintro r h; simp only [Answers] at h; subst h; simp [KindOk, Query.outputType, Output.kind]
  | vertexWithPropertyPresence =>
    refine viaAnswers _ ?_
    intro r h; simp only [Answers] at h
    split at h
    · obtain ⟨l, _, rfl⟩ := h; simp [KindOk, Query.outputType, Output.kind]
    · subst h; simp
  | vertexWithPropertyValue =>
    refine viaAnswers _ ?_
    intro r h; simp only [Answers] at h
    split at h
    · obtain ⟨l, _, rfl⟩ := h; simp [KindOk, Query.outputType, Output.kind]
    · subst h; simp
  | allEdge =>
    refine viaAnswers _ ?_
    rintro r ⟨l, _, rfl⟩; simp [KindOk, Query.outputType, Output.kind]
  | specificEdge =>
    refine viaAnswers _ ?_
    rintro r h; simp only [Answers] at h; subst h; simp [KindOk, Query.outputType, Output.kind]
  | edgeWithPropertyPresence =>
    refine viaAnswers _ ?_
    intro r h; simp only [Answers] at h
    split at h
    · obtain ⟨l, _, rfl⟩ := h; simp [KindOk, Query.outputType, Output.kind]
    · subst h; simp
  | edgeWithPropertyValue =>
    refine viaAnswers _ ?_
    intro r h; simp only [Answers] at h
    split at h
    · obtain ⟨l, _, rfl⟩ := h; simp [KindOk, Query.outputType, Output.kind]
    · subst h; simp
  | @pipe i d l t hb hn ih =>
    have hn := newPipe_nestable hn
    have hst := stagePipe_spec F d l t
    rw [eval]
    have key : ∀ v, (v.kind = .vertices ∨ v.kind = .edges) → stagePipe R d l t v ≠ .error (.err .operationOnQuery) ∧
        ∀ w, stagePipe R d l t v = .ok w → (w.kind = .vertices ∨ w.kind = .edges) := by
      intro v hv
      have := hst v
      cases v with
      | vertices vs => obtain ⟨_, _, h⟩ := this; rw [h]; simp [Output.kind]
      | edges vs => obtain ⟨_, _, h⟩ := this; rw [h]; simp [Output.kind]
      | _ => simp [Output.kind] at hv
    constructor
    · intro h
      rcases evalStage_error.1 h with h | ⟨inc, v, h1, h2⟩
      · exact ih.1 h
      · exact (key v (kind_nestable hn (ih.2 _ h1))).1 h2
    · intro p h
      obtain ⟨inc, v, h1, h2⟩ := evalStage_ok h
      have := (key v (kind_nestable hn (ih.2 _ h1))).2 _ h2
      unfold KindOk
      rcases hn with hn | hn <;> simp only [Query.outputType, hn] <;> exact this
  | @pipeProperty i n hb hn ih =>
    have hn := newPipe_nestable hn
    have hst := stageProperty_spec F n
    rw [eval]
    have key : ∀ v, (v.kind = .vertices ∨ v.kind = .edges) → stageProperty R n v ≠ .error (.err .operationOnQuery) ∧
        ∀ w, stageProperty R n v = .ok w → (w.kind = .vertexProperties ∨ w.kind = .edgeProperties) := by
      intro v hv
      have := hst v
      cases v with
      | vertices vs =>
        simp only [PropertyStage] at this
        split at this
        · rw [this]; simp
        · obtain ⟨_, _, h⟩ := this; rw [h]; simp [Output.kind]
      | edges vs => obtain ⟨_, _, h⟩ := this; rw [h]; simp [Output.kind]
      | _ => simp [Output.kind] at hv
    constructor
    · intro h
      rcases evalStage_error.1 h with h | ⟨inc, v, h1, h2⟩
      · exact ih.1 h
      · exact (key v (kind_nestable hn (ih.2 _ h1))).1 h2
    · intro p h
      obtain ⟨inc, v, h1, h2⟩ := evalStage_ok h
      have := (key v (kind_nestable hn (ih.2 _ h1))).2 _ h2
      unfold KindOk
      rcases hn with hn | hn <;> simp only [Query.outputType, hn] <;> exact this
  | @pipeWithPropertyPresence i n k hb hn ih =>
    have hn := newPipe_nestable hn
    have hst := stageFilter_spec (n := n) k (F.eIds n) (F.vIds n)
    rw [eval]
    generalize stageFilter _ _ k = st at hst
    have key : ∀ v, (v.kind = .vertices ∨ v.kind = .edges) → st v ≠ .error (.err .operationOnQuery) ∧
        ∀ w, st v = .ok w → (w.kind = .vertices ∨ w.kind = .edges) := by
      intro v hv
      have := hst v
      cases v with
      | vertices vs => simp only [FilterStage] at this; split at this <;> (rw [this]; simp [Output.kind])
      | edges vs => simp only [FilterStage] at this; split at this <;> (rw [this]; simp [Output.kind])
      | _ => simp [Output.kind] at hv
    constructor
    · intro h
      rcases evalStage_error.1 h with h | ⟨inc, v, h1, h2⟩
      · exact ih.1 h
      · exact (key v (kind_nestable hn (ih.2 _ h1))).1 h2
    · intro p h
      obtain ⟨inc, v, h1, h2⟩ := evalStage_ok h
      have := (key v (kind_nestable hn (ih.2 _ h1))).2 _ h2
      unfold KindOk
      rcases hn with hn | hn <;> simp only [Query.outputType, hn] <;> exact this
  | @pipeWithPropertyValue i n x k hb hn ih =>
    have hn := newPipe_nestable hn
    have hst := stageFilter_spec (n := n) k (F.eIdsValue n x) (F.vIdsValue n x)
    rw [eval]
    generalize stageFilter _ _ k = st at hst
    have key : ∀ v, (v.kind = .vertices ∨ v.kind = .edges) → st v ≠ .error (.err .operationOnQuery) ∧
        ∀ w, st v = .ok w → (w.kind = .vertices ∨ w.kind = .edges) := by
      intro v hv
      have := hst v
      cases v with
      | vertices vs => simp only [FilterStage] at this; split at this <;> (rw [this]; simp [Output.kind])
      | edges vs => simp only [FilterStage] at this; split at this <;> (rw [this]; simp [Output.kind])
      | _ => simp [Output.kind] at hv
    constructor
    · intro h
      rcases evalStage_error.1 h with h | ⟨inc, v, h1, h2⟩
      · exact ih.1 h
      · exact (key v (kind_nestable hn (ih.2 _ h1))).1 h2
    · intro p h
      obtain ⟨inc, v, h1, h2⟩ := evalStage_ok h
      have := (key v (kind_nestable hn (ih.2 _ h1))).2 _ h2
      unfold KindOk
      rcases hn with hn | hn <;> simp only [Query.outputType, hn] <;> exact this
  | @count i hb hn ih =>
    rw [eval_count F]
    obtain ⟨q, hq⟩ := hn
    unfold Query.newCount at hq
    have key : ∀ v : Output, v.kind ≠ .count → ∃ n, countOf v = .ok n := by
      intro v hv
      cases v <;> simp [countOf, Output.kind] at hv ⊢
    have hne : ∀ p, eval R i = .ok p → p.2.kind ≠ .count := by
      intro p hp hc
      have := ih.2 p hp
      rw [hc] at this
      unfold KindOk at this
      split at this
      · simp at this
      · simp at this
      · rename_i ho; rw [ho] at hq; simp at hq
      · simp at this
      · exact this
    constructor
    · intro h
      rcases evalStage_error.1 h with h | ⟨inc, v, h1, h2⟩
      · exact ih.1 h
      · obtain ⟨k, hk⟩ := key v (hne _ h1)
        rw [hk] at h2; simp [Bind.bind, Except.bind, Pure.pure, Except.pure] at h2
    · intro p h
      obtain ⟨inc, v, h1, h2⟩ := evalStage_ok h
      obtain ⟨k, hk⟩ := key v (hne _ h1)
      rw [hk] at h2
      simp [Bind.bind, Except.bind, Pure.pure, Except.pure] at h2
      rw [← h2]
      simp [KindOk, Query.outputType, Output.kind]
  | @incl i hb ih => exact ih

/-- Counts and properties are not vertices or edges. -/
theorem eval_count_kind (F : Faithful R g I C) {j : Query} {p : List Output × Output} (h : eval R (.count j) = .ok p) :
    p.2.kind = .count := by
  rw [eval_count F] at h
  obtain ⟨inc, v, h1, h2⟩ := evalStage_ok h
  cases hc : countOf v with
  | error f => rw [hc] at h2; simp [Bind.bind, Except.bind] at h2
  | ok n => rw [hc] at h2; simp [Bind.bind, Except.bind, Pure.pure, Except.pure] at h2; rw [← h2]; rfl

theorem eval_props_kind {j : Query} {n : Option Identifier} {p : List Output × Output}
    (h : eval R (.pipeProperty j n) = .ok p) : p.2.kind = .vertexProperties ∨ p.2.kind = .edgeProperties := by
  rw [eval] at h
  obtain ⟨inc, v, h1, h2⟩ := evalStage_ok h
  cases v with
  | vertices vs =>
    simp only [stageProperty] at h2
    cases hc : pipeVertexProps R n vs with
    | error f => rw [hc] at h2; simp [Bind.bind, Except.bind] at h2
    | ok n => rw [hc] at h2; simp [Bind.bind, Except.bind, Pure.pure, Except.pure] at h2; rw [← h2]; simp [Output.kind]
  | edges vs =>
    simp only [stageProperty] at h2
    cases hc : pipeEdgeProps R n vs with
    | error f => rw [hc] at h2; simp [Bind.bind, Except.bind] at h2
    | ok n => rw [hc] at h2; simp [Bind.bind, Except.bind, Pure.pure, Except.pure] at h2; rw [← h2]; simp [Output.kind]
  | _ => simp [stageProperty, throw, throwThe, MonadExceptOf.throw] at h2

theorem onNonElements_fails (F : Faithful R g I C) {q : Query} (h : q.OnNonElements) (p : List Output × Output) :
    eval R q ≠ .ok p := by
  have hk : ∀ i p, ((∃ j, i = Query.count j) ∨ ∃ j n, i = Query.pipeProperty j n) → eval R i = .ok p →
      p.2.kind ≠ .vertices ∧ p.2.kind ≠ .edges := by
    rintro i p (⟨j, rfl⟩ | ⟨j, n, rfl⟩) he
    · rw [eval_count_kind F he]; simp
    · rcases eval_props_kind he with h | h <;> rw [h] <;> simp
  intro he
  cases q with
  | pipe i d l t =>
    rw [eval] at he
    obtain ⟨inc, v, h1, h2⟩ := evalStage_ok he
    have := hk _ _ h h1
    cases v <;> simp [Output.kind, stagePipe, throw, throwThe, MonadExceptOf.throw] at this h2
  | pipeProperty i n =>
    rw [eval] at he
    obtain ⟨inc, v, h1, h2⟩ := evalStage_ok he
    have := hk _ _ h h1
    cases v <;> simp [Output.kind, stageProperty, throw, throwThe, MonadExceptOf.throw] at this h2
  | pipeWithPropertyPresence i n k =>
    rw [eval] at he
    obtain ⟨inc, v, h1, h2⟩ := evalStage_ok he
    have := hk _ _ h h1
    cases v <;> simp [Output.kind, stageFilter, throw, throwThe, MonadExceptOf.throw] at this h2
  | pipeWithPropertyValue i n x k =>
    rw [eval] at he
    obtain ⟨inc, v, h1, h2⟩ := evalStage_ok he
    have := hk _ _ h h1
    cases v <;> simp [Output.kind, stageFilter, throw, throwThe, MonadExceptOf.throw] at this h2
  | count i =>
    obtain ⟨j, rfl⟩ := h
    rw [eval_count F] at he
    obtain ⟨inc, v, h1, h2⟩ := evalStage_ok he
    have := eval_count_kind F h1
    cases v <;> simp [Output.kind, countOf, Bind.bind, Except.bind] at this h2
  | _ => exact h

end

/-! ### The properties -/

namespace Conforms
variable {S : Store} {C : Conv} {Sm : Sem} (F : Conforms S C Sm)
include F

theorem answers {s : S.State} (h : S.Reach s) (env : S.Env) (q : Query) :
    Answers (S.graph s) (S.index env s) C q (eval (F.reads env s) q) := eval_answers (F.faithful s h env) q

theorem vertexQueries : S.VertexQueriesExact := by
  intro s hr env
  refine ⟨?_, ?_, ?_⟩
  · obtain ⟨l, hl, he⟩ := F.answers hr env .allVertex
    exact ⟨l, hl, by rw [F.ask_eq hr, he]; rfl⟩
  · intro limit t start
    obtain ⟨l, hl, he⟩ := F.answers hr env (.rangeVertex limit t start)
    exact ⟨l, hl, by rw [F.ask_eq hr, he]; rfl⟩
  · intro ids
    have he := F.answers hr env (.specificVertex ids)
    simp only [Answers] at he
    rw [F.ask_eq hr, he]; rfl

theorem edgeQueries : S.EdgeQueriesExact C.edgeLt := by
  intro s hr env
  refine ⟨?_, ?_⟩
  · obtain ⟨l, hl, he⟩ := F.answers hr env .allEdge
    exact ⟨l, hl, by rw [F.ask_eq hr, he]; rfl⟩
  · intro ids
    have he := F.answers hr env (.specificEdge ids)
    simp only [Answers] at he
    rw [F.ask_eq hr, he]; rfl

theorem value_pipe {s : S.State} (hr : S.Reach s) (env : S.Env) {inner : Query} {v : Output}
    (h : S.value env inner s = .ok v) (d : EdgeDirection) (limit : UInt32) (t : Option Identifier) :
    S.value env (.pipe inner d limit t) s = stagePipe (F.reads env s) d limit t v := by
  rw [F.value_eq hr] at h ⊢
  rw [eval]; exact value_evalStage h

theorem pipeVertices : S.PipeVerticesExact C.dirLt := by
  intro s hr env inner vs h d limit t
  rw [F.value_pipe hr env h]
  obtain ⟨per, h1, h2⟩ := stagePipe_spec (F.faithful s hr env) d limit t (.vertices vs)
  exact ⟨per, h1, h2⟩

theorem pipeEdges : S.PipeEdgesExact := by
  intro s hr env inner es h d limit t
  rw [F.value_pipe hr env h]
  obtain ⟨l, h1, h2⟩ := stagePipe_spec (F.faithful s hr env) d limit t (.edges es)
  rw [h2, h1]
  congr 3
  apply List.filter_congr
  intro v _
  cases t with
  | none => simp
  | some x => simp [eq_comm]

theorem pipeProperties : S.PipePropertiesExact (fun id => C.propsPanic id = true) := by
  intro s hr env inner
  have hv : ∀ n v, S.value env inner s = .ok v → S.value env (.pipeProperty inner n) s =
      stageProperty (F.reads env s) n v := by
    intro n v h
    rw [F.value_eq hr] at h ⊢
    rw [eval]; exact value_evalStage h
  have hst := fun n => stageProperty_spec (F.faithful s hr env) n
  refine ⟨?_, ?_⟩
  · intro vs h
    refine ⟨?_, ?_⟩
    · intro n
      rw [hv _ _ h]
      have := hst (some n) (.vertices vs)
      simp only [PropertyStage] at this
      rw [if_neg (by simp)] at this
      obtain ⟨props, hp, he⟩ := this
      rw [he]
      congr 2
      apply filterMap_congr'
      intro v hvm
      have := hp v hvm
      simp only [PropList] at this
      rw [this]
      cases (S.graph s).vprop v.id n <;> simp
    · intro hbad
      have := hst none (.vertices vs)
      simp only [PropertyStage] at this
      rw [if_neg (by rintro ⟨_, x, hx, hb⟩; exact hbad x hx hb)] at this
      obtain ⟨props, hp, he⟩ := this
      refine ⟨fun v => props v.id, fun v hvm => hp v hvm, ?_⟩
      rw [hv _ _ h, he]
      congr 2
      rw [List.map_filter_eq_filterMap']
  · intro es h
    refine ⟨?_, ?_⟩
    · intro n
      rw [hv _ _ h]
      obtain ⟨props, hp, he⟩ := hst (some n) (.edges es)
      rw [he]
      congr 2
      apply filterMap_congr'
      intro v _
      have := hp v
      simp only [PropList] at this
      rw [this]
      cases (S.graph s).eprop v n <;> simp
    · obtain ⟨props, hp, he⟩ := hst none (.edges es)
      refine ⟨props, fun v _ => hp v, ?_⟩
      rw [hv _ _ h, he]
      congr 2
      rw [List.map_filter_eq_filterMap']

theorem countExact : S.CountExact := by
  intro s hr env inner v h
  have : S.value env (.count inner) s = (do return .count (← countOf v) : Res Output) := by
    rw [F.value_eq hr] at h ⊢
    rw [eval_count (F.faithful s hr env)]; exact value_evalStage h
  rw [this]
  cases v <;> rfl

theorem includeExact : S.IncludeExact := by
  intro s hr env q outs h
  rw [F.ask_eq hr] at h
  obtain ⟨⟨inc, v⟩, he, rfl⟩ := map_ok_iff.1 h
  have h1 := eval_includes (eval_count (F.faithful s hr env)) q _ _ he
  have h2 : ValuesOfEval (F.reads env s) [q] [v] := ⟨by rw [he]; rfl, trivial⟩
  have h3 := h1.append h2
  simp only at h3 ⊢
  generalize inc ++ [v] = os at h3
  generalize q.includes ++ [q] = qs at h3
  clear h1 h2 he h
  induction qs generalizing os with
  | nil => cases os <;> exact h3
  | cons a r ih => cases os with
    | nil => exact h3
    | cons o os => exact ⟨by rw [F.value_eq hr]; exact h3.1, ih _ h3.2⟩

theorem filtersPartition : S.FiltersPartition := by
  intro s hr env inner n hn
  have FF := F.faithful s hr env
  have main : ∀ (filt : Bool → Query) (dV dE : Query) (vin : Uuid → Bool) (ein : Edge → Bool)
      (st : Bool → Output → Res Output),
      (∀ k, eval (F.reads env s) (filt k) = evalStage inner (eval (F.reads env s) inner) (st k)) →
      (∀ k v, FilterStage (S.graph s) n vin ein k v (st k v)) →
      (∃ l, (∀ x, x ∈ l ↔ vin x = true) ∧ S.value env dV s = .ok (.vertices ((S.graph s).lookup l))) →
      (∃ l, (∀ x, x ∈ l ↔ ein x = true) ∧ S.value env dE s = .ok (.edges l)) →
      S.PartitionedBy env s inner filt dV dE := by
    intro filt dV dE vin ein st h1 h2 hV hE
    refine ⟨?_, ?_⟩
    · intro vs h
      obtain ⟨l, hl, hd⟩ := hV
      have hex : ∀ v ∈ vs, (S.graph s).vertex v.id = some v.t := by
        rw [F.value_eq hr] at h
        obtain ⟨⟨inc, v⟩, he, rfl⟩ := map_ok_iff.1 h
        have := F.answers hr env inner
        rw [he] at this
        exact answers_vertices_exist this
      have hval : ∀ k, S.value env (filt k) s = .ok (.vertices (vs.filter (fun x => vin x.id == k))) := by
        intro k
        rw [F.value_eq hr] at h ⊢
        rw [h1, value_evalStage h]
        have := h2 k (.vertices vs)
        simp only [FilterStage] at this
        rw [if_pos hn] at this
        exact this
      refine ⟨fun v => vin v.id, _, hd, ?_, ?_, ?_⟩
      · intro v hv
        rw [lookup_iff, hl]
        exact ⟨fun h => ⟨h, hex v hv⟩, fun h => h.1⟩
      · rw [hval]; congr 2; apply List.filter_congr; intro v _; simp
      · rw [hval]; congr 2; apply List.filter_congr; intro v _; simp
    · intro es h
      obtain ⟨l, hl, hd⟩ := hE
      have hval : ∀ k, S.value env (filt k) s = .ok (.edges (es.filter (fun x => ein x == k))) := by
        intro k
        rw [F.value_eq hr] at h ⊢
        rw [h1, value_evalStage h]
        have := h2 k (.edges es)
        simp only [FilterStage] at this
        rw [if_pos hn] at this
        exact this
      refine ⟨ein, _, hd, ?_, ?_, ?_⟩
      · intro v hv
        rw [hl]
      · rw [hval]; congr 2; apply List.filter_congr; intro v _; simp
      · rw [hval]; congr 2; apply List.filter_congr; intro v _; simp
  refine ⟨?_, ?_⟩
  · refine main _ _ _ (IndexView.vPresent (S.index env s) n) (IndexView.ePresent (S.index env s) n)
      (fun k => stageFilter ((F.reads env s).edgesWithProperty n) ((F.reads env s).vertexIdsWithProperty n) k)
      (fun k => rfl) (fun k v => stageFilter_spec k (FF.eIds n) (FF.vIds n) v) ?_ ?_
    · have := F.answers hr env (.vertexWithPropertyPresence n)
      simp only [Answers] at this
      rw [if_pos hn] at this
      obtain ⟨l, hl, he⟩ := this
      exact ⟨l, hl.1, by rw [F.value_eq hr, he]; rfl⟩
    · have := F.answers hr env (.edgeWithPropertyPresence n)
      simp only [Answers] at this
      rw [if_pos hn] at this
      obtain ⟨l, hl, he⟩ := this
      exact ⟨l, hl.1, by rw [F.value_eq hr, he]; rfl⟩
  · intro x
    refine main _ _ _ (IndexView.vValue (S.index env s) n x) (IndexView.eValue (S.index env s) n x)
      (fun k => stageFilter ((F.reads env s).edgesWithPropertyValue n x) ((F.reads env s).vertexIdsWithPropertyValue n x) k)
      (fun k => rfl) (fun k v => stageFilter_spec k (FF.eIdsValue n x) (FF.vIdsValue n x) v) ?_ ?_
    · have := F.answers hr env (.vertexWithPropertyValue n x)
      simp only [Answers] at this
      rw [if_pos hn] at this
      obtain ⟨l, hl, he⟩ := this
      exact ⟨l, hl.1, by rw [F.value_eq hr, he]; rfl⟩
    · have := F.answers hr env (.edgeWithPropertyValue n x)
      simp only [Answers] at this
      rw [if_pos hn] at this
      obtain ⟨l, hl, he⟩ := this
      exact ⟨l, hl.1, by rw [F.value_eq hr, he]; rfl⟩

theorem builtQueriesWork : S.BuiltQueriesWork := by
  intro s hr env
  refine ⟨?_, ?_⟩
  · intro q hq h
    rw [F.ask_eq hr, map_error_iff] at h
    exact (built_spec (F.faithful s hr env) hq).1 h
  · intro q hq outs h
    rw [F.ask_eq hr] at h
    obtain ⟨p, hp, _⟩ := map_ok_iff.1 h
    exact onNonElements_fails (F.faithful s hr env) hq p hp

theorem limitsMonotone : S.LimitsMonotone := by
  intro s hr env k k' hk
  have hkn : k.toNat ≤ k'.toNat := hk
  refine ⟨?_, ?_⟩
  · intro t start l h
    obtain ⟨l1, e1, h1⟩ := (F.vertexQueries s hr env).2.1 k t start
    obtain ⟨l2, e2, h2⟩ := (F.vertexQueries s hr env).2.1 k' t start
    have : l1 = l2 := Enumerates.unique (fun a => Order.irrefl a.id) (fun a b c => Order.trans a.id b.id c.id) e1 e2
    subst this
    rw [h] at h2
    simp at h2
    rw [h1, h2, List.take_take, Nat.min_eq_left hkn]
  · intro inner d t
    cases hi : S.value env inner s with
    | error f =>
      have : ∀ k, S.value env (.pipe inner d k t) s = .error f := by
        intro k
        rw [F.value_eq hr, map_error_iff] at hi ⊢
        rw [eval, hi]; rfl
      rw [this]
      exact ⟨fun l h => by simp at h, fun l h => by simp at h⟩
    | ok v =>
      have hp := fun k => F.value_pipe hr env hi d k t
      cases v with
      | vertices vs =>
        obtain ⟨p1, e1, h1⟩ := F.pipeVertices s hr env inner vs hi d k t
        obtain ⟨p2, e2, h2⟩ := F.pipeVertices s hr env inner vs hi d k' t
        have : p1 = p2 := by
          funext id
          refine Enumerates.unique ?_ ?_ (e1 id) (e2 id)
          · intro a; cases d <;> exact C.edge_irrefl _
          · intro a b c; cases d <;> exact C.edge_trans _ _ _
        subst this
        refine ⟨?_, ?_⟩
        · intro l h
          rw [h] at h2
          simp at h2
          rw [h1, h2, List.take_take, Nat.min_eq_left hkn]
        · intro l h; rw [h] at h2; simp at h2
      | edges es =>
        have h1 := F.pipeEdges s hr env inner es hi d k t
        have h2 := F.pipeEdges s hr env inner es hi d k' t
        refine ⟨?_, ?_⟩
        · intro l h; rw [h] at h2; simp at h2
        · intro l h
          rw [h] at h2
          simp only [Except.ok.injEq, Output.vertices.injEq] at h2
          rw [h1, h2, List.take_take, Nat.min_eq_left hkn]
      | _ => rw [hp k', hp k]; exact ⟨fun l h => by simp [stagePipe, throw, throwThe, MonadExceptOf.throw] at h, fun l h => by simp [stagePipe, throw, throwThe, MonadExceptOf.throw] at h⟩

theorem value_ok {s : S.State} (hr : S.Reach s) {env : S.Env} {q : Query} {v : Output} (h : S.value env q s = .ok v) :
    ∃ inc, eval (F.reads env s) q = .ok (inc, v) := by
  rw [F.value_eq hr] at h
  obtain ⟨⟨inc, v'⟩, he, rfl⟩ := map_ok_iff.1 h
  exact ⟨inc, he⟩

/-- The step of a call that cannot panic. -/
theorem stepWith {s : S.State} (hr : S.Reach s) (env : S.Env) (op : Op) (hv : op.ValuesOk S.okValue)
    (h : (S.step env op s).2 ≠ .error .panic) :
    StepWith Sm (S.graph s) (eval (F.reads env s)) op (S.graph (S.step env op s).1) (S.step env op s).2 := by
  rcases F.step s hr env op hv with h1 | ⟨h1, _⟩
  · exact h1
  · exact absurd h1 h

theorem stepWith' {s : S.State} (hr : S.Reach s) (env : S.Env) (op : Op)
    (h1 : ∀ q, op ≠ .delete q) (h2 : ∀ q n x, op ≠ .setProperties q n x) (h3 : ∀ l, op ≠ .bulkInsert l) :
    StepWith Sm (S.graph s) (eval (F.reads env s)) op (S.graph (S.step env op s).1) (S.step env op s).2 := by
  have hv : op.ValuesOk S.okValue := by
    cases op <;> first | trivial | exact absurd rfl (h2 _ _ _) | exact absurd rfl (h3 _)
  rcases F.step s hr env op hv with h | ⟨_, ⟨q, h⟩ | ⟨q, n, x, h⟩ | ⟨l, h⟩⟩
  · exact h
  · exact absurd h (h1 q)
  · exact absurd h (h2 q n x)
  · exact absurd h (h3 l)

theorem createVertexFromType : S.CreateVertexFromTypeExact := by
  intro s hr env id t
  obtain ⟨h1, h2⟩ := F.stepWith' hr env (.createVertexFromType id t) (by simp) (by simp) (by simp)
  refine ⟨?_, ?_⟩
  · intro h; rw [if_pos h] at h2; refine ⟨h2, ?_⟩; rw [h1, Graph.createVertex, if_pos h]
  · intro h; rw [if_neg h] at h2; refine ⟨h2, ?_⟩; rw [h1, Graph.createVertex, if_neg h]

theorem createVertex (hi : ∀ s, S.Reach s → ∀ env v,
      ((S.graph s).vertex v.id ≠ none → (S.step env (.createVertex v) s).1 = s) ∧
      ∀ env', (S.index env' s).SameExcept v.id (S.index env' (S.step env (.createVertex v) s).1)) :
    S.CreateVertexExact := by
  intro s hr env v
  obtain ⟨h1, h2⟩ := F.stepWith' hr env (.createVertex v) (by simp) (by simp) (by simp)
  refine ⟨?_, ?_, ?_, (hi s hr env v).1, (hi s hr env v).2⟩
  · rw [h2]; cases (S.graph s).vertex v.id <;> simp
  · rw [h2]; cases (S.graph s).vertex v.id <;> simp
  · rw [h1, Graph.createVertex]

theorem createEdge : S.CreateEdgeExact := by
  intro s hr env e
  obtain ⟨h1, h2⟩ := F.stepWith' hr env (.createEdge e) (by simp) (by simp) (by simp)
  rw [h2, h1]
  unfold Graph.createEdge Graph.hasEndpoints
  cases (S.graph s).vertex e.outboundId <;> cases (S.graph s).vertex e.inboundId <;> simp

theorem deleteVertices : S.DeleteVerticesIs Sm.dropVertices := by
  intro s hr env q vs hv hp
  have h := F.stepWith hr env (.delete q) trivial hp
  obtain ⟨inc, he⟩ := F.value_ok hr hv
  simp only [StepWith, he, DeleteValue] at h
  exact ⟨h.2, h.1⟩

theorem deleteEdges : S.DeleteEdgesIs Sm.dropEdges := by
  intro s hr env q vs hv hp
  have h := F.stepWith hr env (.delete q) trivial hp
  obtain ⟨inc, he⟩ := F.value_ok hr hv
  simp only [StepWith, he, DeleteValue] at h
  exact ⟨h.2, h.1⟩

theorem deleteProperties : S.DeletePropertiesExact := by
  intro s hr env q hp
  have h := F.stepWith hr env (.delete q) trivial hp
  refine ⟨?_, ?_⟩
  · intro l hv
    obtain ⟨inc, he⟩ := F.value_ok hr hv
    simp only [StepWith, he, DeleteValue] at h
    exact ⟨h.2, h.1⟩
  · intro l hv
    obtain ⟨inc, he⟩ := F.value_ok hr hv
    simp only [StepWith, he, DeleteValue] at h
    exact ⟨h.2, h.1⟩

theorem setProperties : S.SetPropertiesExact Sm.stored := by
  intro s hr env q n x hx hp
  have h := F.stepWith hr env (.setProperties q n x) hx hp
  refine ⟨?_, ?_⟩
  · intro l hv
    obtain ⟨inc, he⟩ := F.value_ok hr hv
    simp only [StepWith, he, SetValue] at h
    exact ⟨h.2, h.1⟩
  · intro l hv
    obtain ⟨inc, he⟩ := F.value_ok hr hv
    simp only [StepWith, he, SetValue] at h
    exact ⟨h.2, h.1⟩

theorem indexed_run (hist : List (S.Env × Op)) (ho : S.OkHist hist) : ∀ s, (S.alive s = true → S.Reach s) →
    S.alive (S.run hist s) = true →
    S.Reach s ∧ ∀ n, (S.graph (S.run hist s)).indexed n = true ↔
      ((S.graph s).indexed n = true ∨ ∃ p ∈ hist, p.2 = .indexProperty n) := by
  have alive_run : ∀ (hist : List (S.Env × Op)) s, S.alive (S.run hist s) = true → S.alive s = true := by
    intro hist
    induction hist with
    | nil => intro s h; exact h
    | cons a r ih => intro s h; exact F.alive_back _ a.1 a.2 (ih _ h)
  have bulk_index : ∀ (items : List BulkInsertItem) g, (items.foldl Sm.bulkItem g).indexed = g.indexed := by
    intro items
    induction items with
    | nil => intro g; rfl
    | cons a r ih => intro g; rw [List.foldl_cons, ih]; exact F.sem_index.2.2 _ _
  induction hist with
  | nil => intro s h ha; exact ⟨h ha, fun n => by simp [Store.run]⟩
  | cons a r ih =>
    intro s h ha
    obtain ⟨env, op⟩ := a
    rw [Store.run] at ha ⊢
    have ha1 := alive_run _ _ ha
    have ha0 := F.alive_back _ _ _ ha1
    have hr := h ha0
    have hv : op.ValuesOk S.okValue := ho (env, op) (by simp)
    have hr1 : S.Reach (S.step env op s).1 := hr.next env op hv ha1
    refine ⟨hr, ?_⟩
    intro n
    rw [(ih (fun p hp => ho p (by simp [hp])) _ (fun _ => hr1) ha).2 n]
    have hs := F.stepWith hr env op hv (F.alive_ok s hr env op hv ha1)
    have : (S.graph (S.step env op s).1).indexed n = true ↔
        ((S.graph s).indexed n = true ∨ op = .indexProperty n) := by
      have keep : ∀ {op : Op}, (S.graph (S.step env op s).1).indexed = (S.graph s).indexed →
          (∀ m, op ≠ .indexProperty m) →
          ((S.graph (S.step env op s).1).indexed n = true ↔ ((S.graph s).indexed n = true ∨ op = .indexProperty n)) := by
        intro op h1 h2; rw [h1]; simp [h2 n]
      cases op with
      | sync => exact keep (by rw [hs.1]) (by simp)
      | createVertex v => exact keep (by rw [hs.1, Graph.createVertex]; split <;> rfl) (by simp)
      | createVertexFromType id t => exact keep (by rw [hs.1, Graph.createVertex]; split <;> rfl) (by simp)
      | createEdge e => exact keep (by rw [hs.1, Graph.createEdge]; split <;> rfl) (by simp)
      | get q => exact keep (by rw [hs.1]) (by simp)
      | delete q =>
        refine keep ?_ (by simp)
        simp only [StepWith] at hs
        split at hs
        · rw [hs.1]
        · rename_i v _
          cases v with
          | vertices vs => rw [hs.1]; exact F.sem_index.1 _ _
          | edges es => rw [hs.1]; exact F.sem_index.2.1 _ _
          | _ => rw [hs.1]; try rfl
      | setProperties q m x =>
        refine keep ?_ (by simp)
        simp only [StepWith] at hs
        split at hs
        · rw [hs.1]
        · rename_i v _
          cases v <;> (rw [hs.1]; try rfl)
      | bulkInsert items =>
        refine keep ?_ (by simp)
        rw [hs.1]
        exact bulk_index items _
      | indexProperty m =>
        rw [hs.1]
        simp only [Graph.addIndex, Bool.or_eq_true, decide_eq_true_eq, Op.indexProperty.injEq]
        constructor
        · rintro (h | h)
          · exact Or.inr h.symm
          · exact Or.inl h
        · rintro (h | h)
          · exact Or.inr h
          · exact Or.inl h.symm
    rw [this]
    simp only [List.mem_cons, exists_eq_or_imp]
    rw [or_assoc]

theorem indexed_hist (init_idx : ∀ n, (S.graph S.init).indexed n = false) (hist : List (S.Env × Op))
    (ho : S.OkHist hist) (ha : S.alive (S.run hist S.init) = true) (n : Identifier) :
    (S.graph (S.run hist S.init)).indexed n = true ↔ ∃ p ∈ hist, p.2 = .indexProperty n := by
  rw [(F.indexed_run hist ho S.init (fun h => ⟨[], rfl, h, fun _ h => nomatch h⟩) ha).2 n, init_idx n]; simp

theorem notIndexed_at {s : S.State} (hr : S.Reach s) (env : S.Env) (n : Identifier) (v : Json) (q : Query)
    (hq : q ∈ [Query.vertexWithPropertyPresence n, .vertexWithPropertyValue n v, .edgeWithPropertyPresence n,
      .edgeWithPropertyValue n v]) :
    S.ask env q s = .error (.err .notIndexed) ↔ ¬ ((S.graph s).indexed n = true) := by
  rw [F.ask_eq hr, map_error_iff]
  have := F.answers hr env q
  simp only [List.mem_cons, List.not_mem_nil, or_false] at hq
  rcases hq with rfl | rfl | rfl | rfl <;>
  · simp only [Answers] at this
    split at this
    · rename_i h; obtain ⟨l, _, he⟩ := this; rw [he]; simp [h]
    · rename_i h; rw [this]; simp [h]

theorem notIndexedPiped_at {s : S.State} (hr : S.Reach s) (env : S.Env) (n : Identifier) (v : Json) (inner : Query) (keep : Bool)
    (o : Output) (hval : S.value env inner s = .ok o) (hk : o.kind = .vertices ∨ o.kind = .edges) (q : Query)
    (hq : q ∈ [Query.pipeWithPropertyPresence inner n keep, .pipeWithPropertyValue inner n v keep]) :
    S.ask env q s = .error (.err .notIndexed) ↔ ¬ ((S.graph s).indexed n = true) := by
  obtain ⟨inc, he⟩ := F.value_ok hr hval
  have FF := F.faithful _ hr env
  rw [F.ask_eq hr, map_error_iff]
  simp only [List.mem_cons, List.not_mem_nil, or_false] at hq
  rcases hq with rfl | rfl
  · have := stageFilter_spec keep (FF.eIds n) (FF.vIds n) o
    rw [eval, he]
    simp only [evalStage, map_error_iff]
    generalize stageFilter _ _ _ _ = r at this
    cases o <;> simp [Output.kind] at hk <;> simp only [FilterStage] at this <;> split at this <;> subst this <;> simp [*]
  · have := stageFilter_spec keep (FF.eIdsValue n v) (FF.vIdsValue n v) o
    rw [eval, he]
    simp only [evalStage, map_error_iff]
    generalize stageFilter _ _ _ _ = r at this
    cases o <;> simp [Output.kind] at hk <;> simp only [FilterStage] at this <;> split at this <;> subst this <;> simp [*]

theorem notIndexed (init_idx : ∀ n, (S.graph S.init).indexed n = false) : S.NotIndexedExact := by
  intro hist ho ha env n v q hq
  have hr : S.Reach (S.run hist S.init) := ⟨hist, rfl, ha, ho⟩
  rw [F.notIndexed_at hr env n v q hq, F.indexed_hist init_idx hist ho ha n]
  exact ⟨fun h p hp he => h ⟨p, hp, he⟩, fun h ⟨p, hp, he⟩ => h p hp he⟩

theorem notIndexedPiped (init_idx : ∀ n, (S.graph S.init).indexed n = false) : S.NotIndexedPipedExact := by
  intro hist ho ha env n v inner keep o hval hk q hq
  have hr : S.Reach (S.run hist S.init) := ⟨hist, rfl, ha, ho⟩
  rw [F.notIndexedPiped_at hr env n v inner keep o hval hk q hq, F.indexed_hist init_idx hist ho ha n]
  exact ⟨fun h p hp he => h ⟨p, hp, he⟩, fun h ⟨p, hp, he⟩ => h p hp he⟩

theorem traversalSymmetric : S.TraversalSymmetric := by
  intro s hr env e k out inb hov hiv h1 hk1 h2 hk2
  have hsv : ∀ id t, (S.graph s).vertex id = some t → S.value env (.specificVertex [id]) s = .ok (.vertices [⟨id, t⟩]) := by
    intro id t h
    rw [F.value_eq hr]
    have he := F.answers hr env (.specificVertex [id])
    simp only [Answers] at he
    rw [he]; simp [Except.map, Graph.lookup, h]
  have mem : ∀ d id t l, (S.graph s).vertex id = some t →
      S.value env (.pipe (.specificVertex [id]) d k none) s = .ok (.edges l) → l.length < k.toNat →
      ∀ e, e ∈ l ↔ ((S.graph s).edge e = true ∧ d.endpoint e = id) := by
    intro d id t l hid hl hlen e
    obtain ⟨per, h3, h4⟩ := F.pipeVertices s hr env _ _ (hsv id t hid) d k none
    rw [hl] at h4
    simp at h4
    have : l = per id := by
      rw [h4] at hlen ⊢
      rw [List.length_take] at hlen
      exact List.take_of_length_le (by omega)
    rw [this, (h3 id).mem]
    simp
  obtain ⟨to, hto⟩ := Option.ne_none_iff_exists'.1 hov
  obtain ⟨ti, hti⟩ := Option.ne_none_iff_exists'.1 hiv
  have m1 := mem .outbound _ _ _ hto h1 hk1 e
  have m2 := mem .inbound _ _ _ hti h2 hk2 e
  simp only [EdgeDirection.endpoint, and_true] at m1 m2
  refine ⟨m1.trans m2.symm, ?_⟩
  rw [m1, F.value_eq hr]
  have he := F.answers hr env (.specificEdge [e])
  simp only [Answers] at he
  rw [he]
  cases hg : (S.graph s).edge e <;> simp [Except.map, hg]

theorem wrongValuesRejected : S.WrongValuesRejected := by
  intro s hr env q
  have np : ∀ op f, (∀ g' r, StepWith Sm (S.graph s) (eval (F.reads env s)) op g' r → r = .error f) →
      StepWith Sm (S.graph s) (eval (F.reads env s)) op
        (S.graph (S.step env op s).1) (S.step env op s).2 → (S.step env op s).2 = .error f := by
    intro op f h1 h2
    exact h1 _ _ h2
  refine ⟨?_, ?_, ?_⟩
  · intro k hv
    obtain ⟨inc, he⟩ := F.value_ok hr hv
    refine np _ _ ?_ ?_
    · intro g' r h; simp only [StepWith, he, DeleteValue] at h; exact h.2
    · exact F.step_noWrite s hr env _ (Or.inl ⟨q, rfl, by rw [he]; exact Or.inr ⟨_, rfl, by simp [Output.kind]⟩⟩)
  · intro v n x hv h1 h2
    obtain ⟨inc, he⟩ := F.value_ok hr hv
    refine np _ _ ?_ ?_
    · intro g' r h
      simp only [StepWith, he, SetValue] at h
      cases v <;> simp [Output.kind] at h1 h2 <;> exact h.2
    · exact F.step_noWrite s hr env _ (Or.inr ⟨q, n, x, rfl, by rw [he]; exact Or.inr ⟨_, rfl, h1, h2⟩⟩)
  · intro f hv
    rw [F.value_eq hr, map_error_iff] at hv
    refine ⟨np _ _ ?_ ?_, fun n x => np _ _ ?_ ?_⟩
    · intro g' r h; simp only [StepWith, hv] at h; exact h.2
    · exact F.step_noWrite s hr env _ (Or.inl ⟨q, rfl, by rw [hv]; exact Or.inl ⟨_, rfl⟩⟩)
    · intro g' r h; simp only [StepWith, hv] at h; exact h.2
    · exact F.step_noWrite s hr env _ (Or.inr ⟨q, n, x, rfl, by rw [hv]; exact Or.inl ⟨_, rfl⟩⟩)

theorem indexProperty
    (hi : ∀ s, S.Reach s → ∀ env env' n, let s' := (S.step env (.indexProperty n) s).1
      ∀ env'', S.index env'' (S.step env' (.indexProperty n) s').1 = S.index env'' s')
    (hreach : ∀ s, S.Reach s → ∀ env n, S.Reach (S.step env (.indexProperty n) s).1) : S.IndexPropertyExact := by
  intro s hr env n
  obtain ⟨h1, h2⟩ := F.stepWith' hr env (.indexProperty n) (by simp) (by simp) (by simp)
  refine ⟨h2, h1, ?_⟩
  intro env'
  obtain ⟨h3, _⟩ := F.stepWith' (hreach s hr env n) env' (.indexProperty n) (by simp) (by simp) (by simp)
  refine ⟨?_, hi s hr env env' n⟩
  rw [h3, h1]
  ext m
  all_goals simp [Graph.addIndex]

/-- The index is exact if the index view is. -/
theorem indexExactAt {s : S.State} (hr : S.Reach s) {nd : Prop} (hnd : ∀ env, nd → (S.index env s).nodup)
    (hx : ∀ env n, (S.graph s).indexed n = true →
      (∀ i, (S.graph s).vertex i ≠ none → ((S.index env s).vPresent n i = true ↔ (S.graph s).vprop i n ≠ none)) ∧
      (∀ v i, (S.graph s).vertex i ≠ none →
        ((S.index env s).vValue n v i = true ↔ ∃ w, (S.graph s).vprop i n = some w ∧ C.valueMatch w v = true)) ∧
      (∀ e, (S.index env s).ePresent n e = true ↔ (S.graph s).edge e = true ∧ (S.graph s).eprop e n ≠ none) ∧
      (∀ v e, (S.index env s).eValue n v e = true ↔
        (S.graph s).edge e = true ∧ ∃ w, (S.graph s).eprop e n = some w ∧ C.valueMatch w v = true)) :
    S.IndexExactAt C.valueMatch nd s := by
  intro env n hn
  obtain ⟨x1, x2, x3, x4⟩ := hx env n hn
  have nodup_lookup : ∀ l : List Uuid, l.Nodup → ((S.graph s).lookup l).Nodup := by
    intro l hl
    unfold Graph.lookup
    induction l with
    | nil => simp
    | cons a r ih =>
      rw [List.nodup_cons] at hl
      simp only [List.filterMap_cons]
      cases hg : (S.graph s).vertex a with
      | none => exact ih hl.2
      | some t =>
        simp only [Option.map_some, List.nodup_cons]
        refine ⟨?_, ih hl.2⟩
        intro hm
        exact hl.1 (mem_lookup (g := S.graph s) hm).1
  refine ⟨?_, ?_, ?_, ?_⟩
  · have := F.answers hr env (.vertexWithPropertyPresence n)
    simp only [Answers] at this
    rw [if_pos hn] at this
    obtain ⟨l, hl, he⟩ := this
    refine ⟨_, by rw [F.value_eq hr, he]; rfl, fun h => nodup_lookup l (hl.2 (hnd env h)), ?_⟩
    intro v
    rw [lookup_iff, hl.1]
    constructor
    · rintro ⟨h1, h2⟩; exact ⟨h2, (x1 _ (by rw [h2]; simp)).1 h1⟩
    · rintro ⟨h2, h1⟩; exact ⟨(x1 _ (by rw [h2]; simp)).2 h1, h2⟩
  · have := F.answers hr env (.edgeWithPropertyPresence n)
    simp only [Answers] at this
    rw [if_pos hn] at this
    obtain ⟨l, hl, he⟩ := this
    refine ⟨_, by rw [F.value_eq hr, he]; rfl, fun h => hl.2 (hnd env h), ?_⟩
    intro e
    rw [hl.1, x3]
  · intro x
    have := F.answers hr env (.vertexWithPropertyValue n x)
    simp only [Answers] at this
    rw [if_pos hn] at this
    obtain ⟨l, hl, he⟩ := this
    refine ⟨_, by rw [F.value_eq hr, he]; rfl, fun h => nodup_lookup l (hl.2 (hnd env h)), ?_⟩
    intro v
    rw [lookup_iff, hl.1]
    constructor
    · rintro ⟨h1, h2⟩; exact ⟨h2, (x2 _ _ (by rw [h2]; simp)).1 h1⟩
    · rintro ⟨h2, h1⟩; exact ⟨(x2 _ _ (by rw [h2]; simp)).2 h1, h2⟩
  · intro x
    have := F.answers hr env (.edgeWithPropertyValue n x)
    simp only [Answers] at this
    rw [if_pos hn] at this
    obtain ⟨l, hl, he⟩ := this
    refine ⟨_, by rw [F.value_eq hr, he]; rfl, fun h => hl.2 (hnd env h), ?_⟩
    intro e
    rw [hl.1, x4]

/-- The index is complete if the index view is. -/
theorem indexCompleteAt {s : S.State} (hr : S.Reach s)
    (hx : ∀ env n, (S.graph s).indexed n = true →
      (∀ i, (S.graph s).vertex i ≠ none → (S.graph s).vprop i n ≠ none → (S.index env s).vPresent n i = true) ∧
      (∀ v i, (S.graph s).vertex i ≠ none →
        (∃ w, (S.graph s).vprop i n = some w ∧ C.valueMatch w v = true) → (S.index env s).vValue n v i = true) ∧
      (∀ e, (S.graph s).edge e = true ∧ (S.graph s).eprop e n ≠ none → (S.index env s).ePresent n e = true) ∧
      (∀ v e, ((S.graph s).edge e = true ∧ ∃ w, (S.graph s).eprop e n = some w ∧ C.valueMatch w v = true) →
        (S.index env s).eValue n v e = true)) :
    S.IndexCompleteAt C.valueMatch s := by
  intro env n hn
  obtain ⟨x1, x2, x3, x4⟩ := hx env n hn
  refine ⟨?_, ?_, ?_, ?_⟩
  · have := F.answers hr env (.vertexWithPropertyPresence n)
    simp only [Answers] at this
    rw [if_pos hn] at this
    obtain ⟨l, hl, he⟩ := this
    refine ⟨_, by rw [F.value_eq hr, he]; rfl, ?_⟩
    rintro v ⟨h2, h1⟩
    rw [lookup_iff, hl.1]
    exact ⟨x1 _ (by rw [h2]; simp) h1, h2⟩
  · have := F.answers hr env (.edgeWithPropertyPresence n)
    simp only [Answers] at this
    rw [if_pos hn] at this
    obtain ⟨l, hl, he⟩ := this
    refine ⟨_, by rw [F.value_eq hr, he]; rfl, ?_⟩
    intro e h
    rw [hl.1]; exact x3 e h
  · intro x
    have := F.answers hr env (.vertexWithPropertyValue n x)
    simp only [Answers] at this
    rw [if_pos hn] at this
    obtain ⟨l, hl, he⟩ := this
    refine ⟨_, by rw [F.value_eq hr, he]; rfl, ?_⟩
    rintro v ⟨h2, h1⟩
    rw [lookup_iff, hl.1]
    exact ⟨x2 _ _ (by rw [h2]; simp) h1, h2⟩
  · intro x
    have := F.answers hr env (.edgeWithPropertyValue n x)
    simp only [Answers] at this
    rw [if_pos hn] at this
    obtain ⟨l, hl, he⟩ := this
    refine ⟨_, by rw [F.value_eq hr, he]; rfl, ?_⟩
    intro e h
    rw [hl.1]; exact x4 x e h

theorem paging (next : Uuid → Option Uuid)
    (hnext : ∀ u, match next u with
      | some w => ∀ x, Order.lt x w = false ↔ Order.lt u x = true
      | none => ∀ x, Order.lt u x = false)
    (hnil : ∀ x, Order.lt x Uuid.nil = false) : S.PagingExact next := by
  intro s hr env k t hk
  have hkn : 0 < k.toNat := hk
  -- what a page contains
  have hpage : ∀ e start, ∃ l, Enumerates vertexLt l (fun v => ((S.graph s).vertex v.id = some v.t ∧
      (∀ x, t = some x → v.t = x)) ∧ Order.lt v.id start = false) ∧
      S.ask e (.rangeVertex k t (some start)) s = .ok [.vertices (l.take k.toNat)] := by
    intro e start
    obtain ⟨l, h1, h2⟩ := (F.vertexQueries s hr e).2.1 k t (some start)
    refine ⟨l, h1.congr ?_, h2⟩
    intro v
    simp [and_assoc]
  have huniq : ∀ {l1 l2 : List Vertex} {P : Vertex → Prop}, Enumerates vertexLt l1 P → Enumerates vertexLt l2 P → l1 = l2 :=
    fun h1 h2 => Enumerates.unique (fun a => Order.irrefl a.id) (fun a b c => Order.trans a.id b.id c.id) h1 h2
  -- the remaining list
  have main : ∀ (fuel : Nat) (start : Uuid) (l : List Vertex),
      Enumerates vertexLt l (fun v => ((S.graph s).vertex v.id = some v.t ∧
        (∀ x, t = some x → v.t = x)) ∧ Order.lt v.id start = false) → l.length < fuel →
      S.pages next env k t s fuel start = l := by
    intro fuel
    induction fuel with
    | zero => intro start l _ h; exact absurd h (by omega)
    | succ fuel ih =>
      intro start l hl hf
      obtain ⟨l', hl', hask⟩ := hpage (env fuel) start
      have := huniq hl hl'; subst this
      simp only [Store.pages, hask]
      cases hlast : (l.take k.toNat).getLast? with
      | none =>
        simp only
        rw [List.getLast?_eq_none_iff, List.take_eq_nil_iff] at hlast
        rcases hlast with h | h
        · omega
        · exact h.symm
      | some v =>
        simp only
        have hsplit : l = l.take k.toNat ++ l.drop k.toNat := (List.take_append_drop _ _).symm
        have hv : v ∈ l.take k.toNat := List.mem_of_getLast? hlast
        obtain ⟨init, hinit⟩ : ∃ init, l.take k.toNat = init ++ [v] := by
          rw [List.getLast?_eq_some_iff] at hlast; exact hlast
        have hs := hl.sorted
        rw [hsplit, List.pairwise_append] at hs
        -- everything after the page is above `v`, everything in the page is not
        have habove : ∀ x ∈ l.drop k.toNat, Order.lt v.id x.id = true := fun x hx => hs.2.2 v hv x hx
        have hbelow : ∀ x ∈ l.take k.toNat, Order.lt v.id x.id = false := by
          intro x hx
          rw [hinit] at hx
          have hp := hs.1
          rw [hinit, List.pairwise_append] at hp
          rw [List.mem_append] at hx
          rcases hx with hx | hx
          · exact Order.asymm (hp.2.2 x hx v (by simp))
          · simp at hx; rw [hx]; exact Order.irrefl _
        have hvl : v ∈ l := List.mem_of_mem_take hv
        have hvs : Order.lt v.id start = false := ((hl.mem v).1 hvl).2
        have hn := hnext v.id
        cases hnx : next v.id with
        | none =>
          rw [hnx] at hn
          simp only at hn ⊢
          have : l.drop k.toNat = [] := by
            cases hd : l.drop k.toNat with
            | nil => rfl
            | cons x r =>
              have := habove x (by rw [hd]; simp)
              rw [hn] at this; exact absurd this (by simp)
          have h5 := hsplit
          rw [this] at h5
          exact h5.symm
        | some w =>
          rw [hnx] at hn
          simp only at hn ⊢
          refine Eq.trans ?_ hsplit.symm
          congr 1
          apply ih
          · refine ⟨hs.2.1, ?_⟩
            intro x
            constructor
            · intro hx
              exact ⟨((hl.mem x).1 (List.mem_of_mem_drop hx)).1, (hn x.id).2 (habove x hx)⟩
            · rintro ⟨h1, h2⟩
              have h3 := (hn x.id).1 h2
              have hxl : x ∈ l := (hl.mem x).2 ⟨h1, by
                cases h4 : Order.lt x.id start with
                | false => rfl
                | true =>
                  have := Order.trans _ _ _ h3 h4
                  rw [hvs] at this; exact absurd this (by simp)⟩
              rw [hsplit, List.mem_append] at hxl
              rcases hxl with h4 | h4
              · have := hbelow x h4; rw [h3] at this; exact absurd this (by simp)
              · exact h4
          · have : 0 < (l.take k.toNat).length := List.length_pos_of_mem hv
            rw [List.length_drop]
            rw [List.length_take] at this
            omega
  obtain ⟨l, hl, _⟩ := hpage (env 0) Uuid.nil
  refine ⟨l, hl.congr (fun v => by simp [hnil]), fun fuel hf => main fuel _ l hl hf⟩

end Conforms
end IndraDB
