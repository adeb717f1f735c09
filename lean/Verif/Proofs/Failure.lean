import Verif.Spec.Failure
import Verif.Proofs.Store
/-
Stores whose reads are faithful fail exactly as `Spec/Failure.lean` says.
-/
set_option linter.unusedSimpArgs false
namespace IndraDB

theorem map_snd_ok {r : Res (List Output × Output)} {v : Output} : r.map (·.2) = .ok v ↔ ∃ inc, r = .ok (inc, v) := by
  rw [map_ok_iff]
  constructor
  · rintro ⟨⟨inc, w⟩, h, rfl⟩; exact ⟨inc, h⟩
  · rintro ⟨inc, h⟩; exact ⟨_, h, rfl⟩

theorem stagePipe_error {g : Graph} {C : Conv} {d : EdgeDirection} {l : Nat} {t : Option Identifier} {v : Output} {r : Res Output}
    (h : PipeStage g C d l t v r) (f : Fault) : r = .error f ↔ v.isElements = false ∧ f = .err .operationOnQuery := by
  cases v <;> simp only [PipeStage, Output.isElements] at h ⊢
  case vertices => obtain ⟨_, _, rfl⟩ := h; simp
  case edges => obtain ⟨_, _, rfl⟩ := h; simp
  all_goals subst h; simp only [reduceCtorEq, true_and, false_and, and_false, exists_false, or_false, Except.error.injEq]; exact eq_comm

theorem stageProperty_error {g : Graph} {C : Conv} {n : Option Identifier} {v : Output} {r : Res Output}
    (h : PropertyStage g C n v r) (f : Fault) : r = .error f ↔ (v.isElements = false ∧ f = .err .operationOnQuery) ∨
      (n = none ∧ (∃ vs, v = .vertices vs ∧ ∃ x ∈ vs, C.propsPanic x.id = true) ∧ f = .panic) := by
  cases v <;> simp only [PropertyStage, Output.isElements] at h ⊢
  case vertices vs =>
    by_cases hc : n = none ∧ ∃ x ∈ vs, C.propsPanic x.id = true
    · rw [if_pos hc] at h
      subst h
      constructor
      · intro e; simp only [Except.error.injEq] at e; exact Or.inr ⟨hc.1, ⟨vs, rfl, hc.2⟩, e.symm⟩
      · rintro (⟨h, _⟩ | ⟨_, _, rfl⟩)
        · cases h
        · rfl
    · rw [if_neg hc] at h
      obtain ⟨_, _, rfl⟩ := h
      constructor
      · intro e; cases e
      · rintro (⟨h, _⟩ | ⟨h1, ⟨vs', h2, h3⟩, _⟩)
        · cases h
        · cases h2; exact absurd ⟨h1, h3⟩ hc
  case edges => obtain ⟨_, _, rfl⟩ := h; simp
  all_goals subst h; simp only [reduceCtorEq, true_and, false_and, and_false, exists_false, or_false, Except.error.injEq]; exact eq_comm

theorem stageFilter_error {g : Graph} {n : Identifier} {vin : Uuid → Bool} {ein : Edge → Bool} {k : Bool} {v : Output} {r : Res Output}
    (h : FilterStage g n vin ein k v r) (f : Fault) : r = .error f ↔ (v.isElements = false ∧ f = .err .operationOnQuery) ∨
      (v.isElements = true ∧ g.indexed n = false ∧ f = .err .notIndexed) := by
  cases v <;> simp only [FilterStage, Output.isElements] at h ⊢
  case vertices vs => cases hi : g.indexed n <;> simp only [hi] at h <;> simp at h <;> subst h <;> simp [eq_comm]
  case edges vs => cases hi : g.indexed n <;> simp only [hi] at h <;> simp at h <;> subst h <;> simp [eq_comm]
  all_goals subst h; simp only [reduceCtorEq, true_and, false_and, and_false, exists_false, or_false, Except.error.injEq]; exact eq_comm

theorem stageCount_error {v : Output} {r : Res Output} (h : CountStage v r) (f : Fault) :
    r = .error f ↔ v.isCount = true ∧ f = .err .operationOnQuery := by
  cases v <;> simp only [CountStage, Output.size?, Output.isCount] at h ⊢ <;> subst h <;> simp [eq_comm]

namespace Conforms
variable {S : Store} {C : Conv} {Sm : Sem} (F : Conforms S C Sm)
include F

theorem queryFailures : S.QueryFailuresExact (fun id => C.propsPanic id = true) := by
  intro s hr env q f
  rw [F.ask_eq hr, map_error_iff]
  have hf := F.faithful s hr env
  have stage : ∀ (i : Query) (st : Output → Res Output) (B : Output → Fault → Prop),
      (∀ v f, st v = .error f ↔ B v f) → ((eval (F.reads env s) i = .error f) ↔ ∃ p ∈ i.parts, S.FailsHere (fun id => C.propsPanic id = true) env s p f) →
      (evalStage i (eval (F.reads env s) i) st = .error f ↔
        (∃ v, S.value env i s = .ok v ∧ B v f) ∨ ∃ p ∈ i.parts, S.FailsHere (fun id => C.propsPanic id = true) env s p f) := by
    intro i st B hB ih
    rw [evalStage_error, ih, or_comm]
    refine or_congr ?_ Iff.rfl
    constructor
    · rintro ⟨inc, v, h1, h2⟩
      exact ⟨v, by rw [F.value_eq hr, h1]; rfl, (hB v f).1 h2⟩
    · rintro ⟨v, h1, h2⟩
      rw [F.value_eq hr, map_snd_ok] at h1
      obtain ⟨inc, h1⟩ := h1
      exact ⟨inc, v, h1, (hB v f).2 h2⟩
  have leaf : ∀ q n, (Query.parts q = [q]) → (∀ f, S.FailsHere (fun id => C.propsPanic id = true) env s q f ↔
      ((S.graph s).indexed n = false ∧ f = .err .notIndexed)) →
      (∀ r, Answers (S.graph s) (S.index env s) C q r → if (S.graph s).indexed n then ∃ p, r = .ok p else r = .error (.err .notIndexed)) →
      (eval (F.reads env s) q = .error f ↔ ∃ p ∈ q.parts, S.FailsHere (fun id => C.propsPanic id = true) env s p f) := by
    intro q n h1 h2 h3
    have h := h3 _ (eval_answers hf q)
    rw [h1]
    simp only [List.mem_singleton, exists_eq_left, h2]
    cases hi : (S.graph s).indexed n with
    | true =>
      rw [hi] at h
      obtain ⟨p, hp⟩ := h
      rw [hp]; simp
    | false =>
      rw [hi] at h
      simp only [Bool.false_eq_true, if_false] at h
      rw [h]; simp [eq_comm]
  have plain : ∀ q, (Query.parts q = [q]) → (∀ f, ¬ S.FailsHere (fun id => C.propsPanic id = true) env s q f) →
      (∀ r, Answers (S.graph s) (S.index env s) C q r → ∃ p, r = .ok p) →
      (eval (F.reads env s) q = .error f ↔ ∃ p ∈ q.parts, S.FailsHere (fun id => C.propsPanic id = true) env s p f) := by
    intro q h1 h2 h3
    obtain ⟨p, hp⟩ := h3 _ (eval_answers hf q)
    rw [h1, hp]
    simp [h2]
  have idx : ∀ {P : List Uuid → Prop} {n : Identifier} {r : Res (List Output × Output)} {k : List Uuid → Output},
      (if (S.graph s).indexed n then ∃ l, P l ∧ r = .ok ([], k l) else r = .error (.err .notIndexed)) →
      if (S.graph s).indexed n then ∃ p, r = .ok p else r = .error (.err .notIndexed) := by
    intro P n r k h
    split at h
    · rename_i hi
      obtain ⟨l, _, h⟩ := h
      rw [if_pos hi]; exact ⟨_, h⟩
    · rename_i hi
      rw [if_neg hi]; exact h
  have idxE : ∀ {P : List Edge → Prop} {n : Identifier} {r : Res (List Output × Output)} {k : List Edge → Output},
      (if (S.graph s).indexed n then ∃ l, P l ∧ r = .ok ([], k l) else r = .error (.err .notIndexed)) →
      if (S.graph s).indexed n then ∃ p, r = .ok p else r = .error (.err .notIndexed) := by
    intro P n r k h
    split at h
    · rename_i hi
      obtain ⟨l, _, h⟩ := h
      rw [if_pos hi]; exact ⟨_, h⟩
    · rename_i hi
      rw [if_neg hi]; exact h
  induction q with
  | allVertex => exact plain _ rfl (fun _ h => h) (fun r ⟨l, _, h⟩ => ⟨_, h⟩)
  | rangeVertex limit t s => exact plain _ rfl (fun _ h => h) (fun r ⟨l, _, h⟩ => ⟨_, h⟩)
  | specificVertex ids => exact plain _ rfl (fun _ h => h) (fun r h => ⟨_, h⟩)
  | allEdge => exact plain _ rfl (fun _ h => h) (fun r ⟨l, _, h⟩ => ⟨_, h⟩)
  | specificEdge es => exact plain _ rfl (fun _ h => h) (fun r h => ⟨_, h⟩)
  | vertexWithPropertyPresence n => exact leaf _ n rfl (fun _ => Iff.rfl) (fun r h => idx h)
  | vertexWithPropertyValue n v => exact leaf _ n rfl (fun _ => Iff.rfl) (fun r h => idx h)
  | edgeWithPropertyPresence n => exact leaf _ n rfl (fun _ => Iff.rfl) (fun r h => idxE (k := Output.edges) h)
  | edgeWithPropertyValue n v => exact leaf _ n rfl (fun _ => Iff.rfl) (fun r h => idxE (k := Output.edges) h)
  | pipe i d limit t ih =>
    simp only [Query.parts, List.mem_cons, exists_eq_or_imp]
    exact stage i _ _ (fun v f => stagePipe_error (stagePipe_spec hf d limit t v) f) ih
  | pipeProperty i n ih =>
    simp only [Query.parts, List.mem_cons, exists_eq_or_imp]
    exact stage i _ _ (fun v f => stageProperty_error (stageProperty_spec hf n v) f) ih
  | pipeWithPropertyPresence i n k ih =>
    simp only [Query.parts, List.mem_cons, exists_eq_or_imp]
    exact stage i _ _ (fun v f => stageFilter_error (stageFilter_spec k (hf.eIds n) (hf.vIds n) v) f) ih
  | pipeWithPropertyValue i n x k ih =>
    simp only [Query.parts, List.mem_cons, exists_eq_or_imp]
    exact stage i _ _ (fun v f => stageFilter_error (stageFilter_spec k (hf.eIdsValue n x) (hf.vIdsValue n x) v) f) ih
  | incl i ih =>
    simp only [Query.parts, List.mem_cons, exists_eq_or_imp, Store.FailsHere, false_or]
    exact ih
  | count i ih =>
    simp only [Query.parts, List.mem_cons, exists_eq_or_imp]
    rw [eval_count hf]
    exact stage i _ _ (fun v f => stageCount_error (stageCount_spec v) f) ih

theorem onePartFails : S.OnePartFails (fun id => C.propsPanic id = true) := by
  intro s hr env q
  have none : ∀ i v, S.value env i s = .ok v → ∀ p ∈ i.parts, ∀ f, ¬ S.FailsHere (fun id => C.propsPanic id = true) env s p f := by
    intro i v h p hp f hf
    have := (F.queryFailures s hr env i f).2 ⟨p, hp, hf⟩
    rw [F.ask_eq hr, map_error_iff] at this
    rw [F.value_eq hr, this] at h
    cases h
  have stage : ∀ (o i : Query), (∀ f, S.FailsHere (fun id => C.propsPanic id = true) env s o f → ∃ v, S.value env i s = .ok v) →
      (∀ f f', S.FailsHere (fun id => C.propsPanic id = true) env s o f → S.FailsHere (fun id => C.propsPanic id = true) env s o f' → f = f') →
      (∀ p ∈ i.parts, ∀ p' ∈ i.parts, ∀ f f', S.FailsHere (fun id => C.propsPanic id = true) env s p f →
        S.FailsHere (fun id => C.propsPanic id = true) env s p' f' → p = p' ∧ f = f') →
      ∀ p ∈ o :: i.parts, ∀ p' ∈ o :: i.parts, ∀ f f', S.FailsHere (fun id => C.propsPanic id = true) env s p f →
        S.FailsHere (fun id => C.propsPanic id = true) env s p' f' → p = p' ∧ f = f' := by
    intro o i h1 h2 ih p hp p' hp' f f' hf hf'
    rcases List.mem_cons.1 hp with e | hp
    · rcases List.mem_cons.1 hp' with e' | hp'
      · subst e; subst e'
        exact ⟨rfl, h2 _ _ hf hf'⟩
      · obtain ⟨v, hv⟩ := h1 f (e ▸ hf)
        exact absurd hf' (none i v hv p' hp' f')
    · rcases List.mem_cons.1 hp' with e' | hp'
      · obtain ⟨v, hv⟩ := h1 f' (e' ▸ hf')
        exact absurd hf (none i v hv p hp f)
      · exact ih p hp p' hp' f f' hf hf'
  have leaf : ∀ o : Query, Query.parts o = [o] →
      (∀ f f', S.FailsHere (fun id => C.propsPanic id = true) env s o f → S.FailsHere (fun id => C.propsPanic id = true) env s o f' → f = f') →
      ∀ p ∈ o.parts, ∀ p' ∈ o.parts, ∀ f f', S.FailsHere (fun id => C.propsPanic id = true) env s p f →
        S.FailsHere (fun id => C.propsPanic id = true) env s p' f' → p = p' ∧ f = f' := by
    intro o h1 h2 p hp p' hp' f f' hf hf'
    rw [h1] at hp hp'
    simp only [List.mem_singleton] at hp hp'
    subst hp; subst hp'
    exact ⟨rfl, h2 _ _ hf hf'⟩
  have two : ∀ (i : Query) (B B' : Output → Prop) (e e' f f' : Fault), (∀ v, B v → ¬ B' v) →
      (∃ v, S.value env i s = .ok v ∧ ((B v ∧ f = e) ∨ (B' v ∧ f = e'))) →
      (∃ v, S.value env i s = .ok v ∧ ((B v ∧ f' = e) ∨ (B' v ∧ f' = e'))) → f = f' := by
    rintro i B B' e e' f f' h ⟨v, hv, h1⟩ ⟨v', hv', h2⟩
    rw [hv] at hv'; cases hv'
    rcases h1 with ⟨h1, rfl⟩ | ⟨h1, rfl⟩
    · rcases h2 with ⟨_, rfl⟩ | ⟨h2, rfl⟩
      · rfl
      · exact absurd h2 (h v h1)
    · rcases h2 with ⟨h2, rfl⟩ | ⟨_, rfl⟩
      · exact absurd h1 (h v h2)
      · rfl
  induction q with
  | pipe i d limit t ih =>
    exact stage _ i (fun f ⟨v, h, _⟩ => ⟨v, h⟩) (fun f f' ⟨_, _, _, h⟩ ⟨_, _, _, h'⟩ => h.trans h'.symm) ih
  | pipeProperty i n ih =>
    refine stage _ i (fun f ⟨v, h, _⟩ => ⟨v, h⟩) (fun f f' h h' => two i (fun v => v.isElements = false)
      (fun v => n = Option.none ∧ ∃ vs, v = .vertices vs ∧ ∃ x ∈ vs, C.propsPanic x.id = true) _ _ f f' ?_
      (by simpa only [Store.FailsHere, and_assoc] using h) (by simpa only [Store.FailsHere, and_assoc] using h')) ih
    rintro v hv ⟨_, vs, rfl, _⟩
    cases hv
  | pipeWithPropertyPresence i n k ih =>
    refine stage _ i (fun f ⟨v, h, _⟩ => ⟨v, h⟩) (fun f f' h h' => two i (fun v => v.isElements = false)
      (fun v => v.isElements = true ∧ (S.graph s).indexed n = false) _ _ f f' ?_
      (by simpa only [Store.FailsHere, and_assoc] using h) (by simpa only [Store.FailsHere, and_assoc] using h')) ih
    rintro v hv ⟨h, _⟩
    rw [hv] at h; cases h
  | pipeWithPropertyValue i n x k ih =>
    refine stage _ i (fun f ⟨v, h, _⟩ => ⟨v, h⟩) (fun f f' h h' => two i (fun v => v.isElements = false)
      (fun v => v.isElements = true ∧ (S.graph s).indexed n = false) _ _ f f' ?_
      (by simpa only [Store.FailsHere, and_assoc] using h) (by simpa only [Store.FailsHere, and_assoc] using h')) ih
    rintro v hv ⟨h, _⟩
    rw [hv] at h; cases h
  | incl i ih => exact stage _ i (fun f h => h.elim) (fun f f' h => h.elim) ih
  | count i ih => exact stage _ i (fun f ⟨v, h, _⟩ => ⟨v, h⟩) (fun f f' ⟨_, _, _, h⟩ ⟨_, _, _, h'⟩ => h.trans h'.symm) ih
  | allVertex => exact leaf _ rfl (fun f f' h => h.elim)
  | rangeVertex limit t s => exact leaf _ rfl (fun f f' h => h.elim)
  | specificVertex ids => exact leaf _ rfl (fun f f' h => h.elim)
  | allEdge => exact leaf _ rfl (fun f f' h => h.elim)
  | specificEdge es => exact leaf _ rfl (fun f f' h => h.elim)
  | vertexWithPropertyPresence n => exact leaf _ rfl (fun f f' h h' => h.2.trans h'.2.symm)
  | vertexWithPropertyValue n v => exact leaf _ rfl (fun f f' h h' => h.2.trans h'.2.symm)
  | edgeWithPropertyPresence n => exact leaf _ rfl (fun f f' h h' => h.2.trans h'.2.symm)
  | edgeWithPropertyValue n v => exact leaf _ rfl (fun f f' h h' => h.2.trans h'.2.symm)

/-- What follows from `StepWith` about failing. -/
theorem stepWith_fails {s : S.State} (hr : S.Reach s) (env : S.Env) (op : Op) (f : Fault) {g' : Graph} {r : Res Reply}
    (h : StepWith Sm (S.graph s) (eval (F.reads env s)) op g' r) :
    r = .error f ↔ S.CallFails (fun id => C.propsPanic id = true) env s op f := by
  have hq : ∀ q, eval (F.reads env s) q = .error f ↔ ∃ p ∈ q.parts, S.FailsHere (fun id => C.propsPanic id = true) env s p f := by
    intro q
    rw [← F.queryFailures s hr env q f, F.ask_eq hr, map_error_iff]
  cases op with
  | sync => rw [h.2]; simp [Store.CallFails]
  | createVertex v => rw [h.2]; simp [Store.CallFails]
  | createVertexFromType id t =>
    rw [h.2]
    simp only [Store.CallFails]
    split
    · rename_i hn; simp [hn]
    · rename_i hn; simp [hn, eq_comm]
  | createEdge e => rw [h.2]; simp [Store.CallFails]
  | get q => rw [h.2, map_error_iff]; exact hq q
  | delete q =>
    simp only [StepWith] at h
    simp only [Store.CallFails, ← hq]
    rw [F.value_eq hr]
    cases hev : eval (F.reads env s) q with
    | error f' => rw [hev] at h; rw [h.2]; simp [Except.map]
    | ok p =>
      obtain ⟨inc, v⟩ := p
      rw [hev] at h
      simp only [Except.map, Except.ok.injEq, exists_eq_left', reduceCtorEq, false_or]
      cases v <;> simp only [DeleteValue] at h <;> rw [h.2] <;> simp [Output.isCount, eq_comm]
  | setProperties q n x =>
    simp only [StepWith] at h
    simp only [Store.CallFails, ← hq]
    rw [F.value_eq hr]
    cases hev : eval (F.reads env s) q with
    | error f' => rw [hev] at h; rw [h.2]; simp [Except.map]
    | ok p =>
      obtain ⟨inc, v⟩ := p
      rw [hev] at h
      simp only [Except.map, Except.ok.injEq, exists_eq_left', reduceCtorEq, false_or]
      cases v <;> simp only [SetValue] at h <;> rw [h.2] <;> simp [Output.isElements, eq_comm]
  | bulkInsert items => rw [h.2]; simp [Store.CallFails]
  | indexProperty n => rw [h.2]; simp [Store.CallFails]

/-- The calls of a store that follows the specification fail for no other reasons, but that writes may panic. -/
theorem callFailures {may : Op → Prop} (hm : ∀ s, S.Reach s → ∀ env op, op.ValuesOk S.okValue →
    ¬ StepWith Sm (S.graph s) (eval (F.reads env s)) op (S.graph (S.step env op s).1) (S.step env op s).2 →
    (S.step env op s).2 = .error .panic → may op) :
    S.CallFailuresExact (fun id => C.propsPanic id = true) may := by
  intro s hr env op hv f
  by_cases h : StepWith Sm (S.graph s) (eval (F.reads env s)) op (S.graph (S.step env op s).1) (S.step env op s).2
  · exact ⟨(F.stepWith_fails hr env op f h).2, fun e => Or.inl ((F.stepWith_fails hr env op f h).1 e)⟩
  · rcases F.step s hr env op hv with h' | ⟨hp, hop⟩
    · exact absurd h' h
    · refine ⟨fun hf => absurd ?_ h, fun e => Or.inr ⟨by rw [hp] at e; cases e; rfl, hm s hr env op hv h hp⟩⟩
      have hq : ∀ q, (∃ p ∈ q.parts, S.FailsHere (fun id => C.propsPanic id = true) env s p f) → eval (F.reads env s) q = .error f := by
        intro q hq
        have := (F.queryFailures s hr env q f).2 hq
        rwa [F.ask_eq hr, map_error_iff] at this
      apply F.step_noWrite s hr env op
      rcases hop with ⟨q, rfl⟩ | ⟨q, n, x, rfl⟩ | ⟨l, rfl⟩
      · refine Or.inl ⟨q, rfl, ?_⟩
        rcases hf with hf | ⟨v, h1, h2, _⟩
        · exact Or.inl ⟨f, hq q hf⟩
        · rw [F.value_eq hr, map_ok_iff] at h1
          obtain ⟨p, h1, rfl⟩ := h1
          refine Or.inr ⟨p, h1, ?_⟩
          cases hp2 : p.2 <;> rw [hp2] at h2 <;> simp [Output.isCount] at h2 <;> rfl
      · refine Or.inr ⟨q, n, x, rfl, ?_⟩
        rcases hf with hf | ⟨v, h1, h2, _⟩
        · exact Or.inl ⟨f, hq q hf⟩
        · rw [F.value_eq hr, map_ok_iff] at h1
          obtain ⟨p, h1, rfl⟩ := h1
          refine Or.inr ⟨p, h1, ?_⟩
          cases hp2 : p.2 <;> rw [hp2] at h2 <;> simp [Output.isElements] at h2 <;> simp [Output.kind]
      · exact hf.elim

end Conforms
end IndraDB
