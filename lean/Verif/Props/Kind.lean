import Verif.Spec.Kind
import Verif.Props.Memory
import Verif.Props.Rocks
/-
C55: the query constructors accept exactly the queries that can be evaluated, and the kind of the result is known beforehand.
-/
namespace IndraDB

section
variable {g : Graph} {I : IndexView} {C : Conv}

/-- Outcomes of the kind `k`, or failures that do not come from the shape of the query. -/
def OfKind (k : Kind) (r : Res (List Output × Output)) : Prop :=
  (∀ p, r = .ok p → p.2.kind = k) ∧ ∀ f, r = .error f → f = .err .notIndexed ∨ f = .panic

theorem ofKind_ok {k : Kind} {inc : List Output} {o : Output} (h : o.kind = k) : OfKind k (.ok (inc, o)) :=
  ⟨fun p hp => by injection hp with hp; subst hp; exact h, fun f hf => nomatch hf⟩

theorem ofKind_notIndexed {k : Kind} : OfKind k (.error (.err .notIndexed)) :=
  ⟨fun _ hp => (nomatch hp), fun f hf => by injection hf with hf; exact Or.inl hf.symm⟩

/-- A stage that turns values of kind `k` into values of kind `k'`. -/
theorem ofKind_next {i : Query} {St : Output → Res Output → Prop} {k k' : Kind} {ri r : Res (List Output × Output)}
    (hi : OfKind k ri) (hn : Next i St ri r)
    (hs : ∀ v rv, v.kind = k → St v rv → (∀ w, rv = .ok w → w.kind = k') ∧ ∀ f, rv = .error f → f = .err .notIndexed ∨ f = .panic) :
    OfKind k' r := by
  cases ri with
  | error f =>
    simp only [Next] at hn; subst hn
    exact ⟨fun _ hp => (nomatch hp), fun f' hf => hi.2 f' hf⟩
  | ok p =>
    obtain ⟨inc, v⟩ := p
    obtain ⟨rv, h1, rfl⟩ := hn
    have := hs v rv (hi.1 _ rfl) h1
    cases rv with
    | error f => exact ⟨fun _ hp => (nomatch hp), fun f' hf => by injection hf with hf; subst hf; exact this.2 _ rfl⟩
    | ok w => exact ⟨fun p hp => by injection hp with hp; subst hp; exact this.1 _ rfl, fun f hf => nomatch hf⟩

/-- A stage that fails on values of kind `k`. -/
theorem fails_next {i : Query} {St : Output → Res Output → Prop} {k : Kind} {ri r : Res (List Output × Output)}
    (hi : OfKind k ri) (hn : Next i St ri r) (hs : ∀ v rv, v.kind = k → St v rv → ∃ f, rv = .error f) : ∃ f, r = .error f := by
  cases ri with
  | error f => exact ⟨f, hn⟩
  | ok p =>
    obtain ⟨inc, v⟩ := p
    obtain ⟨rv, h1, rfl⟩ := hn
    obtain ⟨f, rfl⟩ := hs v rv (hi.1 _ rfl) h1
    exact ⟨f, rfl⟩

theorem fails_inner {i : Query} {St : Output → Res Output → Prop} {ri r : Res (List Output × Output)} {f : Fault}
    (hi : ri = .error f) (hn : Next i St ri r) : ∃ f, r = .error f := by subst hi; exact ⟨f, hn⟩

/-- Answers have the kind of the query; queries without a kind fail. -/
def Sorted (q : Query) (r : Res (List Output × Output)) : Prop :=
  match q.gives with
  | some k => OfKind k r
  | none => ∃ f, r = .error f

theorem filter_elements {n : Identifier} {vin : Uuid → Bool} {ein : Edge → Bool} {keep : Bool} {k : Kind}
    (hk : k = .vertices ∨ k = .edges) (v : Output) (rv : Res Output) (hv : v.kind = k) (h : FilterStage g n vin ein keep v rv) :
    (∀ w, rv = .ok w → w.kind = k) ∧ ∀ f, rv = .error f → f = .err .notIndexed ∨ f = .panic := by
  cases v <;> simp only [Output.kind] at hv <;> subst hv <;> simp at hk <;> simp only [FilterStage] at h <;> split at h <;>
    subst h <;> refine ⟨fun w hw => ?_, fun f hf => ?_⟩ <;> first | (injection hw with hw; subst hw; rfl) | (exact nomatch hw) | (injection hf with hf; exact Or.inl hf.symm) | (exact nomatch hf)

theorem filter_other {n : Identifier} {vin : Uuid → Bool} {ein : Edge → Bool} {keep : Bool} {k : Kind}
    (hk : k ≠ .vertices ∧ k ≠ .edges) (v : Output) (rv : Res Output) (hv : v.kind = k) (h : FilterStage g n vin ein keep v rv) :
    ∃ f, rv = .error f := by
  cases v <;> simp only [Output.kind] at hv <;> subst hv <;> simp at hk <;> exact ⟨_, h⟩

theorem answers_sorted (q : Query) : ∀ r, Answers g I C q r → Sorted q r := by
  induction q with
  | allVertex => rintro r ⟨l, _, rfl⟩; exact ofKind_ok rfl
  | rangeVertex => rintro r ⟨l, _, rfl⟩; exact ofKind_ok rfl
  | specificVertex => intro r h; simp only [Answers] at h; subst h; exact ofKind_ok rfl
  | allEdge => rintro r ⟨l, _, rfl⟩; exact ofKind_ok rfl
  | specificEdge => intro r h; simp only [Answers] at h; subst h; exact ofKind_ok rfl
  | vertexWithPropertyPresence | vertexWithPropertyValue | edgeWithPropertyPresence | edgeWithPropertyValue =>
    intro r h; simp only [Answers] at h
    split at h
    · obtain ⟨l, _, rfl⟩ := h; exact ofKind_ok rfl
    · subst h; exact ofKind_notIndexed
  | incl i ih => exact ih
  | pipe i d limit t ih =>
    rintro r ⟨ri, hi, hn⟩
    have := ih ri hi
    unfold Sorted at this ⊢
    rw [Query.gives]
    cases hg : i.gives with
    | none => rw [hg] at this; obtain ⟨f, hf⟩ := this; exact fails_inner hf hn
    | some k =>
      rw [hg] at this
      have el : ∀ v rv, PipeStage g C d limit.toNat t v rv → (v.kind = .vertices → ∃ l, rv = .ok (.edges l)) ∧
          (v.kind = .edges → ∃ l, rv = .ok (.vertices l)) ∧ (v.kind ≠ .vertices → v.kind ≠ .edges → ∃ f, rv = .error f) := by
        intro v rv h
        cases v <;> simp only [PipeStage] at h <;> simp only [Output.kind] <;> simp
        · obtain ⟨_, _, h⟩ := h; exact ⟨_, h⟩
        · obtain ⟨_, _, h⟩ := h; exact ⟨_, h⟩
        all_goals exact ⟨_, h⟩
      cases k <;> simp only
      · refine ofKind_next this hn (fun v rv hv h => ?_)
        obtain ⟨l, rfl⟩ := (el v rv h).1 hv
        exact ⟨fun w hw => by injection hw with hw; subst hw; rfl, fun f hf => nomatch hf⟩
      · refine ofKind_next this hn (fun v rv hv h => ?_)
        obtain ⟨l, rfl⟩ := (el v rv h).2.1 hv
        exact ⟨fun w hw => by injection hw with hw; subst hw; rfl, fun f hf => nomatch hf⟩
      all_goals exact fails_next this hn (fun v rv hv h => (el v rv h).2.2 (by simp [hv]) (by simp [hv]))
  | pipeProperty i n ih =>
    rintro r ⟨ri, hi, hn⟩
    have := ih ri hi
    unfold Sorted at this ⊢
    rw [Query.gives]
    cases hg : i.gives with
    | none => rw [hg] at this; obtain ⟨f, hf⟩ := this; exact fails_inner hf hn
    | some k =>
      rw [hg] at this
      have el : ∀ v rv, PropertyStage g C n v rv → (v.kind = .vertices → rv = .error .panic ∨ ∃ l, rv = .ok (.vertexProperties l)) ∧
          (v.kind = .edges → ∃ l, rv = .ok (.edgeProperties l)) ∧ (v.kind ≠ .vertices → v.kind ≠ .edges → ∃ f, rv = .error f) := by
        intro v rv h
        cases v <;> simp only [PropertyStage] at h <;> simp only [Output.kind] <;> simp
        · split at h
          · exact Or.inl h
          · obtain ⟨_, _, h⟩ := h; exact Or.inr ⟨_, h⟩
        · obtain ⟨_, _, h⟩ := h; exact ⟨_, h⟩
        all_goals exact ⟨_, h⟩
      cases k <;> simp only
      · refine ofKind_next this hn (fun v rv hv h => ?_)
        rcases (el v rv h).1 hv with rfl | ⟨l, rfl⟩
        · exact ⟨fun w hw => (nomatch hw), fun f hf => by injection hf with hf; exact Or.inr hf.symm⟩
        · exact ⟨fun w hw => by injection hw with hw; subst hw; rfl, fun f hf => nomatch hf⟩
      · refine ofKind_next this hn (fun v rv hv h => ?_)
        obtain ⟨l, rfl⟩ := (el v rv h).2.1 hv
        exact ⟨fun w hw => by injection hw with hw; subst hw; rfl, fun f hf => nomatch hf⟩
      all_goals exact fails_next this hn (fun v rv hv h => (el v rv h).2.2 (by simp [hv]) (by simp [hv]))
  | pipeWithPropertyPresence i n keep ih | pipeWithPropertyValue i n x keep ih =>
    rintro r ⟨ri, hi, hn⟩
    have := ih ri hi
    unfold Sorted at this ⊢
    rw [Query.gives]
    cases hg : i.gives with
    | none => rw [hg] at this; obtain ⟨f, hf⟩ := this; exact fails_inner hf hn
    | some k =>
      rw [hg] at this
      cases k <;> simp only
      · exact ofKind_next this hn (filter_elements (Or.inl rfl))
      · exact ofKind_next this hn (filter_elements (Or.inr rfl))
      all_goals exact fails_next this hn (filter_other (by simp))
  | count i ih =>
    rintro r ⟨ri, hi, hn⟩
    have := ih ri hi
    unfold Sorted at this ⊢
    rw [Query.gives]
    cases hg : i.gives with
    | none => rw [hg] at this; obtain ⟨f, hf⟩ := this; exact fails_inner hf hn
    | some k =>
      rw [hg] at this
      have ok : ∀ v rv, v.kind ≠ .count → CountStage v rv → (∀ w, rv = .ok w → w.kind = .count) ∧
          ∀ f, rv = .error f → f = .err .notIndexed ∨ f = .panic := by
        intro v rv hv h
        cases v <;> simp only [CountStage, Output.size?] at h <;> simp [Output.kind] at hv <;> subst h <;>
          exact ⟨fun w hw => by injection hw with hw; subst hw; rfl, fun f hf => nomatch hf⟩
      cases k <;> simp only
      case count =>
        refine fails_next this hn (fun v rv hv h => ?_)
        cases v <;> simp [Output.kind] at hv
        exact ⟨_, h⟩
      all_goals exact ofKind_next this hn (fun v rv hv h => ok v rv (by simp [hv]) h)

end

namespace Conforms
variable {S : Store} {C : Conv} {Sm : Sem} (F : Conforms S C Sm)

include F in
theorem kinds : S.KindsExact := by
  intro s hr env q
  have h := answers_sorted q _ (F.answers hr env q)
  unfold Sorted at h
  refine ⟨?_, ?_, ?_⟩
  · intro o ho
    rw [F.value_eq hr] at ho
    obtain ⟨p, hp, rfl⟩ := map_ok_iff.1 ho
    cases hg : q.gives with
    | none => rw [hg] at h; obtain ⟨f, hf⟩ := h; rw [hp] at hf; cases hf
    | some k => rw [hg] at h; rw [h.1 p hp]
  · intro hg
    rw [hg] at h
    obtain ⟨f, hf⟩ := h
    exact ⟨f, by rw [F.ask_eq hr, hf]; rfl⟩
  · intro k f hg hf
    rw [hg] at h
    rw [F.ask_eq hr] at hf
    exact h.2 f (map_error_iff.1 hf)

end Conforms

/-! ### The constructors -/

/-- A built query has a kind, and the announced type of its output is right up to the confusion of vertices and edges. -/
theorem Query.Built.gives {q : Query} (h : q.Built) :
    (q.GivesElements ∧ (q.outputType = .ok .vertices ∨ q.outputType = .ok .edges)) ∨
    (q.gives = some .count ∧ q.outputType = .ok .count) ∨
    ((q.gives = some .vertexProperties ∨ q.gives = some .edgeProperties) ∧
      (q.outputType = .ok .vertexProperties ∨ q.outputType = .ok .edgeProperties)) := by
  induction h with
  | allVertex | rangeVertex | specificVertex | vertexWithPropertyPresence | vertexWithPropertyValue =>
    exact Or.inl ⟨Or.inl rfl, Or.inl rfl⟩
  | allEdge | specificEdge | edgeWithPropertyPresence | edgeWithPropertyValue => exact Or.inl ⟨Or.inr rfl, Or.inr rfl⟩
  | pipe hb hn ih | pipeWithPropertyPresence hb hn ih | pipeWithPropertyValue hb hn ih =>
    have hn := newPipe_nestable hn
    left
    rcases ih with ⟨h1, h2⟩ | ⟨h1, h2⟩ | ⟨h1, h2⟩
    · refine ⟨?_, h2⟩
      rcases h1 with h1 | h1 <;> simp [Query.GivesElements, Query.gives, h1]
    · rcases hn with hn | hn <;> rw [hn] at h2 <;> cases h2
    · rcases hn with hn | hn <;> rw [hn] at h2 <;> rcases h2 with h2 | h2 <;> cases h2
  | pipeProperty hb hn ih =>
    have hn := newPipe_nestable hn
    right; right
    rcases ih with ⟨h1, h2⟩ | ⟨h1, h2⟩ | ⟨h1, h2⟩
    · refine ⟨?_, ?_⟩
      · rcases h1 with h1 | h1 <;> simp [Query.gives, h1]
      · rcases h2 with h2 | h2 <;> simp [Query.outputType, h2]
    · rcases hn with hn | hn <;> rw [hn] at h2 <;> cases h2
    · rcases hn with hn | hn <;> rw [hn] at h2 <;> rcases h2 with h2 | h2 <;> cases h2
  | @count i hb hn ih =>
    right; left
    refine ⟨?_, rfl⟩
    rcases ih with ⟨h1, _⟩ | ⟨h1, h2⟩ | ⟨h1, _⟩
    · rcases h1 with h1 | h1 <;> simp [Query.gives, h1]
    · obtain ⟨q, hq⟩ := hn
      simp [Query.newCount, h2] at hq
    · rcases h1 with h1 | h1 <;> simp [Query.gives, h1]
  | incl hb ih => exact ih

theorem checkNestable_built {q : Query} (h : q.Built) :
    (q.GivesElements → q.checkNestable = .ok ()) ∧ (¬ q.GivesElements → q.checkNestable = .error .innerQuery) := by
  rcases h.gives with ⟨h1, h2⟩ | ⟨h1, h2⟩ | ⟨h1, h2⟩
  · refine ⟨fun _ => ?_, fun h => absurd h1 h⟩
    rcases h2 with h2 | h2 <;> simp [Query.checkNestable, h2]
  · refine ⟨fun h => ?_, fun _ => by simp [Query.checkNestable, h2]⟩
    simp [Query.GivesElements, h1] at h
  · refine ⟨fun h => ?_, fun _ => ?_⟩
    · rcases h1 with h1 | h1 <;> simp [Query.GivesElements, h1] at h
    · rcases h2 with h2 | h2 <;> simp [Query.checkNestable, h2]

/-! ### C55 -/

/-- C55, construction: on a query that was itself built with the constructors, a further stage is accepted exactly if that
query gives vertices or edges, and a count exactly if it does not give a count; then the result is the stage with the given
arguments (traversals without limit and type filter); otherwise the error is `InnerQuery`. -/
theorem C55_constructors (i : Query) (h : i.Built) :
    (∀ d, Query.newPipe i d = if i.GivesElements then .ok (.pipe i d 4294967295 none) else .error .innerQuery) ∧
    (Query.newPipeProperty i = if i.GivesElements then .ok (.pipeProperty i none) else .error .innerQuery) ∧
    (∀ n k, Query.newPipeWithPropertyPresence i n k =
      if i.GivesElements then .ok (.pipeWithPropertyPresence i n k) else .error .innerQuery) ∧
    (∀ n v k, Query.newPipeWithPropertyValue i n v k =
      if i.GivesElements then .ok (.pipeWithPropertyValue i n v k) else .error .innerQuery) ∧
    (Query.newCount i = if i.gives = some .count then .error .innerQuery else .ok (.count i)) := by
  have key := checkNestable_built h
  refine ⟨fun d => ?_, ?_, fun n k => ?_, fun n v k => ?_, ?_⟩
  · split
    · rename_i hg; simp [Query.newPipe, key.1 hg, Except.map]
    · rename_i hg; simp [Query.newPipe, key.2 hg, Except.map]
  · split
    · rename_i hg; simp [Query.newPipeProperty, key.1 hg, Except.map]
    · rename_i hg; simp [Query.newPipeProperty, key.2 hg, Except.map]
  · split
    · rename_i hg; simp [Query.newPipeWithPropertyPresence, key.1 hg, Except.map]
    · rename_i hg; simp [Query.newPipeWithPropertyPresence, key.2 hg, Except.map]
  · split
    · rename_i hg; simp [Query.newPipeWithPropertyValue, key.1 hg, Except.map]
    · rename_i hg; simp [Query.newPipeWithPropertyValue, key.2 hg, Except.map]
  · rcases h.gives with ⟨h1, h2⟩ | ⟨h1, h2⟩ | ⟨h1, h2⟩
    · rcases h1 with h1 | h1 <;> rcases h2 with h2 | h2 <;> simp [Query.newCount, h1, h2]
    · simp [Query.newCount, h1, h2]
    · rcases h1 with h1 | h1 <;> rcases h2 with h2 | h2 <;> simp [Query.newCount, h1, h2]

/-- C55: a query can be built with the constructors (and the setters of limits, filters and names) exactly if it has a
kind: nothing that can be evaluated is refused, and nothing else is accepted. -/
theorem C55_built_iff (q : Query) : q.Built ↔ q.gives ≠ none := by
  constructor
  · intro h
    rcases h.gives with ⟨h1, _⟩ | ⟨h1, _⟩ | ⟨h1, _⟩
    · rcases h1 with h1 | h1 <;> simp [h1]
    · simp [h1]
    · rcases h1 with h1 | h1 <;> simp [h1]
  · intro h
    induction q with
    | allVertex => exact .allVertex
    | rangeVertex => exact .rangeVertex
    | specificVertex => exact .specificVertex
    | vertexWithPropertyPresence => exact .vertexWithPropertyPresence
    | vertexWithPropertyValue => exact .vertexWithPropertyValue
    | allEdge => exact .allEdge
    | specificEdge => exact .specificEdge
    | edgeWithPropertyPresence => exact .edgeWithPropertyPresence
    | edgeWithPropertyValue => exact .edgeWithPropertyValue
    | incl i ih => exact .incl (ih h)
    | pipe i d l t ih =>
      have hg : i.GivesElements := by
        unfold Query.GivesElements
        rw [Query.gives] at h
        split at h <;> simp_all
      have hb := ih (by rcases hg with hg | hg <;> simp [hg])
      exact .pipe hb ⟨_, by rw [(C55_constructors i hb).1, if_pos hg]⟩
    | pipeProperty i n ih =>
      have hg : i.GivesElements := by
        unfold Query.GivesElements
        rw [Query.gives] at h
        split at h <;> simp_all
      have hb := ih (by rcases hg with hg | hg <;> simp [hg])
      exact .pipeProperty hb ⟨_, by rw [(C55_constructors i hb).2.1, if_pos hg]⟩
    | pipeWithPropertyPresence i n k ih =>
      have hg : i.GivesElements := by
        unfold Query.GivesElements
        rw [Query.gives] at h
        split at h <;> simp_all
      have hb := ih (by rcases hg with hg | hg <;> simp [hg])
      exact .pipeWithPropertyPresence hb ⟨_, by rw [(C55_constructors i hb).2.2.1, if_pos hg]⟩
    | pipeWithPropertyValue i n v k ih =>
      have hg : i.GivesElements := by
        unfold Query.GivesElements
        rw [Query.gives] at h
        split at h <;> simp_all
      have hb := ih (by rcases hg with hg | hg <;> simp [hg])
      exact .pipeWithPropertyValue hb ⟨_, by rw [(C55_constructors i hb).2.2.2.1, if_pos hg]⟩
    | count i ih =>
      have hg : i.gives ≠ none ∧ i.gives ≠ some .count := by
        rw [Query.gives] at h
        split at h <;> simp_all
      have hb := ih hg.1
      exact .count hb ⟨_, by rw [(C55_constructors i hb).2.2.2.2, if_neg hg.2]⟩

example : Query.newPipe (.pipe .allVertex .outbound 5 none) .inbound =
    .ok (.pipe (.pipe .allVertex .outbound 5 none) .inbound 4294967295 none) := by
  simpa [Query.GivesElements, Query.gives] using
    (C55_constructors (.pipe .allVertex .outbound 5 none) (by rw [C55_built_iff]; decide)).1 .inbound

example : ¬ (Query.pipe (.pipeProperty .allEdge none) .outbound 1 none).Built := by rw [C55_built_iff]; decide

/-- C55, evaluation. -/
theorem C55_memory (K : HashEq) (b : Build) : (memStore K b).KindsExact := (memConforms K b).kinds

/-- C55, evaluation. -/
theorem C55_rocks (X : Cfg) : (rocksStore X).KindsExact := (Rocks.conforms X).kinds

/-- A traversal of a traversal gives vertices again, their properties cannot be traversed, but counted. -/
example : (Query.count (.pipeProperty (.pipe (.pipe .allVertex .outbound 5 none) .inbound 3 none) none)).gives = some .count ∧
    (Query.pipeProperty (.pipe (.pipe .allVertex .outbound 5 none) .inbound 3 none) none).gives = some .vertexProperties ∧
    (Query.pipe (.pipeProperty .allEdge none) .outbound 1 none).gives = none ∧
    (MS .debug).value HashOrder.sorted (.count (.pipeProperty .allVertex (some W.p))) (W.demo .debug) = .ok (.count 1) := by
  decide +kernel

/-- The announced output type (`Query::output_type`, private to the crate) of a traversal of vertices is "vertices"
although the result is edges; the constructors only use it to tell elements from counts and properties, so this does no
harm. -/
example : (Query.pipe .allVertex .outbound 5 none).outputType = .ok .vertices ∧
    (Query.pipe .allVertex .outbound 5 none).gives = some .edges := ⟨rfl, rfl⟩

example : Query.newPipe (.pipeProperty .allEdge none) .outbound = .error .innerQuery := rfl

end IndraDB
