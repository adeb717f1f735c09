import Verif.Spec.Truth
import Verif.Proofs.Observe
/-
Answers are true (C84).
-/
set_option linter.unusedSimpArgs false
namespace IndraDB
variable {g : Graph} {I : IndexView} {C : Conv}

/-- `P` holds of all parts. -/
def Query.Every (P : Query → Prop) (q : Query) : Prop := ∀ p ∈ q.parts, P p

theorem Query.self_mem_parts (q : Query) : q ∈ q.parts := by cases q <;> simp [Query.parts]

theorem PropList.true {get : Identifier → Option Json} {name : Option Identifier} {l : List NamedProperty}
    (h : PropList get name l) (hne : l ≠ []) : PropsTrue get l := by
  refine ⟨hne, ?_, ?_⟩
  · cases name with
    | none =>
      refine h.sorted.imp ?_
      intro a b hab heq
      rw [heq, Order.irrefl] at hab
      exact absurd hab (by simp)
    | some n =>
      simp only [PropList] at h
      rw [h]
      cases get n <;> simp
  · intro p hp
    cases name with
    | none => exact (h.mem p).1 hp
    | some n =>
      simp only [PropList] at h
      rw [h] at hp
      cases hg : get n with
      | none => rw [hg] at hp; simp at hp
      | some v => rw [hg] at hp; simp at hp; rw [hp]; exact hg

/-- What one output has to satisfy. -/
def Output.TrueIf (g : Graph) (E : Prop) (o : Output) : Prop := o.VerticesTrue g ∧ (E → o.EdgesTrue g)

section
variable {E : Prop}

theorem trueIf_vertices {vs : List Vertex} (h : ∀ v ∈ vs, g.vertex v.id = some v.t) :
    (Output.vertices vs).TrueIf g E := ⟨h, fun _ => trivial⟩

theorem trueIf_edges {es : List Edge} (h : E → ∀ e ∈ es, g.edge e = true) : (Output.edges es).TrueIf g E :=
  ⟨trivial, h⟩

theorem PipeStage.true {d : EdgeDirection} {limit : Nat} {t : Option Identifier} {v w : Output}
    (h : PipeStage g C d limit t v (.ok w)) : w.TrueIf g E := by
  cases v with
  | edges es =>
    obtain ⟨l, hl, he⟩ := h
    cases he
    refine trueIf_vertices fun v hv => ?_
    have := List.mem_of_mem_take hv
    rw [hl] at this
    exact (mem_lookup (List.mem_filter.1 this).1).2
  | vertices vs =>
    obtain ⟨per, hp, he⟩ := h
    cases he
    refine trueIf_edges fun _ e he => ?_
    obtain ⟨v, _, h2⟩ := List.mem_flatMap.1 (List.mem_of_mem_take he)
    exact (((hp v.id).mem e).1 h2).1
  | _ => exact absurd h (by simp [PipeStage])

theorem PropertyStage.true {n : Option Identifier} {v w : Output} (hv : v.TrueIf g E)
    (h : PropertyStage g C n v (.ok w)) : w.TrueIf g E := by
  cases v with
  | vertices vs =>
    simp only [PropertyStage] at h
    split at h
    · exact absurd h (by simp)
    · obtain ⟨props, hp, he⟩ := h
      cases he
      refine ⟨?_, fun _ => trivial⟩
      intro x hx
      obtain ⟨y, hy, hxy⟩ := List.mem_filterMap.1 hx
      split at hxy
      · exact absurd hxy (by simp)
      · rename_i hne
        cases hxy
        exact ⟨hv.1 y hy, (hp y hy).true hne⟩
  | edges es =>
    obtain ⟨props, hp, he⟩ := h
    cases he
    refine ⟨trivial, fun hE => ?_⟩
    intro x hx
    obtain ⟨y, hy, hxy⟩ := List.mem_filterMap.1 hx
    split at hxy
    · exact absurd hxy (by simp)
    · rename_i hne
      cases hxy
      exact ⟨hv.2 hE y hy, (hp y).true hne⟩
  | _ => exact absurd h (by simp [PropertyStage])

theorem FilterStage.true {n : Identifier} {vin : Uuid → Bool} {ein : Edge → Bool} {keep : Bool} {v w : Output}
    (hv : v.TrueIf g E) (h : FilterStage g n vin ein keep v (.ok w)) : w.TrueIf g E := by
  cases v with
  | vertices vs =>
    simp only [FilterStage] at h
    split at h
    · cases h; exact trueIf_vertices fun x hx => hv.1 x (List.mem_filter.1 hx).1
    · exact absurd h (by simp)
  | edges es =>
    simp only [FilterStage] at h
    split at h
    · cases h; exact trueIf_edges fun hE x hx => hv.2 hE x (List.mem_filter.1 hx).1
    · exact absurd h (by simp)
  | _ => exact absurd h (by simp [FilterStage])

theorem CountStage.true {v w : Output} (h : CountStage v (.ok w)) : w.TrueIf g E := by
  simp only [CountStage] at h
  split at h
  · cases h; exact ⟨trivial, fun _ => trivial⟩
  · exact absurd h (by simp)

/-- A stage adds one true output. -/
theorem Next.true {i : Query} {st : Output → Res Output → Prop} {ri r : Res (List Output × Output)}
    (hi : ∀ inc v, ri = .ok (inc, v) → ∀ o ∈ inc ++ [v], o.TrueIf g E)
    (hs : ∀ v w, v.TrueIf g E → st v (.ok w) → w.TrueIf g E) (h : Next i st ri r) :
    ∀ inc w, r = .ok (inc, w) → ∀ o ∈ inc ++ [w], o.TrueIf g E := by
  intro inc w hr o ho
  obtain ⟨inc', v, hri, hst, hinc⟩ := h.ok hr
  have hv := hi inc' v hri
  rcases List.mem_append.1 ho with ho | ho
  · rw [hinc] at ho
    rcases List.mem_append.1 ho with ho | ho
    · exact hv o (List.mem_append.2 (.inl ho))
    · refine hv o (List.mem_append.2 (.inr ?_))
      split at ho
      · exact ho
      · exact absurd ho (by simp)
  · cases List.mem_singleton.1 ho
    exact hs v _ (hv v (by simp)) hst

/-- One true output. -/
theorem leaf_true {r : Res (List Output × Output)} {x : Output} (h : r = .ok ([], x)) (hx : x.TrueIf g E) :
    ∀ inc w, r = .ok (inc, w) → ∀ o ∈ inc ++ [w], o.TrueIf g E := by
  intro inc w hr o ho
  rw [h] at hr
  cases hr
  cases List.mem_singleton.1 ho
  exact hx

theorem answers_true {P : Query → Prop}
    (hP : ∀ n, P (.edgeWithPropertyPresence n) → ∀ e, I.ePresent n e = true → g.edge e = true)
    (hV : ∀ n v, P (.edgeWithPropertyValue n v) → ∀ e, I.eValue n v e = true → g.edge e = true) (q : Query) :
    (E → q.Every P) → ∀ r, Answers g I C q r → ∀ inc w, r = .ok (inc, w) → ∀ o ∈ inc ++ [w], o.TrueIf g E := by
  have none' : ∀ {r : Res (List Output × Output)} {f : Fault}, r = .error f →
      ∀ inc w, r = .ok (inc, w) → ∀ o ∈ inc ++ [w], o.TrueIf g E := by
    intro r f h inc w hr; rw [h] at hr; exact absurd hr (by simp)
  induction q with
  | allVertex => rintro _ r ⟨l, hl, h⟩; exact leaf_true h (trueIf_vertices fun v hv => (hl.mem v).1 hv)
  | rangeVertex limit t s =>
    rintro _ r ⟨l, hl, h⟩
    exact leaf_true h (trueIf_vertices fun v hv => ((hl.mem v).1 (List.mem_of_mem_take hv)).1)
  | specificVertex ids => intro _ r h; exact leaf_true h (trueIf_vertices fun v hv => (mem_lookup hv).2)
  | vertexWithPropertyPresence n =>
    intro _ r h
    simp only [Answers] at h
    split at h
    · obtain ⟨l, _, h⟩ := h; exact leaf_true h (trueIf_vertices fun v hv => (mem_lookup hv).2)
    · exact none' h
  | vertexWithPropertyValue n x =>
    intro _ r h
    simp only [Answers] at h
    split at h
    · obtain ⟨l, _, h⟩ := h; exact leaf_true h (trueIf_vertices fun v hv => (mem_lookup hv).2)
    · exact none' h
  | allEdge => rintro _ r ⟨l, hl, h⟩; exact leaf_true h (trueIf_edges fun _ v hv => (hl.mem v).1 hv)
  | specificEdge es =>
    intro _ r h; exact leaf_true h (trueIf_edges fun _ v hv => (List.mem_filter.1 hv).2)
  | edgeWithPropertyPresence n =>
    intro hq r h
    simp only [Answers] at h
    split at h
    · obtain ⟨l, hl, h⟩ := h
      exact leaf_true h (trueIf_edges fun hE e he => hP n (hq hE _ (Query.self_mem_parts _)) e ((hl.1 e).1 he))
    · exact none' h
  | edgeWithPropertyValue n x =>
    intro hq r h
    simp only [Answers] at h
    split at h
    · obtain ⟨l, hl, h⟩ := h
      exact leaf_true h (trueIf_edges fun hE e he => hV n x (hq hE _ (Query.self_mem_parts _)) e ((hl.1 e).1 he))
    · exact none' h
  | pipe i d limit t ih =>
    rintro hq r ⟨ri, hi, hn⟩
    exact hn.true (ih (fun hE p hp => hq hE p (List.mem_cons_of_mem _ hp)) ri hi) (fun _ _ _ h => PipeStage.true h)
  | pipeProperty i n ih =>
    rintro hq r ⟨ri, hi, hn⟩
    exact hn.true (ih (fun hE p hp => hq hE p (List.mem_cons_of_mem _ hp)) ri hi) (fun _ _ hv h => PropertyStage.true hv h)
  | pipeWithPropertyPresence i n k ih =>
    rintro hq r ⟨ri, hi, hn⟩
    exact hn.true (ih (fun hE p hp => hq hE p (List.mem_cons_of_mem _ hp)) ri hi) (fun _ _ hv h => FilterStage.true hv h)
  | pipeWithPropertyValue i n x k ih =>
    rintro hq r ⟨ri, hi, hn⟩
    exact hn.true (ih (fun hE p hp => hq hE p (List.mem_cons_of_mem _ hp)) ri hi) (fun _ _ hv h => FilterStage.true hv h)
  | incl i ih => intro hq r h; exact ih (fun hE p hp => hq hE p (List.mem_cons_of_mem _ hp)) r h
  | count i ih =>
    rintro hq r ⟨ri, hi, hn⟩
    exact hn.true (ih (fun hE p hp => hq hE p (List.mem_cons_of_mem _ hp)) ri hi) (fun _ _ _ h => CountStage.true h)

end

/-- What is true of the contents is true of what is seen of them. -/
theorem Output.TrueIf.visible {E : Prop} {o : Output} (h : o.TrueIf g E) :
    o.VerticesTrue g.visible ∧ (E → o.EdgesTrue g.visible) := by
  refine ⟨?_, fun hE => ?_⟩
  · cases o with
    | vertices vs => exact h.1
    | vertexProperties l =>
      intro x hx
      obtain ⟨h1, h2⟩ := h.1 x hx
      refine ⟨h1, h2.1, h2.2.1, fun p hp => ?_⟩
      simp only [Graph.visible, h1, Option.isSome_some, if_true]
      exact h2.2.2 p hp
    | _ => trivial
  · cases o with
    | edges vs => exact h.2 hE
    | edgeProperties l =>
      intro x hx
      obtain ⟨h1, h2⟩ := h.2 hE x hx
      refine ⟨h1, h2.1, h2.2.1, fun p hp => ?_⟩
      simp only [Graph.visible, h1, if_true]
      exact h2.2.2 p hp
    | _ => trivial

namespace Conforms
variable {S : Store} {Sm : Sem} (F : Conforms S C Sm)
include F

theorem repliesTrue {s : S.State} (hr : S.Reach s) {P : Query → Prop}
    (hP : ∀ env n, P (.edgeWithPropertyPresence n) → ∀ e, (S.index env s).ePresent n e = true → (S.graph s).edge e = true)
    (hV : ∀ env n v, P (.edgeWithPropertyValue n v) → ∀ e, (S.index env s).eValue n v e = true →
      (S.graph s).edge e = true) : S.RepliesTrueAt (Query.Every P) s := by
  intro env look q os h o ho
  rw [F.seen hr]
  rw [F.ask_eq hr] at h
  obtain ⟨⟨inc, v⟩, he, rfl⟩ := map_ok_iff.1 h
  exact (answers_true (E := Query.Every P q) (hP env) (hV env) q id _ (F.answers hr env q) inc v he o ho).visible

end Conforms
end IndraDB
