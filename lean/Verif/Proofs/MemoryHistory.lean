import Verif.Proofs.Memory
import Verif.Proofs.Answers
/-
Histories of the memory datastore.
-/
set_option linter.unusedSimpArgs false
namespace IndraDB
namespace Mem

variable {K : HashEq} {b : Build}

theorem Eff.cases {α : Type} {φ : Graph → Graph} {m : Mem} {u : Upd Mem α} (h : Eff K b φ m u) :
    (∃ a, u.2 = .ok a ∧ u.1.graph = φ m.graph ∧ (WF K b m → WF K b u.1) ∧ (Full K m → Full K u.1)) ∨
    (u.2 = .error .panic ∧ b = .debug ∧ ¬ Full K m) := by
  unfold Eff at h
  cases hu : u.2 with
  | ok a => rw [hu] at h; exact Or.inl ⟨a, rfl, h⟩
  | error f => rw [hu] at h; right; rw [h.1]; exact ⟨rfl, h.2⟩

/-- The state after one call, as seen from outside. -/
structure StepOk (K : HashEq) (b : Build) (O : HashOrder) (m : Mem) (op : Op) (m' : Mem) (r : Res Reply) : Prop where
  stepWith : StepWith Sem.intended m.graph (eval (reads K O m)) op m'.graph r
  rev : m.RevOk
  wf : WF K b m'
  full : m.graph.NoOrphans → Full K m → Full K m'

theorem StepOk.step {O : HashOrder} {m m' : Mem} {op : Op} {r : Res Reply} (h : StepOk K b O m op m' r) :
    Step Sem.intended (memConv K) (m.index K) m.graph op m'.graph r :=
  ⟨_, fun q => eval_answers (faithful K O m h.rev) q, h.stepWith⟩

/-- **One call on the memory datastore** does what the specification says, or panics in a write; the latter only in
debug builds, and only if some property is missing in the index. -/
theorem dbStep_spec (O : HashOrder) (op : Op) (m : Mem) (w : WF K b m) :
    StepOk K b O m op (dbStep (txn K O b) op m).1 (dbStep (txn K O b) op m).2 ∨
    ((dbStep (txn K O b) op m).2 = .error .panic ∧ b = .debug ∧ ¬ Full K m) := by
  -- a write with effect `φ` and reply `unit`
  have wr : ∀ (φ : Graph → Graph) (u : Upd Mem Unit), Eff K b φ m u →
      (Upd.map (fun _ => Reply.unit) u).2 = .ok .unit ∧ (Upd.map (fun _ => Reply.unit) u).1.graph = φ m.graph ∧
        WF K b (Upd.map (fun _ => Reply.unit) u).1 ∧ (Full K m → Full K (Upd.map (fun _ => Reply.unit) u).1) ∨
      ((Upd.map (fun _ => Reply.unit) u).2 = .error .panic ∧ b = .debug ∧ ¬ Full K m) := by
    intro φ u hu
    rcases hu.cases with ⟨a, h1, h2, h3, h4⟩ | ⟨h1, h2⟩
    · left; exact ⟨by simp [Upd.map, h1, Except.map], h2, h3 w, h4⟩
    · right; exact ⟨by simp [Upd.map, h1, Except.map], h2⟩
  cases op with
  | sync => left; exact ⟨⟨rfl, rfl⟩, w.rev, w, fun _ h => h⟩
  | createVertex v =>
    obtain ⟨h1, h2⟩ := createVertex_eff (K := K) (b := b) v m
    left
    rcases h1.cases with ⟨a, _, hg, hw, hf⟩ | ⟨h3, _⟩
    · exact ⟨⟨hg, by simp [dbStep, txn, Upd.map, h2, Except.map]⟩, w.rev, hw w, fun _ => hf⟩
    · rw [h2] at h3; exact absurd h3 (by simp)
  | createVertexFromType id t =>
    obtain ⟨h1, h2⟩ := createVertex_eff (K := K) (b := b) ⟨id, t⟩ m
    left
    rcases h1.cases with ⟨a, _, hg, hw, hf⟩ | ⟨h3, _⟩
    · have hs : (dbStep (txn K O b) (.createVertexFromType id t) m).1 = (createVertex ⟨id, t⟩ m).1 ∧
          (dbStep (txn K O b) (.createVertexFromType id t) m).2 =
            if m.graph.vertex id = none then .ok (.uuid id) else .error (.err .uuidTaken) := by
        simp only [dbStep, dbCreateVertexFromType, txn]
        generalize createVertex ⟨id, t⟩ m = u at h2
        obtain ⟨m', res⟩ := u
        simp only at h2
        subst h2
        by_cases hv : m.graph.vertex id = none
        · simp [hv, Upd.map, Except.map]
        · have : (m.graph.vertex id == none) = false := by
            cases hh : m.graph.vertex id with
            | none => exact absurd hh hv
            | some t => rfl
          simp [this, hv, Upd.map, Except.map]
      exact ⟨⟨by rw [hs.1]; exact hg, hs.2⟩, w.rev, by rw [hs.1]; exact hw w, fun _ => by rw [hs.1]; exact hf⟩
    · rw [h2] at h3; exact absurd h3 (by simp)
  | createEdge e =>
    obtain ⟨h1, h2⟩ := createEdge_eff (K := K) (b := b) e m
    left
    rcases h1.cases with ⟨a, _, hg, hw, hf⟩ | ⟨h3, _⟩
    · exact ⟨⟨hg, by simp [dbStep, txn, Upd.map, h2, Except.map]⟩, w.rev, hw w, fun _ => hf⟩
    · rw [h2] at h3; exact absurd h3 (by simp)
  | get q =>
    left
    refine ⟨⟨rfl, ?_⟩, w.rev, w, fun _ h => h⟩
    simp only [dbStep, txn, getQuery_eq]
    cases eval (reads K O m) q <;> rfl
  | delete q =>
    have hl : lastOutput (reads K O m) q = (eval (reads K O m) q).map (·.2) := lastOutput_eq _ q
    have hsw : ∀ m' r, (match eval (reads K O m) q with
      | .error f => m' = m.graph ∧ r = .error f
      | .ok (_, v) => DeleteValue Sem.intended m.graph v m' r) → StepWith Sem.intended m.graph (eval (reads K O m)) (.delete q) m' r := fun _ _ h => h
    generalize eval (reads K O m) q = a at hsw hl
    simp only [dbStep, dbDelete]
    have hT : (txn K O b).reads m = reads K O m := rfl
    rw [hT, hl]
    cases a with
    | error f =>
      left
      exact ⟨hsw _ _ ⟨rfl, rfl⟩, w.rev, w, fun _ h => h⟩
    | ok p =>
      obtain ⟨inc, v⟩ := p
      simp only [Except.map]
      cases v with
      | vertices vs =>
        rcases wr _ _ (deleteVertices_eff (K := K) (b := b) vs m) with ⟨h1, h2, h3, h4⟩ | h
        · left; exact ⟨hsw _ _ ⟨h2, h1⟩, w.rev, h3, fun _ => h4⟩
        · right; exact h
      | edges es =>
        rcases wr _ _ (deleteEdges_eff (K := K) (b := b) es m) with ⟨h1, h2, h3, h4⟩ | h
        · left; exact ⟨hsw _ _ ⟨h2, h1⟩, w.rev, h3, fun _ => h4⟩
        · right; exact h
      | vertexProperties l =>
        rcases wr _ _ (deleteVertexProperties_eff (K := K) (b := b) (vertexPropertyKeys l) m) with ⟨h1, h2, h3, h4⟩ | h
        · left; exact ⟨hsw _ _ ⟨h2, h1⟩, w.rev, h3, fun _ => h4⟩
        · right; exact h
      | edgeProperties l =>
        rcases wr _ _ (deleteEdgeProperties_eff (K := K) (b := b) (edgePropertyKeys l) m) with ⟨h1, h2, h3, h4⟩ | h
        · left; exact ⟨hsw _ _ ⟨h2, h1⟩, w.rev, h3, fun _ => h4⟩
        · right; exact h
      | count n => left; exact ⟨hsw _ _ ⟨rfl, rfl⟩, w.rev, w, fun _ h => h⟩
  | setProperties q n x =>
    have hl : lastOutput (reads K O m) q = (eval (reads K O m) q).map (·.2) := lastOutput_eq _ q
    have hsw : ∀ m' r, (match eval (reads K O m) q with
      | .error f => m' = m.graph ∧ r = .error f
      | .ok (_, v) => SetValue Sem.intended m.graph n x v m' r) → StepWith Sem.intended m.graph (eval (reads K O m)) (.setProperties q n x) m' r := fun _ _ h => h
    generalize eval (reads K O m) q = a at hsw hl
    simp only [dbStep, dbSetProperties]
    have hT : (txn K O b).reads m = reads K O m := rfl
    rw [hT, hl]
    cases a with
    | error f =>
      left
      exact ⟨hsw _ _ ⟨rfl, rfl⟩, w.rev, w, fun _ h => h⟩
    | ok p =>
      obtain ⟨inc, v⟩ := p
      simp only [Except.map]
      cases v with
      | vertices vs =>
        rcases wr _ _ (setVertexProperties_eff (K := K) (b := b) (vs.map (·.id)) n x m) with ⟨h1, h2, h3, h4⟩ | h
        · left; exact ⟨hsw _ _ ⟨h2, h1⟩, w.rev, h3, fun _ => h4⟩
        · right; exact h
      | edges es =>
        rcases wr _ _ (setEdgeProperties_eff (K := K) (b := b) es n x m) with ⟨h1, h2, h3, h4⟩ | h
        · left; exact ⟨hsw _ _ ⟨h2, h1⟩, w.rev, h3, fun _ => h4⟩
        · right; exact h
      | _ => left; exact ⟨hsw _ _ ⟨rfl, rfl⟩, w.rev, w, fun _ h => h⟩
  | bulkInsert items =>
    rcases wr _ _ (bulkInsert_eff (K := K) (b := b) items m) with ⟨h1, h2, h3, h4⟩ | h
    · left; exact ⟨⟨h2, h1⟩, w.rev, h3, fun _ => h4⟩
    · right; exact h
  | indexProperty n =>
    left
    obtain ⟨h1, h2, h3, h4⟩ := indexProperty_eff (O := O) (K := K) (b := b) n m
    exact ⟨⟨h2, by simp [dbStep, txn, Upd.map, h1, Except.map]⟩, w.rev, h3 w, h4 w.distinct⟩

theorem wf_empty : WF K b empty where
  rev := fun _ => rfl
  distinct := fun n c h => by simp [empty] at h
  sound := fun _ n v x h => by simp [idx, empty] at h

theorem full_empty : Full K empty := fun n x w h _ => by simp [empty, SMap.contains] at h

theorem graph_empty : empty.graph = Graph.empty := by
  ext <;> simp [graph, empty, Graph.empty, SMap.contains]

theorem index_edge_exists {m : Mem} (n : Identifier) (v : Json) (e : Edge) (h : (m.index K).eValue n v e = true) :
    m.graph.edge e = true := by
  simp only [index, Bool.and_eq_true] at h; exact h.2

/-- In debug builds without orphan properties the presence index lists only existing edges. -/
theorem index_present_exists {m : Mem} (hd : AllDistinct K m) (hs : Sound K m) (ho : m.graph.NoOrphans) (n : Identifier)
    (e : Edge) (h : (m.index K).ePresent n e = true) : m.graph.edge e = true := by
  simp only [index] at h
  obtain ⟨v, hv⟩ := (listed_iff hd n _).1 h
  obtain ⟨w, hw, _⟩ := hs n v _ hv
  exact ho.2 e n (by simp only [graph]; simp only [prop] at hw; rw [hw]; simp)

/-- The index is exact. -/
theorem index_exact {m : Mem} (hd : AllDistinct K m) (hs : Sound K m) (hf : Full K m) (ho : m.graph.NoOrphans)
    (n : Identifier) (hn : m.graph.indexed n = true) :
    (∀ i, (m.index K).vPresent n i = (m.graph.exactIndex (memConv K)).vPresent n i) ∧
    (∀ v i, (m.index K).vValue n v i = (m.graph.exactIndex (memConv K)).vValue n v i) ∧
    (∀ e, (m.index K).ePresent n e = (m.graph.exactIndex (memConv K)).ePresent n e) ∧
    (∀ v e, (m.index K).eValue n v e = (m.graph.exactIndex (memConv K)).eValue n v e) := by
  have key : ∀ x v, m.idx K n v x = true ↔ ∃ w, m.prop x n = some w ∧ K.same w v = true := by
    intro x v
    constructor
    · exact hs n v x
    · rintro ⟨w, hw, hwv⟩
      have h1 := hf n x w hn hw
      unfold idx at h1 ⊢
      cases hc : m.propertyValues.get n with
      | none => rw [hc] at h1; simp at h1
      | some c => rw [hc] at h1; simp only at h1 ⊢; rw [← Container.idx_congr c hwv]; exact h1
  have keyL : ∀ x, m.listed n x = true ↔ ∃ w, m.prop x n = some w := by
    intro x
    rw [listed_iff hd]
    constructor
    · rintro ⟨v, hv⟩; obtain ⟨w, hw, _⟩ := (key x v).1 hv; exact ⟨w, hw⟩
    · rintro ⟨w, hw⟩; exact ⟨w, (key x w).2 ⟨w, hw, K.refl _⟩⟩
  have hov : ∀ i w, m.vertexProperties.get (i, n) = some w → ∃ t, m.vertices.get i = some t := by
    intro i w hw
    have := ho.1 i n (by simp only [graph]; rw [hw]; simp)
    simp only [graph] at this
    cases hg : m.vertices.get i with
    | none => exact absurd hg this
    | some t => exact ⟨t, rfl⟩
  have hoe : ∀ e w, m.edgeProperties.get (e, n) = some w → m.edges.contains e = true := by
    intro e w hw
    exact ho.2 e n (by simp only [graph]; rw [hw]; simp)
  refine ⟨?_, ?_, ?_, ?_⟩
  · intro i
    rw [Bool.eq_iff_iff]
    simp only [index, Graph.exactIndex, keyL, prop, graph, Bool.and_eq_true, Option.isSome_iff_exists]
    constructor
    · rintro ⟨w, hw⟩; exact ⟨hov i w hw, w, hw⟩
    · rintro ⟨_, w, hw⟩; exact ⟨w, hw⟩
  · intro v i
    rw [Bool.eq_iff_iff]
    simp only [index, Graph.exactIndex, key, prop, graph, Bool.and_eq_true, Option.isSome_iff_exists, memConv]
    constructor
    · rintro ⟨w, hw, hs⟩; exact ⟨hov i w hw, by rw [hw]; exact hs⟩
    · rintro ⟨_, h⟩
      cases hg : m.vertexProperties.get (i, n) with
      | none => rw [hg] at h; simp at h
      | some w => rw [hg] at h; exact ⟨w, rfl, h⟩
  · intro e
    rw [Bool.eq_iff_iff]
    simp only [index, Graph.exactIndex, keyL, prop, graph, Bool.and_eq_true, Option.isSome_iff_exists]
    constructor
    · rintro ⟨w, hw⟩; exact ⟨hoe e w hw, w, hw⟩
    · rintro ⟨_, w, hw⟩; exact ⟨w, hw⟩
  · intro v e
    rw [Bool.eq_iff_iff]
    simp only [index, Graph.exactIndex, key, prop, graph, Bool.and_eq_true, memConv]
    constructor
    · rintro ⟨⟨w, hw, hs⟩, he⟩; exact ⟨he, by rw [hw]; exact hs⟩
    · rintro ⟨he, h⟩
      cases hg : m.edgeProperties.get (e, n) with
      | none => rw [hg] at h; simp at h
      | some w => rw [hg] at h; exact ⟨⟨w, rfl, h⟩, he⟩

end Mem

namespace MemDb
open Mem

variable {K : HashEq} {b : Build}

/-- The invariant of all histories. -/
structure Inv (K : HashEq) (b : Build) (d : MemDb) : Prop where
  wf : WF K b d.mem
  noDangling : d.mem.graph.NoDangling

/-- The invariant of checked histories. -/
structure CInv (K : HashEq) (b : Build) (d : MemDb) : Prop extends Inv K b d where
  full : Full K d.mem
  noOrphans : d.mem.graph.NoOrphans

/-- Histories that write properties only to existing owners. -/
def CheckedRun (K : HashEq) (b : Build) : List (HashOrder × Op) → MemDb → Prop
  | [], _ => True
  | (O, op) :: r, d => op.Checked b d.mem.graph ∧ CheckedRun K b r (step K b O op d).1

theorem step_poisoned (O : HashOrder) (op : Op) {d : MemDb} (h : d.poisoned = true) :
    step K b O op d = (d, .error .panic) := by
  unfold step; rw [if_pos h]

/-- One call on an unpoisoned database. -/
theorem step_cases (O : HashOrder) (op : Op) {d : MemDb} (hp : d.poisoned = false) (w : WF K b d.mem) :
    (StepOk K b O d.mem op (step K b O op d).1.mem (step K b O op d).2 ∧
      ((step K b O op d).1.poisoned = true ↔ (step K b O op d).2 = .error .panic)) ∨
    ((step K b O op d).2 = .error .panic ∧ (step K b O op d).1.poisoned = true ∧ b = .debug ∧ ¬ Full K d.mem) := by
  have h := dbStep_spec O op d.mem w
  unfold step
  rw [if_neg (by simp [hp])]
  generalize dbStep (txn K O b) op d.mem = u at h
  obtain ⟨m', r⟩ := u
  simp only at h
  rcases h with h | ⟨h1, h2⟩
  · left
    cases r with
    | ok a => simp only; exact ⟨h, by simp⟩
    | error f => cases f with
      | panic => simp only; exact ⟨h, by simp⟩
      | err e => simp only; exact ⟨h, by simp⟩
  · right
    subst h1
    exact ⟨rfl, rfl, h2⟩

theorem inv_new : Inv K b new := ⟨wf_empty, by
  intro e he
  have : (new.mem.graph).edge e = false := by simp [new, graph_empty, Graph.empty]
  rw [this] at he; exact absurd he (by simp)⟩

theorem cinv_new : CInv K b new := ⟨inv_new, full_empty, by
  have hg : new.mem.graph = Graph.empty := graph_empty
  rw [hg]; constructor <;> intro _ _ h <;> exact absurd rfl h⟩

/-- One call keeps the invariant (or poisons). -/
theorem inv_step (O : HashOrder) (op : Op) {d : MemDb} (h : d.poisoned = false → Inv K b d)
    (hp : (step K b O op d).1.poisoned = false) : Inv K b (step K b O op d).1 := by
  cases hd : d.poisoned with
  | true => rw [step_poisoned O op hd] at hp; rw [hd] at hp; exact absurd hp (by simp)
  | false =>
    have hi := h hd
    rcases step_cases O op hd hi.wf with ⟨h1, _⟩ | ⟨_, h2, _⟩
    · exact ⟨h1.wf, h1.step.noDangling hi.noDangling⟩
    · rw [h2] at hp; exact absurd hp (by simp)

theorem inv_run (hist : List (HashOrder × Op)) : ∀ {d : MemDb}, (d.poisoned = false → Inv K b d) →
    (run K b hist d).poisoned = false → Inv K b (run K b hist d) := by
  induction hist with
  | nil => intro d h hp; exact h hp
  | cons a r ih =>
    intro d h hp
    obtain ⟨O, op⟩ := a
    rw [run] at hp ⊢
    exact ih (fun hq => inv_step O op h hq) hp

/-- Every reachable unpoisoned state satisfies the invariant. -/
theorem inv_reachable (hist : List (HashOrder × Op)) (hp : (run K b hist new).poisoned = false) :
    Inv K b (run K b hist new) := inv_run hist (fun _ => inv_new) hp

theorem cinv_step (O : HashOrder) (op : Op) {d : MemDb} (h : d.poisoned = false → CInv K b d)
    (hc : op.Checked b d.mem.graph)
    (hp : (step K b O op d).1.poisoned = false) : CInv K b (step K b O op d).1 := by
  cases hd : d.poisoned with
  | true => rw [step_poisoned O op hd] at hp; rw [hd] at hp; exact absurd hp (by simp)
  | false =>
    have hi := h hd
    rcases step_cases O op hd hi.wf with ⟨h1, _⟩ | ⟨_, h2, _⟩
    · refine ⟨⟨h1.wf, h1.step.noDangling hi.noDangling⟩, h1.full hi.noOrphans hi.full, ?_⟩
      exact h1.step.noOrphans hi.noOrphans hc index_edge_exists
        (fun hb => index_present_exists hi.wf.distinct (hi.wf.sound hb) hi.noOrphans)
    · rw [h2] at hp; exact absurd hp (by simp)

theorem cinv_run (hist : List (HashOrder × Op)) : ∀ {d : MemDb}, (d.poisoned = false → CInv K b d) →
    CheckedRun K b hist d →
    (run K b hist d).poisoned = false → CInv K b (run K b hist d) := by
  induction hist with
  | nil => intro d h _ hp; exact h hp
  | cons a r ih =>
    intro d h hc hp
    obtain ⟨O, op⟩ := a
    rw [run] at hp ⊢
    exact ih (fun hq => cinv_step O op h hc.1 hq) hc.2 hp

theorem cinv_reachable (hist : List (HashOrder × Op)) (hc : CheckedRun K b hist new)
    (hp : (run K b hist new).poisoned = false) : CInv K b (run K b hist new) :=
  cinv_run hist (fun _ => cinv_new) hc hp

/-- In a checked history in which nobody creates the vertex with the greatest id, no call panics. -/
theorem no_panic (hist : List (HashOrder × Op)) : ∀ {d : MemDb}, CInv K b d → d.poisoned = false →
    d.mem.graph.vertex Uuid.max = none →
    CheckedRun K b hist d → (∀ p ∈ hist, p.2.AvoidsMax) → (run K b hist d).poisoned = false := by
  induction hist with
  | nil => intro d _ hp _ _ _; exact hp
  | cons a r ih =>
    intro d hi hp hm hc ha
    obtain ⟨O, op⟩ := a
    rw [run]
    have hnp : (step K b O op d).1.poisoned = false ∧ (step K b O op d).1.mem.graph.vertex Uuid.max = none := by
      rcases step_cases O op hp hi.wf with ⟨h1, h2⟩ | ⟨_, _, _, h3⟩
      · refine ⟨?_, h1.step.avoidsMax hm (ha (O, op) (by simp))⟩
        cases hq : (step K b O op d).1.poisoned with
        | false => rfl
        | true =>
          exfalso
          have h4 := h2.1 hq
          have hs := h1.step
          rw [h4] at hs
          -- only queries can fail with a panic
          have hno : ∀ q a, Answers d.mem.graph (d.mem.index K) (memConv K) q a → a ≠ .error .panic := by
            intro q a haq he
            rcases answers_error q a haq _ he with h | h | ⟨_, x, hx, hxm⟩
            · exact absurd h (by simp)
            · exact absurd h (by simp)
            · simp only [memConv, decide_eq_true_eq] at hxm
              rw [hxm, hm] at hx; exact absurd hx (by simp)
          obtain ⟨ans, hans, hs⟩ := hs
          cases op with
          | sync => exact absurd hs.2 (by simp)
          | createVertex v => exact absurd hs.2 (by simp)
          | createVertexFromType id t => have := hs.2; split at this <;> simp at this
          | createEdge e => exact absurd hs.2 (by simp)
          | get q =>
            have haq := hans q
            obtain ⟨_, he⟩ := hs
            generalize ans q = a at haq he
            cases a with
            | ok p => simp [Except.map] at he
            | error f => simp [Except.map] at he; exact hno q _ haq (by rw [← he])
          | delete q =>
            have haq := hans q
            simp only [StepWith] at hs
            have he := hs
            generalize ans q = a at haq he
            cases a with
            | error f => have := he.2; simp at this; exact hno q _ haq (by rw [← this])
            | ok p => obtain ⟨_, v⟩ := p; cases v <;> exact absurd he.2 (by simp)
          | setProperties q n x =>
            have haq := hans q
            simp only [StepWith] at hs
            have he := hs
            generalize ans q = a at haq he
            cases a with
            | error f => have := he.2; simp at this; exact hno q _ haq (by rw [← this])
            | ok p => obtain ⟨_, v⟩ := p; cases v <;> exact absurd he.2 (by simp)
          | bulkInsert items => exact absurd hs.2 (by simp)
          | indexProperty n => exact absurd hs.2 (by simp)
      · exact absurd hi.full h3
    exact ih (cinv_step O op (fun _ => hi) hc.1 hnp.1) hnp.1 hnp.2 hc.2 (fun p hp => ha p (by simp [hp]))

end MemDb
end IndraDB
