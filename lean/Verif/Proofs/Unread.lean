import Verif.Proofs.Cut
import Verif.Spec.Refused
import Verif.Proofs.Plugins
import Verif.Proofs.RocksOnce
import Verif.Proofs.RocksCall
import Verif.Props.Rocks
/-
The RocksDB datastore used by one caller, with values that cannot be read.
-/
namespace IndraDB
open Rocks

namespace Unread
variable {X : Cfg} {d : Bytes → Option Json} {z₀ : {s : Rocks // Inv (X.reading d) s}} (hd : X.Reader d)

section
include hd

theorem canRead (v : Json) : CanRead (X.reading d) v := hd.total _

theorem okOp (op : Op) : op.ValuesOk (CanRead (X.reading d)) := by
  cases op with
  | setProperties q n x => exact canRead hd x
  | bulkInsert items => intro i _; cases i <;> first | exact trivial | exact canRead hd _
  | _ => trivial

theorem step_or (O : IdentOrder) (op : Op) (s : Rocks) :
    Rocks.step X O op s = Rocks.step (X.reading d) O op s ∨ (Rocks.step X O op s).2 = .error (.err .datastore) := by
  rw [← callProg_run, ← callProg_run]
  exact (callProg_cut hd O op).run s

theorem inv_step (O : IdentOrder) (op : Op) (s : Rocks) (h : Inv (X.reading d) s) : Inv (X.reading d) (Rocks.step X O op s).1 := by
  rcases step_or hd O op s with e | e
  · rw [e]; exact (dbStep_spec O op s h (okOp hd op)).inv.toInv
  · have := (step_error O op s e).1
    exact ⟨this ▸ h.wf, this ▸ h.values⟩

theorem inv_run {w₀ : Rocks} (hist : List (IdentOrder × Op)) : ∀ s, Inv (X.reading d) s → Inv (X.reading d) ((rocksStoreAny X d w₀).run hist s) := by
  induction hist with
  | nil => exact fun _ h => h
  | cons a r ih => exact fun s h => ih _ (inv_step hd a.1 a.2 s h)

theorem inv {s : Rocks} (h : (rocksStoreAny X d z₀.1).Reach s) : Inv (X.reading d) s := by
  obtain ⟨hist, rfl, _⟩ := h
  exact inv_run hd hist _ z₀.2

end

/-- The database that can read everything, in the state `s`. -/
abbrev T (X : Cfg) (d : Bytes → Option Json) (s : Rocks) : Store := rocksStoreFrom (X.reading d) (CanRead (X.reading d)) s

theorem reach (s : Rocks) : (T X d s).Reach s := ⟨[], rfl, rfl, fun _ h => nomatch h⟩

theorem ask_any {w₀ : Rocks} (O : IdentOrder) (q : Query) (s : Rocks) :
    (rocksStoreAny X d w₀).ask O q s = (eval (reads X s) q).map (fun p => p.1 ++ [p.2]) := by
  unfold Store.ask
  have h : ((rocksStoreAny X d w₀).step O (.get q) s).2 = (getQuery (reads X s) q).map Reply.outputs := rfl
  rw [h, getQuery_eq]
  cases eval (reads X s) q <;> rfl

theorem ask_T (O : IdentOrder) (q : Query) (s u : Rocks) :
    (T X d u).ask O q s = (eval (reads (X.reading d) s) q).map (fun p => p.1 ++ [p.2]) := by
  unfold Store.ask
  have h : ((T X d u).step O (.get q) s).2 = (getQuery (reads (X.reading d) s) q).map Reply.outputs := rfl
  rw [h, getQuery_eq]
  cases eval (reads (X.reading d) s) q <;> rfl

theorem value_any {w₀ : Rocks} (O : IdentOrder) (q : Query) (s : Rocks) :
    (rocksStoreAny X d w₀).value O q s = (eval (reads X s) q).map (·.2) := by
  unfold Store.value
  rw [ask_any]
  cases eval (reads X s) q with
  | error f => rfl
  | ok p => simp [Except.map]

theorem value_T (O : IdentOrder) (q : Query) (s u : Rocks) :
    (T X d u).value O q s = (eval (reads (X.reading d) s) q).map (·.2) := by
  unfold Store.value
  rw [ask_T]
  cases eval (reads (X.reading d) s) q with
  | error f => rfl
  | ok p => simp [Except.map]

/-- Both evaluate `q` to the same. -/
def Same (X : Cfg) (d : Bytes → Option Json) (s : Rocks) (q : Query) : Prop := eval (reads X s) q = eval (reads (X.reading d) s) q

theorem Same.ask {w₀ : Rocks} {s : Rocks} {q : Query} (h : Same X d s q) (O : IdentOrder) (u : Rocks) :
    (rocksStoreAny X d w₀).ask O q s = (T X d u).ask O q s := by rw [ask_any, ask_T, h]

theorem Same.value {w₀ : Rocks} {s : Rocks} {q : Query} (h : Same X d s q) (O : IdentOrder) (u : Rocks) :
    (rocksStoreAny X d w₀).value O q s = (T X d u).value O q s := by rw [value_any, value_T, h]

theorem concat_inj {α : Type} {l m : List α} {a b : α} (h : l ++ [a] = m ++ [b]) : l = m ∧ a = b := by
  have := List.append_inj' h rfl
  exact ⟨this.1, by simpa using this.2⟩

/-- `q` is evaluated to the same, or fails. -/
theorem same_or (hd : X.Reader d) (s : Rocks) (q : Query) : Same X d s q ∨ eval (reads X s) q = .error (.err .datastore) := by
  have h := step_or hd .sorted (.get q) s
  have e : ∀ Y : Cfg, Rocks.step Y .sorted (.get q) s = (s, ((eval (reads Y s) q).map (fun p => p.1 ++ [p.2])).map Reply.outputs) := by
    intro Y
    rw [← getQuery_eq]; rfl
  rw [e X, e (X.reading d)] at h
  unfold Same
  rcases h with h | h
  · left
    have h := congrArg Prod.snd h
    generalize eval (reads X s) q = a at h ⊢
    generalize eval (reads (X.reading d) s) q = b at h ⊢
    cases a with
    | error f =>
      cases b with
      | error g => simpa [Except.map] using h
      | ok p => simp [Except.map] at h
    | ok p =>
      cases b with
      | error g => simp [Except.map] at h
      | ok p' =>
        simp only [Except.map, Except.ok.injEq, Reply.outputs.injEq] at h
        have := concat_inj h
        rw [Except.ok.injEq]
        exact Prod.ext this.1 this.2
  · right
    generalize eval (reads X s) q = a at h ⊢
    cases a with
    | error f => simpa [Except.map] using h
    | ok p => simp [Except.map] at h

theorem same_of_value {w₀ : Rocks} (hd : X.Reader d) {s : Rocks} {q : Query} {O : IdentOrder} {v : Output}
    (h : (rocksStoreAny X d w₀).value O q s = .ok v) : Same X d s q := by
  rcases same_or hd s q with e | e
  · exact e
  · rw [value_any, e] at h; cases h

theorem same_of_ask {w₀ : Rocks} (hd : X.Reader d) {s : Rocks} {q : Query} {O : IdentOrder} {v : List Output}
    (h : (rocksStoreAny X d w₀).ask O q s = .ok v) : Same X d s q := by
  rcases same_or hd s q with e | e
  · exact e
  · rw [ask_any, e] at h; cases h

/-! ### Stages that read no properties -/

theorem pipeVertices_congr {R R' : Reads} (h1 : R.rangeEdges = R'.rangeEdges) (h2 : R.rangeReversedEdges = R'.rangeReversedEdges)
    (dir : EdgeDirection) (l : UInt32) (t : Option Identifier) : ∀ vs es, pipeVertices R dir l t vs es = pipeVertices R' dir l t vs es
  | [], _ => rfl
  | v :: vs, es => by
    unfold pipeVertices pipeVertexIter
    simp only [pipeVertices_congr h1 h2 dir l t vs, h1, h2]

theorem pipeVertices_reading (s : Rocks) (dir : EdgeDirection) (l : UInt32) (t : Option Identifier) (vs : List Vertex) (es : List Edge) :
    pipeVertices (reads X s) dir l t vs es = pipeVertices (reads (X.reading d) s) dir l t vs es :=
  pipeVertices_congr (R := reads X s) (R' := reads (X.reading d) s) rfl rfl dir l t vs es

theorem stagePipe_reading (s : Rocks) (dir : EdgeDirection) (l : UInt32) (t : Option Identifier) (o : Output) :
    stagePipe (reads X s) dir l t o = stagePipe (reads (X.reading d) s) dir l t o := by
  cases o with
  | vertices vs =>
    exact congrArg (fun r : Res (List Edge) => (do return Output.edges (← r) : Res Output)) (pipeVertices_reading (X := X) (d := d) s dir l t vs [])
  | _ => rfl

theorem Same.pipe {s : Rocks} {i : Query} (h : Same X d s i) (dir : EdgeDirection) (l : UInt32) (t : Option Identifier) :
    Same X d s (.pipe i dir l t) := by
  unfold Same at h ⊢
  simp only [eval]
  rw [h]
  congr 1
  funext o
  exact stagePipe_reading s dir l t o

theorem Same.presence {s : Rocks} {i : Query} (h : Same X d s i) (n : Identifier) (k : Bool) :
    Same X d s (.pipeWithPropertyPresence i n k) := by
  unfold Same at h ⊢
  simp only [eval]
  rw [h]; rfl

theorem Same.byValue {s : Rocks} {i : Query} (h : Same X d s i) (n : Identifier) (v : Json) (k : Bool) :
    Same X d s (.pipeWithPropertyValue i n v k) := by
  unfold Same at h ⊢
  simp only [eval]
  rw [h]; rfl

theorem Same.count {s : Rocks} {i : Query} (h : Same X d s i) : Same X d s (.count i) := by
  unfold Same at h ⊢
  cases i with
  | allVertex => rfl
  | allEdge => rfl
  | _ => exact congrArg (fun r => evalStage _ r _) h

theorem Same.incl {s : Rocks} {i : Query} (h : Same X d s i) : Same X d s (.incl i) := h

theorem same_plain (s : Rocks) : ∀ q : Query, ¬ q.AsksProperties → Same X d s q := by
  intro q
  induction q with
  | pipe i dir l t ih => exact fun h => (ih h).pipe dir l t
  | pipeProperty i n ih => exact fun h => (h trivial).elim
  | pipeWithPropertyPresence i n k ih => exact fun h => (ih h).presence n k
  | pipeWithPropertyValue i n v k ih => exact fun h => (ih h).byValue n v k
  | count i ih => exact fun h => (ih h).count
  | incl i ih => exact fun h => ih h
  | _ => exact fun _ => rfl

/-! ### The properties of reads -/
section
variable (hd : X.Reader d)
include hd

theorem sane (s : Rocks) (h : (rocksStoreAny X d z₀.1).Reach s) : (T X d s).Sane (Sem.rocks (X.reading d)) rocksEdgeLt (fun _ => False) :=
  (conformsFrom (X.reading d) s (inv hd h)).sane (by funext a b; exact Rocks.edgeLt_eq a b) (fun i h => by simp [Rocks.conv] at h)

theorem vertexQueries : (rocksStoreAny X d z₀.1).VertexQueriesExact := by
  intro s hr O
  obtain ⟨h1, h2, h3⟩ := (sane hd s hr).vertexQueries s (reach s) O
  refine ⟨?_, fun l t st => ?_, fun ids => ?_⟩
  · rw [(same_plain s .allVertex id).ask O s]; exact h1
  · rw [(same_plain s (.rangeVertex l t st) id).ask O s]; exact h2 l t st
  · rw [(same_plain s (.specificVertex ids) id).ask O s]; exact h3 ids

theorem edgeQueries : (rocksStoreAny X d z₀.1).EdgeQueriesExact rocksEdgeLt := by
  intro s hr O
  obtain ⟨h1, h2⟩ := (sane hd s hr).edgeQueries s (reach s) O
  refine ⟨?_, fun es => ?_⟩
  · rw [(same_plain s .allEdge id).ask O s]; exact h1
  · rw [(same_plain s (.specificEdge es) id).ask O s]; exact h2 es

theorem pipeVertices : (rocksStoreAny X d z₀.1).PipeVerticesExact (fun d a b => match d with
    | .outbound => rocksEdgeLt a b
    | .inbound => rocksEdgeLt a.reversed b.reversed) := by
  intro s hr O inner vs hv dir limit t
  have hS := same_of_value hd hv
  rw [hS.value O s] at hv
  obtain ⟨f, h1, h2⟩ := (sane hd s hr).pipeVertices s (reach s) O inner vs hv dir limit t
  exact ⟨f, h1, by rw [(hS.pipe dir limit t).value O s]; exact h2⟩

theorem pipeEdges : (rocksStoreAny X d z₀.1).PipeEdgesExact := by
  intro s hr O inner es hv dir limit t
  have hS := same_of_value hd hv
  rw [hS.value O s] at hv
  rw [(hS.pipe dir limit t).value O s]
  exact (sane hd s hr).pipeEdges s (reach s) O inner es hv dir limit t

theorem filters : (rocksStoreAny X d z₀.1).FiltersPartition := by
  intro s hr O inner n hn
  obtain ⟨h1, h2⟩ := (sane hd s hr).filters s (reach s) O inner n hn
  refine ⟨⟨fun vs hv => ?_, fun es hv => ?_⟩, fun x => ⟨fun vs hv => ?_, fun es hv => ?_⟩⟩
  · have hS := same_of_value hd hv
    rw [hS.value O s] at hv
    rw [(same_plain s (.vertexWithPropertyPresence n) id).value O s, (hS.presence n true).value O s, (hS.presence n false).value O s]
    exact h1.1 vs hv
  · have hS := same_of_value hd hv
    rw [hS.value O s] at hv
    rw [(same_plain s (.edgeWithPropertyPresence n) id).value O s, (hS.presence n true).value O s, (hS.presence n false).value O s]
    exact h1.2 es hv
  · have hS := same_of_value hd hv
    rw [hS.value O s] at hv
    rw [(same_plain s (.vertexWithPropertyValue n x) id).value O s, (hS.byValue n x true).value O s, (hS.byValue n x false).value O s]
    exact (h2 x).1 vs hv
  · have hS := same_of_value hd hv
    rw [hS.value O s] at hv
    rw [(same_plain s (.edgeWithPropertyValue n x) id).value O s, (hS.byValue n x true).value O s, (hS.byValue n x false).value O s]
    exact (h2 x).2 es hv

theorem count : (rocksStoreAny X d z₀.1).CountExact := by
  intro s hr O inner v hv
  have hS := same_of_value hd hv
  rw [hS.value O s] at hv
  rw [hS.count.value O s]
  exact (sane hd s hr).count s (reach s) O inner v hv

theorem includes : (rocksStoreAny X d z₀.1).IncludeExact := by
  intro s hr O q outs h
  have hc : ∀ i, eval (reads X s) (.count i) = evalStage i (eval (reads X s) i) (fun v => do return .count (← countOf v)) := by
    have FF := (conformsFrom (X.reading d) s (inv hd hr)).faithful s (reach s) O
    intro i
    cases i with
    | allVertex => exact eval_count FF .allVertex
    | allEdge => exact eval_count FF .allEdge
    | _ => rfl
  rw [ask_any (X := X) (d := d) O q s] at h
  obtain ⟨⟨inc, v⟩, he, rfl⟩ := map_ok_iff.1 h
  have h1 := eval_includes hc q _ _ he
  have h2 : ValuesOfEval (reads X s) [q] [v] := ⟨by rw [he]; rfl, trivial⟩
  have h3 := h1.append h2
  simp only at h3 ⊢
  generalize inc ++ [v] = os at h3
  generalize q.includes ++ [q] = qs at h3
  clear h1 h2 he h
  induction qs generalizing os with
  | nil => cases os <;> exact h3
  | cons a r ih => cases os with
    | nil => exact h3
    | cons o os => exact ⟨(value_any (X := X) (d := d) O a s).trans h3.1, ih _ h3.2⟩

theorem built : (rocksStoreAny X d z₀.1).BuiltQueriesWork := by
  intro s hr O
  obtain ⟨h1, h2⟩ := (sane hd s hr).built s (reach s) O
  refine ⟨fun q hq => ?_, fun q hq outs ho => ?_⟩
  · rcases same_or hd s q with e | e
    · rw [e.ask O s]; exact h1 q hq
    · rw [ask_any (X := X) (d := d) O q s, e]; simp [Except.map]
  · have hS := same_of_ask hd ho
    rw [hS.ask O s] at ho
    exact h2 q hq outs ho

theorem same_inner {s : Rocks} {i : Query} {dir : EdgeDirection} {l : UInt32} {t : Option Identifier} {O : IdentOrder} {v : Output}
    (h : (rocksStoreAny X d z₀.1).value O (.pipe i dir l t) s = .ok v) : Same X d s i := by
  rcases same_or hd s i with e | e
  · exact e
  · rw [value_any] at h
    simp only [eval, e, evalStage] at h
    cases h

theorem limits : (rocksStoreAny X d z₀.1).LimitsMonotone := by
  intro s hr O k k' hk
  obtain ⟨h1, h2⟩ := (sane hd s hr).limits s (reach s) O k k' hk
  refine ⟨fun t st l h => ?_, fun inner dir t => ⟨fun l h => ?_, fun l h => ?_⟩⟩
  · rw [(same_plain s (.rangeVertex k' t st) id).ask O s] at h
    rw [(same_plain s (.rangeVertex k t st) id).ask O s]
    exact h1 t st l h
  · have hS := same_inner hd h
    rw [(hS.pipe dir k' t).value O s] at h
    rw [(hS.pipe dir k t).value O s]
    exact (h2 inner dir t).1 l h
  · have hS := same_inner hd h
    rw [(hS.pipe dir k' t).value O s] at h
    rw [(hS.pipe dir k t).value O s]
    exact (h2 inner dir t).2 l h

theorem traversal : (rocksStoreAny X d z₀.1).TraversalSymmetric := by
  intro s hr O e k out inb h1 h2 h3 h4 h5 h6
  rw [(same_plain s (.pipe (.specificVertex [e.outboundId]) .outbound k none) id).value O s] at h3
  rw [(same_plain s (.pipe (.specificVertex [e.inboundId]) .inbound k none) id).value O s] at h5
  rw [(same_plain s (.specificEdge [e]) id).value O s]
  exact (sane hd s hr).traversal s (reach s) O e k out inb h1 h2 h3 h4 h5 h6

omit hd in
theorem pages {w₀ : Rocks} (next : Uuid → Option Uuid) (k : UInt32) (t : Option Identifier) (s : Rocks) (env : Nat → IdentOrder) :
    ∀ fuel u, (rocksStoreAny X d w₀).pages next env k t s fuel u = (T X d s).pages next env k t s fuel u := by
  intro fuel
  induction fuel with
  | zero => exact fun _ => rfl
  | succ f ih =>
    intro u
    simp only [Store.pages]
    rw [(same_plain s (.rangeVertex k t (some u)) id).ask (env f) s]
    simp only [ih]

theorem paging : (rocksStoreAny X d z₀.1).PagingExact (fun u => (nextUuid u).toOption) := by
  intro s hr env k t hk
  obtain ⟨all, h1, h2⟩ := (sane hd s hr).paging s (reach s) env k t hk
  exact ⟨all, h1, fun fuel hf => (pages (X := X) (d := d) _ k t s env fuel _).trans (h2 fuel hf)⟩

theorem readsPure : (rocksStoreAny X d z₀.1).ReadsPure := fun _ _ _ _ _ => rfl

/-! ### The properties of writes -/

theorem createVertex : (rocksStoreAny X d z₀.1).CreateVertexExact := by
  intro s hr O v
  exact ((conformsFrom (X.reading d) s (inv hd hr)).createVertex (fun s hr' O v =>
    ⟨(createVertex_same (X.reading d) s (inv_reach_from (inv hd hr) hr').wf O v).1,
      fun _ => (createVertex_same (X.reading d) s (inv_reach_from (inv hd hr) hr').wf O v).2⟩)) s (reach s) O v

theorem createVertexFromType : (rocksStoreAny X d z₀.1).CreateVertexFromTypeExact :=
  fun s hr O id t => (sane hd s hr).createVertexFromType s (reach s) O id t

theorem createEdge : (rocksStoreAny X d z₀.1).CreateEdgeExact := fun s hr O e => (sane hd s hr).createEdge s (reach s) O e

theorem wrongValues {w₀ : Rocks} : (rocksStoreAny X d w₀).WrongValuesRejected := by
  intro s hr O q
  have hl := lastOutput_eq (reads X s) q
  refine ⟨fun k h => ?_, fun v n x h h1 h2 => ?_, fun f h => ?_⟩
  · rw [value_any (X := X) (d := d) O q s, ← hl] at h
    show (dbStep (Rocks.txn X O) (.delete q) s).2 = _
    have h' : lastOutput ((Rocks.txn X O).reads s) q = _ := h
    simp only [dbStep, dbDelete, h']; rfl
  · rw [value_any (X := X) (d := d) O q s, ← hl] at h
    show (dbStep (Rocks.txn X O) (.setProperties q n x) s).2 = _
    have h' : lastOutput ((Rocks.txn X O).reads s) q = _ := h
    cases v with
    | vertices _ => exact absurd rfl h1
    | edges _ => exact absurd rfl h2
    | _ => simp only [dbStep, dbSetProperties, h']; rfl
  · rw [value_any (X := X) (d := d) O q s, ← hl] at h
    have h' : lastOutput ((Rocks.txn X O).reads s) q = _ := h
    refine ⟨?_, fun n x => ?_⟩
    · show (dbStep (Rocks.txn X O) (.delete q) s).2 = _
      simp only [dbStep, dbDelete, h']; rfl
    · show (dbStep (Rocks.txn X O) (.setProperties q n x) s).2 = _
      simp only [dbStep, dbSetProperties, h']; rfl

theorem indexed_step (O : IdentOrder) (op : Op) (s : Rocks) (hi : Inv (X.reading d) s) (n : Identifier) :
    (Rocks.step X O op s).1.indexed.contains n = true ↔ s.indexed.contains n = true ∨ op = .indexProperty n := by
  have F := conformsFrom (X.reading d) s hi
  rcases step_or hd O op s with e | e
  · rw [e]
    have := (F.indexed_run [(O, op)] (fun p hp => by simp only [List.mem_singleton] at hp; subst hp; exact okOp hd op) s
      (fun _ => reach s) rfl).2 n
    simp only [List.mem_singleton, exists_eq_left] at this
    exact this
  · by_cases hop : ∃ m, op = .indexProperty m
    · obtain ⟨m, rfl⟩ := hop
      have hs : (Rocks.step X O (.indexProperty m) s).1 = ((indexProperty X O m).run s).1 := rfl
      have he : ((indexProperty X O m).run s).2 = .error (.err .datastore) := by
        have e' : ((Upd.map (fun _ => Reply.unit) ((indexProperty X O m).run s)).2 : Res Reply) = .error (.err .datastore) := e
        cases hr : ((indexProperty X O m).run s).2 with
        | ok a => simp [Upd.map, hr, Except.map] at e'
        | error f => simp [Upd.map, hr, Except.map] at e'; rw [e']
      rw [hs]
      rcases indexProperty_outcome (X := X) O m s with h | ⟨f, h⟩ | ⟨b, h⟩ | h
      · rw [h] at he; cases he
      · rw [h]
        show (s.indexed.add m).contains n = true ↔ _
        rw [SSet.contains_add]
        simp only [Bool.or_eq_true, decide_eq_true_eq, Op.indexProperty.injEq]
        exact ⟨fun h => h.elim (fun h => .inr h.symm) .inl, fun h => h.elim .inr (fun h => .inl h.symm)⟩
      · rw [h] at he; cases he
      · rw [h] at he; cases he
    · have := (step_error O op s e).2 (fun n h => hop ⟨n, h⟩)
      rw [this]
      exact ⟨.inl, fun h => h.elim id (fun h => absurd ⟨n, h⟩ hop)⟩

theorem indexed_hist {w₀ : Rocks} (hist : List (IdentOrder × Op)) (n : Identifier) : ∀ s, Inv (X.reading d) s →
    (((rocksStoreAny X d w₀).run hist s).indexed.contains n = true ↔ s.indexed.contains n = true ∨ ∃ p ∈ hist, p.2 = .indexProperty n) := by
  induction hist with
  | nil => intro s _; simp [Store.run]
  | cons a r ih =>
    intro s hi
    have h1 := ih _ (inv_step hd a.1 a.2 s hi)
    have h2 := indexed_step hd a.1 a.2 s hi n
    show ((rocksStoreAny X d w₀).run r (Rocks.step X a.1 a.2 s).1).indexed.contains n = true ↔ _
    rw [h1, h2]
    simp only [List.mem_cons, exists_eq_or_imp, or_assoc]

theorem notIndexed : (rocksStoreAny X d Rocks.init).NotIndexedExact := by
  intro hist ho ha O n v q hq
  have hr : (rocksStoreAny X d Rocks.init).Reach ((rocksStoreAny X d Rocks.init).run hist Rocks.init) := ⟨hist, rfl, ha, ho⟩
  have hp : ¬ q.AsksProperties := by
    simp only [List.mem_cons, List.not_mem_nil, or_false] at hq
    rcases hq with rfl | rfl | rfl | rfl <;> exact id
  show (rocksStoreAny X d Rocks.init).ask O q ((rocksStoreAny X d Rocks.init).run hist Rocks.init) = _ ↔ _
  have e1 := Same.ask (w₀ := Rocks.init) (same_plain (X := X) (d := d) ((rocksStoreAny X d Rocks.init).run hist Rocks.init) q hp) O
    ((rocksStoreAny X d Rocks.init).run hist Rocks.init)
  refine Iff.trans (Iff.of_eq (congrArg (· = _) e1)) ?_
  refine Iff.trans ((conformsFrom (X.reading d) _ (inv (z₀ := ⟨Rocks.init, Inv.init⟩) hd hr)).notIndexed_at (reach _) O n v q hq) ?_
  show ¬ (((rocksStoreAny X d Rocks.init).run hist Rocks.init).indexed.contains n = true) ↔ _
  rw [indexed_hist hd hist n _ Inv.init]
  constructor
  · exact fun h p hp he => h (.inr ⟨p, hp, he⟩)
  · rintro h (h1 | ⟨p, hp, he⟩)
    · exact absurd h1 (by simp [Rocks.init, SMap.contains, SMap.get, SMap.empty])
    · exact h p hp he

theorem notIndexedPiped : (rocksStoreAny X d Rocks.init).NotIndexedPipedExact := by
  intro hist ho ha O n v inner keep o hv hk q hq
  have hr : (rocksStoreAny X d Rocks.init).Reach ((rocksStoreAny X d Rocks.init).run hist Rocks.init) := ⟨hist, rfl, ha, ho⟩
  have hS := same_of_value hd hv
  have hQ : Same X d ((rocksStoreAny X d Rocks.init).run hist Rocks.init) q := by
    simp only [List.mem_cons, List.not_mem_nil, or_false] at hq
    rcases hq with rfl | rfl
    · exact hS.presence n keep
    · exact hS.byValue n v keep
  have hv' : (T X d ((rocksStoreAny X d Rocks.init).run hist Rocks.init)).value O inner ((rocksStoreAny X d Rocks.init).run hist Rocks.init) = .ok o :=
    (hS.value O _).symm.trans hv
  show (rocksStoreAny X d Rocks.init).ask O q ((rocksStoreAny X d Rocks.init).run hist Rocks.init) = _ ↔ _
  refine Iff.trans (Iff.of_eq (congrArg (· = _) (hQ.ask O ((rocksStoreAny X d Rocks.init).run hist Rocks.init)))) ?_
  refine Iff.trans ((conformsFrom (X.reading d) _ (inv (z₀ := ⟨Rocks.init, Inv.init⟩) hd hr)).notIndexedPiped_at (reach _) O n v inner keep o hv' hk q hq) ?_
  show ¬ (((rocksStoreAny X d Rocks.init).run hist Rocks.init).indexed.contains n = true) ↔ _
  rw [indexed_hist hd hist n _ Inv.init]
  constructor
  · exact fun h p hp he => h (.inr ⟨p, hp, he⟩)
  · rintro h (h1 | ⟨p, hp, he⟩)
    · exact absurd h1 (by simp [Rocks.init, SMap.contains, SMap.get, SMap.empty])
    · exact h p hp he

end
end Unread
end IndraDB
