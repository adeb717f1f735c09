import Verif.Props.Memory
import Verif.Props.Kind
import Verif.Props.Values
import Verif.Props.MemoryBulk
import Verif.Proofs.MemoryCoherent
import Verif.Proofs.Observe
/-
The memory datastore with arbitrary hash map lookups (`memStoreAny`): every call finds JSON keys in its own way, subject
only to what hash maps promise (`Finder`). Everything about the graph stays true; everything about the index stays true
as long as equal values that are used hash equally (`Coherent`), and is refuted otherwise.
-/
set_option linter.unusedSimpArgs false
namespace IndraDB
open Mem

variable (b : Build)

/-! ### The database of the examples -/

/-- All identifiers. -/
abbrev anyId : Identifier → Prop := fun _ => True

/-- Lookups by `==` alone: what a hash map does if the (partial) hashes it compares happen to collide. -/
def Finder.byEq : Finder where
  «at» c v := List.findIdx? (fun e => Json.eq e.1 v) c
  sound c v i h := by
    rw [List.findIdx?_eq_some_iff_getElem] at h
    obtain ⟨hi, h, _⟩ := h
    exact ⟨c[i], List.getElem?_eq_getElem hi, h⟩
  complete c v e he _ h2 h := by
    rw [List.findIdx?_eq_none_iff] at h
    have := h e he
    rw [h2] at this
    exact absurd this (by simp)

/-- A hash map in which `3` and `3.0` collide as long as the table is small, and no longer after it has grown. -/
def Finder.growing (k : Nat) : Finder where
  «at» c v := if List.length c < k then Finder.byEq.at c v else HashEq.byHash.finder.at c v
  sound c v i h := by
    split at h
    · exact Finder.byEq.sound c v i h
    · exact HashEq.byHash.finder.sound c v i h
  complete c v e he h1 h2 := by
    split
    · exact Finder.byEq.complete c v e he h1 h2
    · exact HashEq.byHash.finder.complete c v e he h1 h2

/-- The hypotheses of the theorems on coherent values are met: the example history uses integers only; its calls look
keys up in three different ways. -/
def W.ways : List Finder := [Finder.byEq, HashEq.byHash, Finder.growing 1, Finder.byEq, Finder.growing 1,
  HashEq.byHash, Finder.growing 2, HashEq.byHash, Finder.growing 2, Finder.byEq]

def W.mixed : List ((Finder × HashOrder) × Op) := List.zipWith (fun F o => ((F, HashOrder.sorted), o)) W.ways W.calls

theorem W.mixed_ok : (∀ p ∈ W.mixed, p.2.All anyId (fun v => v.AllNums Num.IsInt)) ∧
    (memStoreAny .debug).CheckedHist .debug W.mixed MemDb.new ∧ plain W.mixed = W.hist ∧
    (∀ p ∈ W.mixed, p.2.AvoidsMax) ∧
    (memStoreAny .debug).alive ((memStoreAny .debug).run W.mixed MemDb.new) = true := by
  refine ⟨?_, ⟨trivial, trivial, trivial, trivial, trivial, Or.inl rfl, trivial, Or.inl rfl, Or.inl rfl, Or.inl rfl, trivial⟩,
    rfl, ?_, by decide +kernel⟩
  · intro p hp
    simp only [W.mixed, W.ways, W.calls, List.zipWith_cons_cons, List.zipWith_nil_right, List.mem_cons, List.not_mem_nil, or_false] at hp
    rcases hp with rfl | rfl | rfl | rfl | rfl | rfl | rfl | rfl | rfl | rfl
    all_goals first | trivial | exact ⟨trivial, trivial, trivial⟩
  · intro p hp
    simp only [W.mixed, W.ways, W.calls, List.zipWith_cons_cons, List.zipWith_nil_right, List.mem_cons, List.not_mem_nil, or_false] at hp
    rcases hp with rfl | rfl | rfl | rfl | rfl | rfl | rfl | rfl | rfl | rfl
    · show W.u 1 ≠ Uuid.max; decide +kernel
    · show W.u 2 ≠ Uuid.max; decide +kernel
    all_goals trivial

/-- The state after the example history with these lookups, and the lookups of the call that follows. -/
def W.any : MemDb := (memStoreAny .debug).run W.mixed MemDb.new
theorem W.any_reach : (memStoreAny .debug).Reach W.any := ⟨W.mixed, rfl, W.mixed_ok.2.2.2.2, memAny_ok _⟩
def W.look : Finder × HashOrder := (Finder.growing 2, HashOrder.sorted)

/-! ### Properties that do not depend on what lookups find -/

theorem C01_memory_any : (memStoreAny b).CreateVertexExact ∧ (memStoreAny b).CreateVertexFromTypeExact := by
  refine ⟨(memAnyConforms b).createVertex ?_, (memAnyConforms b).createVertexFromType⟩
  rintro d hr ⟨F, O⟩ v
  obtain ⟨hp, _⟩ := memAny_reach hr
  obtain ⟨m, p⟩ := d
  simp only at hp; subst hp
  have hi : ∀ F' : Finder, (MemDb.step F b O (.createVertex v) ⟨m, false⟩).1.mem.index F' = m.index F' := by
    intro F'
    rw [(memStep_any rfl F O _).1]
    simp only [dbStep, txn, Upd.map, createVertex]
    cases m.vertices.get v.id <;> rfl
  constructor
  · intro h
    have h' : m.vertices.get v.id ≠ none := h
    show (MemDb.step F b O (.createVertex v) ⟨m, false⟩).1 = _
    unfold MemDb.step
    simp only [Bool.false_eq_true, if_false, dbStep, txn, Upd.map, createVertex]
    cases hg : m.vertices.get v.id with
    | none => exact absurd hg h'
    | some t => rfl
  · rintro ⟨F', O'⟩
    constructor
    · intro n i _; exact congrArg (fun I => IndexView.vPresent I n i) (hi F')
    · intro n x i _; exact congrArg (fun I => IndexView.vValue I n x i) (hi F')
    · intro n i; exact congrArg (fun I => IndexView.ePresent I n i) (hi F')
    · intro n x i; exact congrArg (fun I => IndexView.eValue I n x i) (hi F')

example := ((C01_memory_any .debug).1 _ W.any_reach W.look ⟨W.u 1, W.t2⟩).2.1.2 (by decide +kernel)

theorem C02_memory_any : (memStoreAny b).CreateEdgeExact := (memAnyConforms b).createEdge

example := (C02_memory_any .debug _ W.any_reach W.look ⟨W.u 2, W.t, W.u 2⟩).1.2 ⟨by decide +kernel, by decide +kernel⟩

theorem memAny_noDangling {d : MemDb} (h : (memStoreAny b).Reach d) : d.mem.graph.NoDangling := by
  obtain ⟨hist, rfl, ha, _⟩ := h
  have key : ∀ (hist : List ((Finder × HashOrder) × Op)) (d : MemDb),
      (d.poisoned = false → d.mem.RevOk ∧ d.mem.graph.NoDangling) →
      ((memStoreAny b).run hist d).poisoned = false → ((memStoreAny b).run hist d).mem.graph.NoDangling := by
    intro hist
    induction hist with
    | nil => intro d h hp; exact (h hp).2
    | cons p r ih =>
      obtain ⟨⟨F, O⟩, op⟩ := p
      intro d h
      refine ih (MemDb.step F b O op d).1 ?_
      intro hp'
      cases hp : d.poisoned with
      | true => rw [MemDb.step_poisoned_any F O op hp] at hp'; rw [hp] at hp'; exact absurd hp' (by simp)
      | false =>
        have he := memStep_any (b := b) hp F O op
        rw [he.1]
        rcases dbStep_any (b := b) F O op d.mem (h hp).1 with ⟨h1, h2⟩ | ⟨h2, _⟩
        · have hs : Step Sem.intended (memConv HashEq.byHash) (d.mem.index F) d.mem.graph op
              (dbStep (txn F O b) op d.mem).1.graph (dbStep (txn F O b) op d.mem).2 :=
            ⟨_, fun q => eval_answers (faithful F O d.mem (h hp).1) q, h1⟩
          exact ⟨h2, hs.noDangling (h hp).2⟩
        · rw [he.2.2.2 h2] at hp'; exact absurd hp' (by simp)
  have hp : ((memStoreAny b).run hist MemDb.new).poisoned = false := by
    have ha' : (!((memStoreAny b).run hist MemDb.new).poisoned) = true := ha
    simpa using ha'
  exact key hist MemDb.new (fun _ => ⟨(wf_empty (K := HashEq.byHash) (b := b)).rev,
    (MemDb.inv_new (K := HashEq.byHash) (b := b)).noDangling⟩) hp

/-- The part of C03 that is about the stored graph: edges returned by queries other than `EdgeWithPropertyPresence` have
both endpoints. -/
theorem C03_memory_any_partial : (memStoreAny b).NoDanglingAnswers Query.LiveEdges := by
  rintro d hr ⟨F, O⟩ q hq es hv e he
  obtain ⟨inc, hev⟩ := (memAnyConforms b).value_ok hr hv
  have ha := (memAnyConforms b).answers hr (F, O) q
  rw [hev] at ha
  have hl : ∀ n v e, (((memStoreAny b).index (F, O) d)).eValue n v e = true → ((memStoreAny b).graph d).edge e = true := by
    intro n v e h
    have h' : (d.mem.index F).eValue n v e = true := h
    simp only [Mem.index, Bool.and_eq_true] at h'
    exact h'.2
  have := memAny_noDangling b hr e (answers_edges_exist hl hq ha e he)
  simp only [Graph.hasEndpoints, Bool.and_eq_true, Option.isSome_iff_ne_none] at this
  exact this

example := C03_memory_any_partial .debug _ W.any_reach W.look (.pipe .allVertex .outbound 9 none) (by trivial)
  [W.e11, W.e12, W.e21] (by decide +kernel) W.e12 (by decide +kernel)

theorem C04_memory_any : (memStoreAny b).TraversalSymmetric := (memAnyConforms b).traversalSymmetric

example := C04_memory_any .debug _ W.any_reach W.look W.e12 9 [W.e11, W.e12] [W.e12] (by decide +kernel) (by decide +kernel)
  (by decide +kernel) (by decide +kernel) (by decide +kernel) (by decide +kernel)

theorem C05_memory_any : (memStoreAny b).DeleteVerticesIs Graph.dropVertices := (memAnyConforms b).deleteVertices

example := C05_memory_any .debug _ W.any_reach W.look (.specificVertex [W.u 2]) [⟨W.u 2, W.t2⟩] (by decide +kernel)
  (by decide +kernel)

theorem C07_memory_any : (memStoreAny b).SetPropertiesExact id ∧ (memStoreAny b).WrongValuesRejected :=
  ⟨(memAnyConforms b).setProperties, (memAnyConforms b).wrongValuesRejected⟩

example := ((C07_memory_any .debug).1 _ W.any_reach W.look .allEdge W.p (W.n 5) trivial (by decide +kernel)).2
  [W.e11, W.e12, W.e21] (by decide +kernel)

theorem C08_memory_any : (memStoreAny b).DeletePropertiesExact := (memAnyConforms b).deleteProperties

example := (C08_memory_any .debug _ W.any_reach W.look (.pipeProperty .allVertex (some W.q)) (by decide +kernel)).1
  [⟨⟨W.u 1, W.t⟩, [⟨W.q, W.n 1⟩]⟩, ⟨⟨W.u 2, W.t2⟩, [⟨W.q, W.n 1⟩]⟩] (by decide +kernel)

theorem C09_memory_any : (memStoreAny b).DeleteEdgesIs Graph.dropEdges := (memAnyConforms b).deleteEdges

example := C09_memory_any .debug _ W.any_reach W.look (.pipe (.specificVertex [W.u 1]) .outbound 9 none) [W.e11, W.e12]
  (by decide +kernel) (by decide +kernel)

theorem C14_memory_any : (memStoreAny b).NotIndexedExact ∧ (memStoreAny b).NotIndexedPipedExact :=
  ⟨(memAnyConforms b).notIndexed (fun _ => rfl), (memAnyConforms b).notIndexedPiped (fun _ => rfl)⟩

example := (C14_memory_any .debug).1 W.mixed (memAny_ok _) W.mixed_ok.2.2.2.2 W.look W.q (W.n 1) (.vertexWithPropertyPresence W.q)
  (by simp)
example := (C14_memory_any .debug).2 W.mixed (memAny_ok _) W.mixed_ok.2.2.2.2 W.look W.q (W.n 1) .allEdge true
  (.edges [W.e11, W.e12, W.e21]) (by decide +kernel) (Or.inr rfl) (.pipeWithPropertyPresence .allEdge W.q true) (by simp)

theorem C16_memory_any : (memStoreAny b).VertexQueriesExact ∧ (memStoreAny b).EdgeQueriesExact Order.lt :=
  ⟨(memAnyConforms b).vertexQueries, (memAnyConforms b).edgeQueries⟩

example := (C16_memory_any .debug).1 _ W.any_reach W.look

theorem C17_memory_any : (memStoreAny b).PipeVerticesExact (fun d a b => match d with
    | .outbound => Order.lt a b
    | .inbound => Order.lt a.reversed b.reversed) := by
  intro s hr env inner vs hv d limit t
  obtain ⟨ea, h1, h2⟩ := (memAnyConforms b).pipeVertices s hr env inner vs hv d limit t
  exact ⟨ea, by intro id; have := h1 id; cases d <;> exact this, h2⟩

example := C17_memory_any .debug _ W.any_reach W.look .allVertex [⟨W.u 1, W.t⟩, ⟨W.u 2, W.t2⟩] (by decide +kernel) .inbound 2
  (some W.t)

theorem C18_memory_any : (memStoreAny b).PipeEdgesExact := (memAnyConforms b).pipeEdges

example := C18_memory_any .debug _ W.any_reach W.look .allEdge [W.e11, W.e12, W.e21] (by decide +kernel) .inbound 9 none

theorem C19_memory_any : (memStoreAny b).PipePropertiesExact (fun id => id = Uuid.max) := by
  intro s hr env inner
  obtain ⟨h1, h2⟩ := (memAnyConforms b).pipeProperties s hr env inner
  refine ⟨fun vs hv => ⟨(h1 vs hv).1, fun hb => (h1 vs hv).2 ?_⟩, h2⟩
  intro v hv'
  simpa [memConv] using hb v hv'

example := ((C19_memory_any .debug _ W.any_reach W.look .allVertex).1 [⟨W.u 1, W.t⟩, ⟨W.u 2, W.t2⟩] (by decide +kernel)).2
  (by decide +kernel)

theorem C20_memory_any : (memStoreAny b).FiltersPartition := (memAnyConforms b).filtersPartition

example := C20_memory_any .debug _ W.any_reach W.look .allVertex W.p (by decide +kernel)

theorem C21_memory_any : (memStoreAny b).CountExact := (memAnyConforms b).countExact

example := C21_memory_any .debug _ W.any_reach W.look .allEdge (.edges [W.e11, W.e12, W.e21]) (by decide +kernel)

theorem C22_memory_any : (memStoreAny b).IncludeExact := (memAnyConforms b).includeExact

example := C22_memory_any .debug _ W.any_reach W.look (.count (.pipe (.incl (.incl (.specificVertex [W.u 2]))) .outbound 5 none))
  [.vertices [⟨W.u 2, W.t2⟩], .count 1] (by decide +kernel)

theorem C23_memory_any : (memStoreAny b).BuiltQueriesWork := (memAnyConforms b).builtQueriesWork

example := (C23_memory_any .debug _ W.any_reach W.look).1 (.count (.pipeProperty (.pipe .allVertex .outbound 5 none) none))
  (.count (.pipeProperty (.pipe .allVertex ⟨_, rfl⟩) ⟨_, rfl⟩) ⟨_, rfl⟩)

theorem C38_memory_any : (memStoreAny b).PagingExact nextId :=
  (memAnyConforms b).paging nextId nextId_spec Uuid.not_lt_nil

example := C38_memory_any .debug _ W.any_reach (fun _ => W.look) 1 none (by decide)

theorem C50_memory_any : (memStoreAny b).LimitsMonotone := (memAnyConforms b).limitsMonotone

example := (C50_memory_any .debug _ W.any_reach W.look 2 3 (by decide)).2 .allVertex .outbound none

theorem C55_memory_any : (memStoreAny b).KindsExact := (memAnyConforms b).kinds

example := C55_memory_any .debug _ W.any_reach W.look

/-- A call that does not panic leaves the database usable. -/
theorem memAny_same {d d' : MemDb} (hp : d.poisoned = false) (hp' : d'.poisoned = false) (hm : d'.mem = d.mem) : d' = d := by
  cases d; cases d'; simp only at hp hp' hm; subst hp; subst hp'; subst hm; rfl

theorem C24_memory_any : (memStoreAny b).ErrorsPure := by
  rintro d hr ⟨F, O⟩ op e h
  obtain ⟨hp, _⟩ := memAny_reach hr
  have he := memStep_any (b := b) hp F O op
  have h' : (dbStep (txn F O b) op d.mem).2 = .error (.err e) := he.2.1.symm.trans h
  have wr : ∀ {α : Type} {f : α → Reply} {φ : Graph → Graph} {u : Upd Mem α}, Mem.GEff b φ d.mem u →
      (Upd.map f u).2 = .error (.err e) → False := by
    intro α f φ u hu hx
    have hx' := map_error_iff.1 hx
    rcases hu with ⟨h1, _⟩ | ⟨⟨a, h1⟩, _⟩
    · rw [hx'] at h1; exact absurd h1 (by simp)
    · rw [hx'] at h1; exact absurd h1 (by simp)
  have hm : (dbStep (txn F O b) op d.mem).1 = d.mem := by
    cases op with
    | sync => rfl
    | createVertex v => exact absurd (wr (createVertex_geff v d.mem) h') (by simp)
    | createVertexFromType id t =>
      simp only [dbStep, dbCreateVertexFromType, txn, Upd.map, createVertex] at h' ⊢
      cases hg : d.mem.vertices.get id with
      | some t' => rfl
      | none => rw [hg] at h'; simp [Except.map] at h'
    | createEdge e' => exact absurd (wr (createEdge_geff e' d.mem) h') (by simp)
    | get q => rfl
    | delete q =>
      simp only [dbStep, dbDelete] at h' ⊢
      cases hl : lastOutput ((txn F O b).reads d.mem) q with
      | error f => simp only [Upd.map]
      | ok v =>
        rw [hl] at h'
        cases v with
        | vertices vs => exact absurd (wr (deleteVertices_geff vs d.mem) h') (by simp)
        | edges es => exact absurd (wr (deleteEdges_geff es d.mem) h') (by simp)
        | vertexProperties l => exact absurd (wr (deleteVertexProperties_geff _ d.mem) h') (by simp)
        | edgeProperties l => exact absurd (wr (deleteEdgeProperties_geff _ d.mem) h') (by simp)
        | count k => rfl
    | setProperties q n x =>
      simp only [dbStep, dbSetProperties] at h' ⊢
      cases hl : lastOutput ((txn F O b).reads d.mem) q with
      | error f => simp only [Upd.map]
      | ok v =>
        rw [hl] at h'
        cases v with
        | vertices vs => exact absurd (wr (setVertexProperties_geff _ n x d.mem) h') (by simp)
        | edges es => exact absurd (wr (setEdgeProperties_geff es n x d.mem) h') (by simp)
        | vertexProperties l => rfl
        | edgeProperties l => rfl
        | count k => rfl
    | bulkInsert items => exact absurd (wr (bulkInsert_geff items d.mem) h') (by simp)
    | indexProperty n => simp [dbStep, txn, Upd.map, Mem.indexProperty, Except.map] at h'
  refine memAny_same hp ?_ (he.1.trans hm)
  cases hq : (MemDb.step F b O op d).1.poisoned with
  | false => exact hq
  | true => have := he.2.2.1 hq; rw [h'] at this; exact absurd this (by simp)

example := C24_memory_any .debug _ W.any_reach W.look (.delete (.pipeWithPropertyPresence .allVertex W.q true)) .notIndexed
  (by decide +kernel)

theorem C25_memory_any : (memStoreAny b).ReadsPure := by
  rintro d hr ⟨F, O⟩ q h
  obtain ⟨hp, _⟩ := memAny_reach hr
  have he := memStep_any (b := b) hp F O (.get q)
  refine memAny_same hp ?_ he.1
  cases hq : (MemDb.step F b O (.get q) d).1.poisoned with
  | false => exact hq
  | true => exact absurd (he.2.1.trans (he.2.2.1 hq)) h

example := C25_memory_any .debug _ W.any_reach W.look (.pipe .allVertex .outbound 9 none) (by decide +kernel)

/-- C26, whatever lookups find: the state is that of the individual calls whose lookups find the same, and the effect on the
database that of the individual writes. -/
theorem C26_memory_any : ∀ d, (memStoreAny b).Reach d → ∀ F O items,
    (ItemsChecked Graph.bulkItem ((memStoreAny b).graph d) items →
      ∀ calls : List ((Finder × HashOrder) × Op), (∀ c ∈ calls, c.1.1 = F) → calls.map (·.2) = items.map BulkInsertItem.toOp →
      ((memStoreAny b).step (F, O) (.bulkInsert items) d).1 = (memStoreAny b).run calls d) ∧
    (((memStoreAny b).step (F, O) (.bulkInsert items) d).2 ≠ .error .panic →
      ((memStoreAny b).step (F, O) (.bulkInsert items) d).2 = .ok .unit ∧
      (memStoreAny b).graph ((memStoreAny b).step (F, O) (.bulkInsert items) d).1
        = items.foldl Graph.bulkItem ((memStoreAny b).graph d)) := by
  intro d hr F O items
  constructor
  · intro hch calls hF hc
    have hrun : ∀ (calls : List ((Finder × HashOrder) × Op)) (d : MemDb), (∀ c ∈ calls, c.1.1 = F) →
        (memStoreAny b).run calls d = MemDb.run F b (calls.map fun c => (c.1.2, c.2)) d := by
      intro calls
      induction calls with
      | nil => intro d _; rfl
      | cons c r ih =>
        obtain ⟨⟨F', O'⟩, op⟩ := c
        intro d h
        have : F' = F := h _ (List.mem_cons_self ..)
        subst this
        exact ih _ (fun c hc => h c (List.mem_cons_of_mem _ hc))
    rw [hrun calls d hF]
    exact bulkSeq F b O items d (memAny_reach hr).1 hch _ (by rw [List.map_map]; exact hc)
  · intro h
    obtain ⟨h1, h2⟩ := (memAnyConforms b).stepWith hr (F, O) (.bulkInsert items) (memAny_valuesOk _) h
    exact ⟨h2, h1⟩

example := (C26_memory_any .debug _ W.any_reach W.look.1 W.look.2
    [.vertex ⟨W.u 3, W.t⟩, .edge ⟨W.u 1, W.t, W.u 3⟩, .vertexProperty (W.u 3) W.p (W.n 2)]).1 ⟨trivial, trivial, by decide +kernel, trivial⟩
  [((W.look.1, HashOrder.sorted), .createVertex ⟨W.u 3, W.t⟩), ((W.look.1, HashOrder.sorted), .createEdge ⟨W.u 1, W.t, W.u 3⟩),
    ((W.look.1, HashOrder.sorted), .setProperties (.specificVertex [W.u 3]) W.p (W.n 2))] (by simp) rfl

theorem memAny_alive : ∀ s, (memStoreAny b).Reach s → ∀ env op, op.ValuesOk (memStoreAny b).okValue →
    ((memStoreAny b).step env op s).2 ≠ .error .panic → (memStoreAny b).alive ((memStoreAny b).step env op s).1 = true := by
  rintro d hr ⟨F, O⟩ op _ h
  obtain ⟨hp, _⟩ := memAny_reach hr
  have he := memStep_any (b := b) hp F O op
  have h3 : (MemDb.step F b O op d).1.poisoned = false := by
    cases h' : (MemDb.step F b O op d).1.poisoned with
    | false => rfl
    | true => exact absurd (he.2.1.trans (he.2.2.1 h')) h
  show (!(MemDb.step F b O op d).1.poisoned) = true
  rw [h3]; rfl

/-- C01, C02, C05, C07-C09 by replies. -/
theorem C01_memory_any_observed : (memStoreAny b).CreateVertexSeen := (memAnyConforms b).createVertexSeen (memAny_alive b)

example := C01_memory_any_observed .debug _ W.any_reach W.look ⟨W.u 9, W.t⟩ W.look W.look

theorem C02_memory_any_observed : (memStoreAny b).CreateEdgeSeen := (memAnyConforms b).createEdgeSeen (memAny_alive b)

example := C02_memory_any_observed .debug _ W.any_reach W.look ⟨W.u 2, W.t, W.u 2⟩ W.look W.look

theorem C05_memory_any_observed : (memStoreAny b).DeleteVerticesSeen :=
  (memAnyConforms b).deleteVerticesSeen (memAny_alive b) rfl

example := C05_memory_any_observed .debug _ W.any_reach W.look (.specificVertex [W.u 2]) [⟨W.u 2, W.t2⟩] W.look W.look
  (by decide +kernel) (by decide +kernel)

theorem C07_memory_any_observed : (memStoreAny b).SetPropertiesSeen id :=
  (memAnyConforms b).setPropertiesSeen (memAny_alive b)

example := (C07_memory_any_observed .debug _ W.any_reach W.look .allEdge W.p (W.n 5) W.look W.look trivial (by decide +kernel)).2
  [W.e11, W.e12, W.e21] (by decide +kernel)

theorem C08_memory_any_observed : (memStoreAny b).DeletePropertiesSeen :=
  (memAnyConforms b).deletePropertiesSeen (memAny_alive b)

example := (C08_memory_any_observed .debug _ W.any_reach W.look (.pipeProperty .allVertex (some W.q)) W.look W.look
  (by decide +kernel)).1 [⟨⟨W.u 1, W.t⟩, [⟨W.q, W.n 1⟩]⟩, ⟨⟨W.u 2, W.t2⟩, [⟨W.q, W.n 1⟩]⟩] (by decide +kernel)

theorem C09_memory_any_observed : (memStoreAny b).DeleteEdgesSeen (fun _ _ _ => False) :=
  (memAnyConforms b).deleteEdgesSeen (memAny_alive b) _ (fun _ _ => true)
    (fun g es => by rw [List.filter_eq_self.2 (fun _ _ => rfl)]; rfl) (by simp)

example := C09_memory_any_observed .debug _ W.any_reach W.look (.pipe (.specificVertex [W.u 1]) .outbound 9 none) [W.e11, W.e12]
  W.look W.look (by decide +kernel) (by decide +kernel)

theorem C15_memory_any_observed : (memStoreAny b).IndexPropertySeen :=
  (memAnyConforms b).indexPropertySeen (memAny_alive b)

example := C15_memory_any_observed .debug _ W.any_reach W.look W.q W.look W.look

/-! ### Coherent values: lookups do not matter -/

/-- If `==` implies equal hash inputs for the values in a history, then its outcome does not depend on what lookups find:
it is that of hash maps that treat values as equal iff they are `==` and hash equally. -/
theorem memAny_coherent {V : Json → Prop} (hV : Coherent V) (hist : List ((Finder × HashOrder) × Op))
    (hh : ∀ p ∈ hist, p.2.All anyId V) :
    (memStoreAny b).run hist MemDb.new = (MS b).run (plain hist) MemDb.new ∧
    (memStoreAny b).replies hist MemDb.new = (MS b).replies (plain hist) MemDb.new :=
  ⟨(memAny_run_coherent _ hV hist hh _ tidy_empty).1, memAny_replies_coherent _ hV hist hh _ tidy_empty⟩

/-- Integers with integers, and floats other than `-0.0` with each other, are coherent (also inside arrays, objects). -/
theorem coherent_ints : Coherent (fun v => v.AllNums Num.IsInt) := fun a c ha hc h =>
  (C40_hash_partial _ (Or.inl rfl) a c ha hc).2 h

theorem coherent_floats : Coherent (fun v => v.AllNums Num.IsFloatNotNegZero) := fun a c ha hc h =>
  (C40_hash_partial _ (Or.inr rfl) a c ha hc).2 h

/-- What is true of C10: it holds, whatever lookups find, for histories and queries whose values are coherent. Missing:
values that are equal but hash differently, see `C10_memory_refuted`. -/
theorem C10_memory_partial {V : Json → Prop} (hV : Coherent V) (hist : List ((Finder × HashOrder) × Op))
    (hh : ∀ p ∈ hist, p.2.All anyId V) (hc : (memStoreAny .debug).CheckedHist .debug hist MemDb.new)
    (hal : (memStoreAny .debug).alive ((memStoreAny .debug).run hist MemDb.new) = true) :
    (memStoreAny .debug).IndexExactOn V Json.eq True ((memStoreAny .debug).run hist MemDb.new) := by
  obtain ⟨e, ht⟩ := memAny_run_coherent (b := .debug) HashEq.byHash hV hist hh MemDb.new tidy_empty
  have hc' := (memAny_checked_coherent (b := .debug) HashEq.byHash hV .debug hist hh MemDb.new tidy_empty).1 hc
  have hal' : (MS .debug).alive ((MS .debug).run (plain hist) MemDb.new) = true := by rw [← e]; exact hal
  have key := C10_memory_fixed_partial HashEq.byHash (plain hist) hc' hal'
  rw [e]
  generalize hd : (memStore HashEq.byHash .debug).run (plain hist) MemDb.new = d at *
  rintro ⟨F, O⟩ n hn
  obtain ⟨k1, k2, k3, k4⟩ := key O n hn
  have hval : ∀ {q : Query}, q.All anyId V → (memStoreAny .debug).value (F, O) q d = (MS .debug).value O q d :=
    fun hq => memAny_value_coherent hV ht F O hq
  refine ⟨?_, ?_, ?_, ?_⟩
  · rw [hval (q := .vertexWithPropertyPresence n) trivial]; exact k1
  · rw [hval (q := .edgeWithPropertyPresence n) trivial]; exact k2
  · intro x hx
    rw [hval (q := .vertexWithPropertyValue n x) ⟨trivial, hx⟩]
    obtain ⟨l, h1, h2, h3⟩ := k3 x
    refine ⟨l, h1, h2, fun v => (h3 v).trans (and_congr Iff.rfl (exists_congr fun w => and_congr_right fun hw => ?_))⟩
    rw [coherent_same HashEq.byHash hV (ht.vprops (v.id, n) w hw) hx]
  · intro x hx
    rw [hval (q := .edgeWithPropertyValue n x) ⟨trivial, hx⟩]
    obtain ⟨l, h1, h2, h3⟩ := k4 x
    refine ⟨l, h1, h2, fun v => (h3 v).trans (and_congr Iff.rfl (exists_congr fun w => and_congr_right fun hw => ?_))⟩
    rw [coherent_same HashEq.byHash hV (ht.eprops (v, n) w hw) hx]

example := C10_memory_partial coherent_ints W.mixed W.mixed_ok.1 W.mixed_ok.2.1 W.mixed_ok.2.2.2.2

/-- C11, the complete half, for coherent values and whatever lookups find. -/
theorem C11_memory_any_partial {V : Json → Prop} (hV : Coherent V) (hist : List ((Finder × HashOrder) × Op))
    (hh : ∀ p ∈ hist, p.2.All anyId V) (hc : (memStoreAny b).CheckedHist b hist MemDb.new)
    (hal : (memStoreAny b).alive ((memStoreAny b).run hist MemDb.new) = true) :
    (memStoreAny b).IndexCompleteOn V Json.eq ((memStoreAny b).run hist MemDb.new) := by
  obtain ⟨e, ht⟩ := memAny_run_coherent (b := b) HashEq.byHash hV hist hh MemDb.new tidy_empty
  have hc' := (memAny_checked_coherent (b := b) HashEq.byHash hV b hist hh MemDb.new tidy_empty).1 hc
  have hal' : (MS b).alive ((MS b).run (plain hist) MemDb.new) = true := by rw [← e]; exact hal
  have key := C11_memory_release_partial HashEq.byHash b (plain hist) hc' hal'
  rw [e]
  generalize hd : (memStore HashEq.byHash b).run (plain hist) MemDb.new = d at *
  rintro ⟨F, O⟩ n hn
  obtain ⟨k1, k2, k3, k4⟩ := key O n hn
  have hval : ∀ {q : Query}, q.All anyId V → (memStoreAny b).value (F, O) q d = (MS b).value O q d :=
    fun hq => memAny_value_coherent hV ht F O hq
  refine ⟨?_, ?_, ?_, ?_⟩
  · rw [hval (q := .vertexWithPropertyPresence n) trivial]; exact k1
  · rw [hval (q := .edgeWithPropertyPresence n) trivial]; exact k2
  · intro x hx
    rw [hval (q := .vertexWithPropertyValue n x) ⟨trivial, hx⟩]
    obtain ⟨l, h1, h2⟩ := k3 x
    refine ⟨l, h1, fun v hv => h2 v ⟨hv.1, ?_⟩⟩
    obtain ⟨w, hw, he⟩ := hv.2
    exact ⟨w, hw, (coherent_same HashEq.byHash hV (ht.vprops (v.id, n) w hw) hx).trans he⟩
  · intro x hx
    rw [hval (q := .edgeWithPropertyValue n x) ⟨trivial, hx⟩]
    obtain ⟨l, h1, h2⟩ := k4 x
    refine ⟨l, h1, fun v hv => h2 v ⟨hv.1, ?_⟩⟩
    obtain ⟨w, hw, he⟩ := hv.2
    exact ⟨w, hw, (coherent_same HashEq.byHash hV (ht.eprops (v, n) w hw) hx).trans he⟩

example := C11_memory_any_partial .debug coherent_ints W.mixed W.mixed_ok.1 W.mixed_ok.2.1 W.mixed_ok.2.2.2.2

/-- C35 for coherent values and whatever lookups find: as long as properties are only written to existing owners and
nobody creates the vertex with the greatest id, no call panics. Missing: the cases refuted by `C35_memory_refuted_max`,
`C35_memory_refuted_debug` and `C35_memory_refuted_lookup`. -/
theorem C35_memory_any_partial {V : Json → Prop} (hV : Coherent V) (hist : List ((Finder × HashOrder) × Op))
    (hh : ∀ p ∈ hist, p.2.All anyId V) (hc : (memStoreAny b).CheckedHist b hist MemDb.new)
    (ha : ∀ p ∈ hist, p.2.AvoidsMax) : (memStoreAny b).alive ((memStoreAny b).run hist MemDb.new) = true := by
  obtain ⟨e, _⟩ := memAny_run_coherent (b := b) HashEq.byHash hV hist hh MemDb.new tidy_empty
  have hc' := (memAny_checked_coherent (b := b) HashEq.byHash hV b hist hh MemDb.new tidy_empty).1 hc
  have := C35_memory_partial HashEq.byHash b (plain hist) hc' (by
    intro p hp
    obtain ⟨p', hp', rfl⟩ := List.mem_map.1 hp
    exact ha p' hp')
  rw [e]
  exact this

example := C35_memory_any_partial .debug coherent_ints W.mixed W.mixed_ok.1 W.mixed_ok.2.1 W.mixed_ok.2.2.2.1

/-- In release builds nothing but reading the properties of the vertex with the greatest id can panic, whatever the
values, lookups and owners. -/
theorem C35_memory_release_any_partial {d : MemDb} (hr : (memStoreAny .release).Reach d) (F : Finder) (O : HashOrder) (op : Op)
    (h : ((memStoreAny .release).step (F, O) op d).2 = .error .panic) : d.mem.graph.vertex Uuid.max ≠ none := by
  obtain ⟨hp, hi⟩ := memAny_reach hr
  have he := memStep_any (b := .release) hp F O op
  have h' : (dbStep (txn F O .release) op d.mem).2 = .error .panic := he.2.1.symm.trans h
  have F' := faithful (K := HashEq.byHash) F O d.mem hi
  rcases dbStep_any (b := .release) F O op d.mem hi with ⟨h1, _⟩ | ⟨_, h2, _⟩
  · have hq : ∀ q, eval (reads F O d.mem) q = .error .panic → d.mem.graph.vertex Uuid.max ≠ none := by
      intro q hq
      have := eval_answers F' q
      rw [hq] at this
      rcases answers_error q _ this _ rfl with h | h | ⟨_, x, hx, hxm⟩
      · exact absurd h (by simp)
      · exact absurd h (by simp)
      · simp only [memConv, decide_eq_true_eq] at hxm
        rw [← hxm, hx]; simp
    rw [h'] at h1
    cases op with
    | get q =>
      have h2 := h1.2
      cases hev : eval (reads F O d.mem) q with
      | ok p => rw [hev] at h2; exact absurd h2 (by simp [Except.map])
      | error f =>
        rw [hev] at h2
        cases f with
        | panic => exact hq q hev
        | err e => exact absurd h2 (by simp [Except.map])
    | delete q =>
      cases hev : eval (reads F O d.mem) q with
      | ok p =>
        simp only [StepWith, hev] at h1
        obtain ⟨inc, v⟩ := p
        cases v <;> exact absurd h1.2 (by simp)
      | error f =>
        simp only [StepWith, hev] at h1
        cases f with
        | panic => exact hq q hev
        | err e => exact absurd h1.2 (by simp)
    | setProperties q n x =>
      cases hev : eval (reads F O d.mem) q with
      | ok p =>
        simp only [StepWith, hev] at h1
        obtain ⟨inc, v⟩ := p
        cases v <;> exact absurd h1.2 (by simp)
      | error f =>
        simp only [StepWith, hev] at h1
        cases f with
        | panic => exact hq q hev
        | err e => exact absurd h1.2 (by simp)
    | sync => exact absurd h1.2 (by simp)
    | createVertex v => exact absurd h1.2 (by simp)
    | createVertexFromType id t => have := h1.2; split at this <;> exact absurd this (by simp)
    | createEdge e => exact absurd h1.2 (by simp)
    | bulkInsert items => exact absurd h1.2 (by simp)
    | indexProperty n => exact absurd h1.2 (by simp)
  · exact absurd h2 (by simp)

/-! ### Incoherent values: the index is wrong -/

namespace W
/-- Three vertices; the first two get `3` and `3.0`, then the index grows. -/
def growCalls : List Op :=
  [ .createVertex ⟨u 1, t⟩, .createVertex ⟨u 2, t⟩, .createVertex ⟨u 3, t⟩, .indexProperty p,
    .setProperties (.specificVertex [u 1]) p (n 3), .setProperties (.specificVertex [u 2]) p three,
    .setProperties (.specificVertex [u 3]) p (n 7) ]

def grow (F : Finder) : List ((Finder × HashOrder) × Op) := growCalls.map (fun o => ((F, HashOrder.sorted), o))
end W

/-- C10 fails if equal values hash differently: one and the same hash map may find `3` when asked for `3.0`, and no longer
do so after it has grown. Then the vertex whose value is exactly `3.0` is not found by a query for `3.0` - although the
history writes only to existing vertices, in a debug build - and is found by a query for `3`. -/
theorem C10_memory_refuted : ∃ F : Finder, (memStoreAny .debug).CheckedHist .debug (W.grow F) MemDb.new ∧
    (memStoreAny .debug).alive ((memStoreAny .debug).run (W.grow F) MemDb.new) = true ∧
    ((memStoreAny .debug).graph ((memStoreAny .debug).run (W.grow F) MemDb.new)).vprop (W.u 2) W.p = some W.three ∧
    (memStoreAny .debug).value (F, HashOrder.sorted) (.vertexWithPropertyValue W.p W.three)
      ((memStoreAny .debug).run (W.grow F) MemDb.new) = .ok (.vertices []) ∧
    (memStoreAny .debug).value (F, HashOrder.sorted) (.vertexWithPropertyValue W.p (W.n 3))
      ((memStoreAny .debug).run (W.grow F) MemDb.new) = .ok (.vertices [⟨W.u 1, W.t⟩, ⟨W.u 2, W.t⟩]) :=
  ⟨Finder.growing 2, ⟨trivial, trivial, trivial, trivial, Or.inl rfl, Or.inl rfl, Or.inl rfl, trivial⟩,
    by decide +kernel, by decide +kernel, by decide +kernel, by decide +kernel⟩

/-- In the same situation deleting the property, or the vertex, panics and takes the database down (debug builds). -/
theorem C35_memory_refuted_lookup : ∃ F : Finder, (memStoreAny .debug).CheckedHist .debug (W.grow F) MemDb.new ∧
    (∀ p ∈ W.grow F, p.2.AvoidsMax) ∧
    ((memStoreAny .debug).step (F, HashOrder.sorted) (.delete (.specificVertex [W.u 2]))
      ((memStoreAny .debug).run (W.grow F) MemDb.new)).2 = .error .panic := by
  refine ⟨Finder.growing 2, ⟨trivial, trivial, trivial, trivial, Or.inl rfl, Or.inl rfl, Or.inl rfl, trivial⟩, ?_,
    by decide +kernel⟩
  intro p hp
  simp only [W.grow, W.growCalls, List.map_cons, List.map_nil, List.mem_cons, List.not_mem_nil, or_false] at hp
  rcases hp with rfl | rfl | rfl | rfl | rfl | rfl | rfl
  · show W.u 1 ≠ Uuid.max; decide +kernel
  · show W.u 2 ≠ Uuid.max; decide +kernel
  · show W.u 3 ≠ Uuid.max; decide +kernel
  all_goals trivial

/-- In release builds the vertex with the greatest id really makes a read panic. -/
example : ((memStoreAny .release).step (Finder.byEq, HashOrder.sorted) (.get (.pipeProperty .allVertex none))
    ((memStoreAny .release).step (Finder.byEq, HashOrder.sorted) (.createVertex ⟨Uuid.max, W.t⟩) MemDb.new).1).2
    = .error .panic := by decide +kernel

end IndraDB
