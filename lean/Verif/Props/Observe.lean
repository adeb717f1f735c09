import Verif.Props.Rocks
import Verif.Proofs.Observe
/-
The properties of both datastores by replies alone (`Spec/Observe.lean`): nothing below depends on how the model's state
is read.
-/
set_option linter.unusedSimpArgs false
namespace IndraDB

section
variable (K : HashEq) (b : Build)

theorem memStore_alive : ∀ s, (memStore K b).Reach s → ∀ env op, op.ValuesOk (memStore K b).okValue →
    ((memStore K b).step env op s).2 ≠ .error .panic → (memStore K b).alive ((memStore K b).step env op s).1 = true := by
  intro d hr O op _ h
  obtain ⟨hp, _⟩ := memStore_reach hr
  have he := memStep_eq (K := K) (b := b) hp O op
  have h3 : (MemDb.step K b O op d).1.poisoned = false := by
    cases h' : (MemDb.step K b O op d).1.poisoned with
    | false => rfl
    | true => exact absurd (he.2.1.trans (he.2.2.1 h')) h
  show (!(MemDb.step K b O op d).1.poisoned) = true
  rw [h3]; rfl

/-- What can be reached can be reached as seen. -/
theorem Store.Reach.seen {S : Store} {s : S.State} (h : S.Reach s) (o : S.Env) : (S.observed o).Reach s := by
  obtain ⟨hist, h1, h2, h3⟩ := h
  exact ⟨hist, h1.trans (S.observed_run o hist _).symm, h2, h3⟩

theorem W.demo_seen_reach (b : Build) (o : HashOrder) : ((MS b).observed o).Reach (W.demo b) := (W.demo_reach b).seen o
theorem W.rdemo_seen_reach (b : Build) (o : IdentOrder) : ((RS b).observed o).Reach (W.rdemo b) := (W.rdemo_reach b).seen o

/-- C01, C02, C05, C07-C09, C15 for the memory datastore, by replies. -/
theorem C01_memory_observed : (memStore K b).CreateVertexSeen := (memConforms K b).createVertexSeen (memStore_alive K b)

example := C01_memory_observed HashEq.byHash .debug _ (W.demo_reach .debug) .sorted ⟨W.u 9, W.t⟩ .sorted .sorted

theorem C02_memory_observed : (memStore K b).CreateEdgeSeen := (memConforms K b).createEdgeSeen (memStore_alive K b)

example := C02_memory_observed HashEq.byHash .debug _ (W.demo_reach .debug) .sorted ⟨W.u 2, W.t, W.u 2⟩ .sorted .sorted

theorem C05_memory_observed : (memStore K b).DeleteVerticesSeen :=
  (memConforms K b).deleteVerticesSeen (memStore_alive K b) rfl

example := C05_memory_observed HashEq.byHash .debug _ (W.demo_reach .debug) .sorted (.specificVertex [W.u 2]) [⟨W.u 2, W.t2⟩]
  .sorted .sorted (by decide +kernel) (by decide +kernel)

theorem C07_memory_observed : (memStore K b).SetPropertiesSeen id :=
  (memConforms K b).setPropertiesSeen (memStore_alive K b)

example := (C07_memory_observed HashEq.byHash .debug _ (W.demo_reach .debug) .sorted .allEdge W.p (W.n 5) .sorted .sorted trivial
  (by decide +kernel)).2 [W.e11, W.e12, W.e21] (by decide +kernel)

theorem C08_memory_observed : (memStore K b).DeletePropertiesSeen :=
  (memConforms K b).deletePropertiesSeen (memStore_alive K b)

example := (C08_memory_observed HashEq.byHash .debug _ (W.demo_reach .debug) .sorted (.pipeProperty .allVertex (some W.q)) .sorted
  .sorted (by decide +kernel)).1 [⟨⟨W.u 1, W.t⟩, [⟨W.q, W.n 1⟩]⟩, ⟨⟨W.u 2, W.t2⟩, [⟨W.q, W.n 1⟩]⟩] (by decide +kernel)

theorem C09_memory_observed : (memStore K b).DeleteEdgesSeen (fun _ _ _ => False) :=
  (memConforms K b).deleteEdgesSeen (memStore_alive K b) _ (fun _ _ => true)
    (fun g es => by rw [List.filter_eq_self.2 (fun _ _ => rfl)]; rfl) (by simp)

example := C09_memory_observed HashEq.byHash .debug _ (W.demo_reach .debug) .sorted
  (.pipe (.specificVertex [W.u 1]) .outbound 9 none) [W.e11, W.e12] .sorted .sorted (by decide +kernel) (by decide +kernel)

theorem C15_memory_observed : (memStore K b).IndexPropertySeen :=
  (memConforms K b).indexPropertySeen (memStore_alive K b)

example := C15_memory_observed HashEq.byHash .debug _ (W.demo_reach .debug) .sorted W.q .sorted .sorted

/-- C10, by replies: the history is checked, and the index exact, with respect to what is seen. -/
theorem C10_memory_fixed_observed_partial (o : HashOrder) : ∀ hist : List (HashOrder × Op),
    ((memStore K .debug).observed o).CheckedHist .debug hist MemDb.new →
    (memStore K .debug).alive ((memStore K .debug).run hist MemDb.new) = true →
    ((memStore K .debug).observed o).IndexExactAt K.same True ((memStore K .debug).run hist MemDb.new) := by
  intro hist hc ha
  have h0 : (memStore K .debug).Reach MemDb.new := ⟨[], rfl, rfl, memStore_ok _⟩
  refine (memConforms K .debug).observed_indexExactAt o ⟨hist, rfl, ha, memStore_ok hist⟩
    (C10_memory_fixed_partial K hist ?_ ha)
  exact ((memStore K .debug).checkedHist_along .debug hist _).2 ((memConforms K .debug).along_observed o _
    (Op.checked_visible .debug) hist _ h0 (memStore_ok hist) ha
    ((((memStore K .debug).observed o).checkedHist_along .debug hist _).1 hc))

example := C10_memory_fixed_observed_partial HashEq.byHash .sorted W.hist
  ⟨trivial, trivial, trivial, trivial, trivial, .inl rfl, trivial, .inl rfl, .inl rfl, .inl rfl, trivial⟩ (by decide +kernel)

/-- C16-C18, by replies: what listings and traversals return is what is seen. -/
theorem C16_memory_observed (o : HashOrder) : ((memStore K b).observed o).VertexQueriesExact ∧
    ((memStore K b).observed o).EdgeQueriesExact Order.lt :=
  ⟨(memConforms K b).observed_vertexQueries o, (memConforms K b).observed_edgeQueries o (C16_memory K b).2⟩

example := (C16_memory_observed HashEq.byHash .debug .sorted).1 _ (W.demo_seen_reach .debug .sorted) .sorted

theorem C17_memory_observed (o : HashOrder) : ((memStore K b).observed o).PipeVerticesExact (fun d a b => match d with
    | .outbound => Order.lt a b
    | .inbound => Order.lt a.reversed b.reversed) :=
  (memConforms K b).observed_pipeVertices o (C17_memory K b)

example := C17_memory_observed HashEq.byHash .debug .sorted _ (W.demo_seen_reach .debug .sorted) .sorted .allVertex
  [⟨W.u 1, W.t⟩, ⟨W.u 2, W.t2⟩] (by decide +kernel) .inbound 2 (some W.t)

theorem C18_memory_observed (o : HashOrder) : ((memStore K b).observed o).PipeEdgesExact :=
  (memConforms K b).observed_pipeEdges o

example := C18_memory_observed HashEq.byHash .debug .sorted _ (W.demo_seen_reach .debug .sorted) .sorted .allEdge [W.e11, W.e12, W.e21]
  (by decide +kernel) .inbound 9 none

/-- The example history is checked as seen, and something is seen. -/
example : ((MS .debug).observed .sorted).CheckedHist .debug W.hist MemDb.new ∧
    (MS .debug).alive ((MS .debug).run W.hist MemDb.new) = true :=
  ⟨⟨trivial, trivial, trivial, trivial, trivial, .inl rfl, trivial, .inl rfl, .inl rfl, .inl rfl, trivial⟩,
    by decide +kernel⟩
example : (MS .debug).seesVertex .sorted (W.demo .debug) (W.u 1) = some W.t ∧
    (MS .debug).seesVertex .sorted (W.demo .debug) (W.u 9) = none ∧
    (MS .debug).seesEdge .sorted (W.demo .debug) W.e12 = true ∧
    (MS .debug).seesVProp .sorted (W.demo .debug) (W.u 1) W.p = some (W.n 8) ∧
    (MS .debug).seesEProp .sorted (W.demo .debug) W.e12 W.p = some (W.n 3) ∧
    (MS .debug).seesIndexed .sorted (W.demo .debug) W.p = true ∧
    (MS .debug).seesIndexed .sorted (W.demo .debug) W.q = false := by decide +kernel

end

section
open Rocks
variable (X : Cfg)

theorem C01_rocks_observed : (rocksStore X).CreateVertexSeen :=
  (conforms X).createVertexSeen (fun _ _ _ _ _ _ => rfl)

example := C01_rocks_observed (W.cfg .debug) _ (W.rdemo_reach .debug) .sorted ⟨W.u 9, W.t⟩ .sorted .sorted

theorem C02_rocks_observed : (rocksStore X).CreateEdgeSeen := (conforms X).createEdgeSeen (fun _ _ _ _ _ _ => rfl)

example := C02_rocks_observed (W.cfg .debug) _ (W.rdemo_reach .debug) .sorted ⟨W.u 2, W.t, W.u 2⟩ .sorted .sorted

/-- What is true of C06, by replies. Missing: the inbound edges stay. -/
theorem C06_rocks_observed_partial : (rocksStore X).DeleteVerticesSeenOut :=
  (conforms X).deleteVerticesSeenOut (fun _ _ _ _ _ _ => rfl) rfl

example := C06_rocks_observed_partial (W.cfg .debug) _ (W.rdemo_reach .debug) .sorted (.specificVertex [W.u 2]) [⟨W.u 2, W.t2⟩]
  .sorted .sorted (by decide +kernel) (by decide +kernel)

/-- What is true of C07, by replies, for values that can be read back. -/
theorem C07_rocks_observed_partial : (rocksStore X).SetPropertiesSeen X.stored :=
  (conforms X).setPropertiesSeen (fun _ _ _ _ _ _ => rfl)

example := (C07_rocks_observed_partial (W.cfg .debug) _ (W.rdemo_reach .debug) .sorted .allEdge W.p (W.n 5) .sorted .sorted
  (W.canRead (by simp [W.values])) (by decide +kernel)).2 [W.e11, W.e12, W.e21] (by decide +kernel)

theorem C08_rocks_observed : (rocksStore X).DeletePropertiesSeen :=
  (conforms X).deletePropertiesSeen (fun _ _ _ _ _ _ => rfl)

example := (C08_rocks_observed (W.cfg .debug) _ (W.rdemo_reach .debug) .sorted (.pipeProperty .allVertex (some W.q)) .sorted
  .sorted (by decide +kernel)).1 [⟨⟨W.u 1, W.t⟩, [⟨W.q, W.n 1⟩]⟩, ⟨⟨W.u 2, W.t2⟩, [⟨W.q, W.n 1⟩]⟩] (by decide +kernel)

/-- What is true of C09, by replies: edges without outbound vertex are skipped. -/
theorem C09_rocks_observed_partial :
    (rocksStore X).DeleteEdgesSeen (fun env s e => (rocksStore X).seesVertex env s e.outboundId = none) :=
  (conforms X).deleteEdgesSeen (fun _ _ _ _ _ _ => rfl) _ (fun g e => (g.vertex e.outboundId).isSome) (fun _ _ => rfl)
    (fun s hr env e => by rw [(conforms X).seesVertex hr]; cases ((rocksStore X).graph s).vertex e.outboundId <;> simp)

example := C09_rocks_observed_partial (W.cfg .debug) _ (W.rdemo_reach .debug) .sorted
  (.pipe (.specificVertex [W.u 1]) .outbound 9 none) [W.e11, W.e12] .sorted .sorted (by decide +kernel) (by decide +kernel)

theorem C15_rocks_observed : (rocksStore X).IndexPropertySeen :=
  (conforms X).indexPropertySeen (fun _ _ _ _ _ _ => rfl)

example := C15_rocks_observed (W.cfg .debug) _ (W.rdemo_reach .debug) .sorted W.q .sorted .sorted

/-- C06 fails, by replies. -/
theorem C06_rocks_observed_refuted : ¬ (rocksStore X).DeleteVerticesSeen := by
  intro h
  let hist := W.calm [.createVertex ⟨W.u 1, W.t⟩, .createVertex ⟨W.u 2, W.t⟩, .createEdge W.e12]
  have hr : (rocksStore X).Reach ((rocksStore X).run hist Rocks.init) :=
    ⟨hist, rfl, rfl, List.forall_mem_cons.2 ⟨trivial, List.forall_mem_cons.2 ⟨trivial, List.forall_mem_cons.2 ⟨trivial,
      fun _ h => nomatch h⟩⟩⟩⟩
  have hv : (rocksStore X).value .sorted (.specificVertex [W.u 2]) ((rocksStore X).run hist Rocks.init)
      = .ok (.vertices [⟨W.u 2, W.t⟩]) := by
    obtain ⟨H, c, b⟩ := X; cases b <;> kernel_rfl
  have hp : ((rocksStore X).step .sorted (.delete (.specificVertex [W.u 2])) ((rocksStore X).run hist Rocks.init)).2
      = .ok .unit := by
    obtain ⟨H, c, b⟩ := X; cases b <;> kernel_rfl
  have h1 := ((h _ hr .sorted _ _ .sorted .sorted hv (by rw [hp]; simp)).2.2.2.1 W.e12 (Or.inr ⟨⟨W.u 2, W.t⟩, by simp, rfl⟩)).1
  have h2 : (rocksStore X).seesEdge .sorted ((rocksStore X).step .sorted (.delete (.specificVertex [W.u 2]))
      ((rocksStore X).run hist Rocks.init)).1 W.e12 = true := by
    obtain ⟨H, c, b⟩ := X; cases b <;> kernel_rfl
  rw [h1] at h2
  exact absurd h2 (by simp)

/-- C12, by replies. -/
theorem C12_rocks_observed (o : IdentOrder) : ∀ hist : List (IdentOrder × Op), (rocksStore X).OkHist hist →
    ((rocksStore X).observed o).Along (fun g op => op.IndexSafe X g) hist Rocks.init →
    ((rocksStore X).observed o).IndexExactAt (fun w x => X.H w.stream == X.H x.stream) True
      ((rocksStore X).run hist Rocks.init) := by
  intro hist ho ha
  have h0 : (rocksStore X).Reach Rocks.init := ⟨[], rfl, rfl, fun _ h => nomatch h⟩
  exact (conforms X).observed_indexExactAt o ⟨hist, rfl, rfl, ho⟩ (C12_rocks X hist ho
    ((conforms X).along_observed o _ (Op.indexSafe_visible X) hist _ h0 ho rfl ha))

/-- The example history keeps to it, as seen. -/
example := C12_rocks_observed (W.cfg .debug) .sorted (W.calm W.calls) (W.okCalls .debug _ W.calls_ok)
  (by
    have h : ∀ k, W.n k ∈ W.values → SameHash (W.cfg .debug) (W.n k) := by
      intro k hk
      show Sip.hash ((W.codec.dec (W.codec.enc (W.n k))).getD .null).stream = _
      rw [W.codec_values _ hk]; rfl
    exact ⟨trivial, trivial, trivial, trivial, trivial, h 7 (by simp [W.values]), trivial, h 1 (by simp [W.values]),
      h 3 (by simp [W.values]), h 8 (by simp [W.values]), trivial⟩)

theorem C16_rocks_observed (o : IdentOrder) : ((rocksStore X).observed o).VertexQueriesExact ∧
    ((rocksStore X).observed o).EdgeQueriesExact rocksEdgeLt :=
  ⟨(conforms X).observed_vertexQueries o, (conforms X).observed_edgeQueries o (C16_rocks X).2⟩

example := (C16_rocks_observed (W.cfg .debug) .sorted).1 _ (W.rdemo_seen_reach .debug .sorted) .sorted

theorem C17_rocks_observed (o : IdentOrder) : ((rocksStore X).observed o).PipeVerticesExact (fun d a b => match d with
    | .outbound => rocksEdgeLt a b
    | .inbound => rocksEdgeLt a.reversed b.reversed) :=
  (conforms X).observed_pipeVertices o (C17_rocks X)

example := C17_rocks_observed (W.cfg .debug) .sorted _ (W.rdemo_seen_reach .debug .sorted) .sorted .allVertex
  [⟨W.u 1, W.t⟩, ⟨W.u 2, W.t2⟩] (by decide +kernel) .inbound 2 (some W.t)

theorem C18_rocks_observed (o : IdentOrder) : ((rocksStore X).observed o).PipeEdgesExact :=
  (conforms X).observed_pipeEdges o

example := C18_rocks_observed (W.cfg .debug) .sorted _ (W.rdemo_seen_reach .debug .sorted) .sorted .allEdge [W.e11, W.e12, W.e21]
  (by decide +kernel) .inbound 9 none

example : (RS .debug).seesVertex .sorted (W.rdemo .debug) (W.u 1) = some W.t ∧
    (RS .debug).seesVertex .sorted (W.rdemo .debug) (W.u 9) = none ∧
    (RS .debug).seesEdge .sorted (W.rdemo .debug) W.e12 = true ∧
    (RS .debug).seesVProp .sorted (W.rdemo .debug) (W.u 1) W.p = some (W.n 8) ∧
    (RS .debug).seesEProp .sorted (W.rdemo .debug) W.e12 W.p = some (W.n 3) ∧
    (RS .debug).seesIndexed .sorted (W.rdemo .debug) W.p = true ∧
    (RS .debug).seesIndexed .sorted (W.rdemo .debug) W.q = false := by decide +kernel

end
end IndraDB
