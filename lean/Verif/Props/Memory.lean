import Verif.Props.Witness
import Verif.Proofs.MemoryStore
import Verif.Proofs.Uuid
import Verif.Spec.Checked
/-
The properties of the memory datastore. `K : HashEq` is the (unknown) behaviour of hash maps on JSON keys, `b : Build`
debug or release; theorems hold for all of them unless they say otherwise. Concrete examples use `HashEq.byHash`.
-/
set_option linter.unusedSimpArgs false
namespace IndraDB
open Mem

variable (K : HashEq) (b : Build)

/-- The memory datastore of the examples. -/
abbrev MS (b : Build) : Store := memStore HashEq.byHash b
/-- The state after the example history. -/
def W.demo (b : Build) : MemDb := (MS b).run W.hist MemDb.new

theorem W.demo_reach (b : Build) : (MS b).Reach (W.demo b) := ⟨W.hist, rfl, by cases b <;> decide +kernel, memStore_ok _⟩

/-- Nobody creates the vertex with the greatest id in the example history. -/
theorem W.hist_avoidsMax : ∀ p ∈ W.hist, p.2.AvoidsMax := by
  intro p hp
  simp only [W.hist, W.calls, List.map_cons, List.map_nil, List.mem_cons, List.not_mem_nil, or_false] at hp
  rcases hp with rfl | rfl | rfl | rfl | rfl | rfl | rfl | rfl | rfl | rfl
  · show W.u 1 ≠ Uuid.max; decide +kernel
  · show W.u 2 ≠ Uuid.max; decide +kernel
  all_goals trivial

/-! ### C01 -/

theorem C01_memory : (memStore K b).CreateVertexExact ∧ (memStore K b).CreateVertexFromTypeExact := by
  refine ⟨(memConforms K b).createVertex ?_, (memConforms K b).createVertexFromType⟩
  intro d hr O v
  obtain ⟨hp, _⟩ := memStore_reach hr
  obtain ⟨m, p⟩ := d
  simp only at hp; subst hp
  have hi : (MemDb.step K b O (.createVertex v) ⟨m, false⟩).1.mem.index K = m.index K := by
    rw [(memStep_eq rfl O _).1]
    simp only [dbStep, txn, Upd.map, createVertex]
    cases m.vertices.get v.id <;> rfl
  constructor
  · intro h
    have h' : m.vertices.get v.id ≠ none := h
    show (MemDb.step K b O (.createVertex v) ⟨m, false⟩).1 = _
    unfold MemDb.step
    simp only [Bool.false_eq_true, if_false, dbStep, txn, Upd.map, createVertex]
    cases hg : m.vertices.get v.id with
    | none => exact absurd hg h'
    | some t => rfl
  · intro O'
    constructor
    · intro n i _; exact congrArg (fun I => IndexView.vPresent I n i) hi
    · intro n x i _; exact congrArg (fun I => IndexView.vValue I n x i) hi
    · intro n i; exact congrArg (fun I => IndexView.ePresent I n i) hi
    · intro n x i; exact congrArg (fun I => IndexView.eValue I n x i) hi

/-- both outcomes happen, and the second one keeps the type -/
example : ((MS .debug).step HashOrder.sorted (.createVertex ⟨W.u 9, W.t⟩) (W.demo .debug)).2 = .ok (.bool true) ∧
    ((MS .debug).step HashOrder.sorted (.createVertex ⟨W.u 1, W.t2⟩) (W.demo .debug)).2 = .ok (.bool false) ∧
    ((MS .debug).graph ((MS .debug).step HashOrder.sorted (.createVertex ⟨W.u 1, W.t2⟩) (W.demo .debug)).1).vertex (W.u 1)
      = some W.t := by decide +kernel

/-! ### C02 -/

theorem C02_memory : (memStore K b).CreateEdgeExact := (memConforms K b).createEdge

example : ((MS .debug).step HashOrder.sorted (.createEdge ⟨W.u 2, W.t, W.u 2⟩) (W.demo .debug)).2 = .ok (.bool true) ∧
    ((MS .debug).step HashOrder.sorted (.createEdge ⟨W.u 2, W.t, W.u 3⟩) (W.demo .debug)).2 = .ok (.bool false) := by
  decide +kernel

theorem checkedHist_iff (hist : List (HashOrder × Op)) (d : MemDb) :
    (memStore K b).CheckedHist b hist d ↔ MemDb.CheckedRun K b hist d := by
  induction hist generalizing d with
  | nil => exact Iff.rfl
  | cons a r ih => exact and_congr Iff.rfl (ih _)

theorem cinv_of_checked {hist : List (HashOrder × Op)} (hc : (memStore K b).CheckedHist b hist MemDb.new)
    (hal : (memStore K b).alive ((memStore K b).run hist MemDb.new) = true) :
    MemDb.CInv K b ((memStore K b).run hist MemDb.new) := by
  have e : (memStore K b).run hist MemDb.new = MemDb.run K b hist MemDb.new := memStore_run hist _
  have hp : (MemDb.run K b hist MemDb.new).poisoned = false := by
    have := (memStore_reach (⟨hist, rfl, hal, memStore_ok hist⟩ : (memStore K b).Reach _)).1
    exact (congrArg MemDb.poisoned e).symm.trans this
  have := MemDb.cinv_reachable hist ((checkedHist_iff K b hist _).1 hc) hp
  exact (congrArg (MemDb.CInv K b) e).mpr this

/-! ### C03 -/

/-- What is true of C03: in every state, in debug and release builds, every edge in the answer of a query that does not
take edges from `EdgeWithPropertyPresence` has both endpoints (in particular `AllEdge`: the stored graph never dangles);
in debug builds and histories that write properties only to existing owners, this holds for every query. Missing:
`EdgeWithPropertyPresence` in general, see `C03_memory_refuted`. -/
theorem C03_memory_partial :
    (memStore K b).NoDanglingAnswers Query.LiveEdges ∧
    (∀ hist, (memStore K .debug).CheckedHist .debug hist MemDb.new →
      (memStore K .debug).alive ((memStore K .debug).run hist MemDb.new) = true →
      ∀ O q es, (memStore K .debug).value O q ((memStore K .debug).run hist MemDb.new) = .ok (.edges es) →
      ∀ e ∈ es, ((memStore K .debug).graph ((memStore K .debug).run hist MemDb.new)).vertex e.outboundId ≠ none ∧
        ((memStore K .debug).graph ((memStore K .debug).run hist MemDb.new)).vertex e.inboundId ≠ none) := by
  have ends : ∀ {g : Graph}, g.NoDangling → ∀ e, g.edge e = true →
      g.vertex e.outboundId ≠ none ∧ g.vertex e.inboundId ≠ none := by
    intro g h e he
    have := h e he
    simp only [Graph.hasEndpoints, Bool.and_eq_true, Option.isSome_iff_ne_none] at this
    exact this
  constructor
  · intro d hr O q hq es hv e he
    obtain ⟨inc, hev⟩ := (memConforms K b).value_ok hr hv
    have ha := (memConforms K b).answers hr O q
    rw [hev] at ha
    exact ends (memStore_reach hr).2.noDangling e
      (answers_edges_exist (fun n v e h => index_edge_exists n v e h) hq ha e he)
  · intro hist hc hal O q es hv e he
    have hr : (memStore K .debug).Reach ((memStore K .debug).run hist MemDb.new) := ⟨hist, rfl, hal, memStore_ok hist⟩
    obtain ⟨inc, hev⟩ := (memConforms K .debug).value_ok hr hv
    have ha := (memConforms K .debug).answers hr O q
    rw [hev] at ha
    have hci := cinv_of_checked K .debug hc hal
    refine ends hci.noDangling e (answers_edges_exist' (fun n v e h => index_edge_exists n v e h) ?_ ha e he)
    exact fun n e h => index_present_exists hci.wf.distinct (hci.wf.sound rfl) hci.noOrphans n e h

example := (C03_memory_partial HashEq.byHash .debug).1 _ (W.demo_reach .debug) HashOrder.sorted (.pipe .allVertex .outbound 9 none)
  (by trivial) [W.e11, W.e12, W.e21] (by decide +kernel) W.e12 (by decide +kernel)
example := (C03_memory_partial HashEq.byHash .debug).2 W.hist
  ⟨trivial, trivial, trivial, trivial, trivial, Or.inl rfl, trivial, Or.inl rfl, Or.inl rfl, Or.inl rfl, trivial⟩
  (by decide +kernel) HashOrder.sorted (.edgeWithPropertyPresence W.p) [W.e11, W.e12, W.e21] (by decide +kernel)

/-- C03 fails for `EdgeWithPropertyPresence`, in debug and release builds: bulk-inserting a property of an edge that does
not exist makes a query return that edge. -/
theorem C03_memory_refuted : ¬ (MS b).NoDanglingAnswers (fun _ => True) := by
  intro h
  let hist : List (HashOrder × Op) :=
    [(HashOrder.sorted, .indexProperty W.p), (HashOrder.sorted, .bulkInsert [.edgeProperty W.e12 W.p .null])]
  have := h ((MS b).run hist MemDb.new) ⟨hist, rfl, by cases b <;> decide +kernel, memStore_ok _⟩ HashOrder.sorted
    (.edgeWithPropertyPresence W.p) trivial [W.e12] (by cases b <;> decide +kernel) W.e12 (by simp)
  exact this.1 (by cases b <;> decide +kernel)

/-- In release builds it even fails in checked histories: the index keeps listing a deleted edge. -/
theorem C03_memory_release_refuted : ∃ hist, (MS .release).CheckedHist .release hist MemDb.new ∧
    (MS .release).value HashOrder.sorted (.edgeWithPropertyPresence W.p) ((MS .release).run hist MemDb.new)
      = .ok (.edges [W.e12]) ∧
    ((MS .release).graph ((MS .release).run hist MemDb.new)).vertex W.e12.outboundId = none := by
  refine ⟨[.createVertex ⟨W.u 1, W.t⟩, .createVertex ⟨W.u 2, W.t⟩, .createEdge W.e12, .indexProperty W.p,
    .setProperties .allEdge W.p .null, .delete .allVertex].map (fun o => (HashOrder.sorted, o)), ?_, by decide +kernel,
    by decide +kernel⟩
  exact ⟨trivial, trivial, trivial, trivial, Or.inr trivial, trivial, trivial⟩

/-- the hypotheses are met by a history with edges, and the answers are not empty -/
example : (MS .debug).CheckedHist .debug W.hist MemDb.new ∧
    (MS .debug).value HashOrder.sorted (.edgeWithPropertyPresence W.p) (W.demo .debug) = .ok (.edges [W.e11, W.e12, W.e21]) :=
  ⟨⟨trivial, trivial, trivial, trivial, trivial, Or.inl rfl, trivial, Or.inl rfl, Or.inl rfl, Or.inl rfl, trivial⟩,
    by decide +kernel⟩

/-! ### C04 -/

theorem C04_memory : (memStore K b).TraversalSymmetric := (memConforms K b).traversalSymmetric

example : (MS .debug).value HashOrder.sorted (.pipe (.specificVertex [W.u 1]) .outbound 9 none) (W.demo .debug)
      = .ok (.edges [W.e11, W.e12]) ∧
    (MS .debug).value HashOrder.sorted (.pipe (.specificVertex [W.u 2]) .inbound 9 none) (W.demo .debug)
      = .ok (.edges [W.e12]) := by decide +kernel

/-! ### C05 -/

theorem C05_memory : (memStore K b).DeleteVerticesIs Graph.dropVertices := (memConforms K b).deleteVertices

example : (MS .debug).value HashOrder.sorted (.specificVertex [W.u 2]) (W.demo .debug) = .ok (.vertices [⟨W.u 2, W.t2⟩]) ∧
    (MS .debug).value HashOrder.sorted .allEdge
      ((MS .debug).step HashOrder.sorted (.delete (.specificVertex [W.u 2])) (W.demo .debug)).1
      = .ok (.edges [W.e11]) := by decide +kernel

/-! ### C07, C08, C09 -/

theorem C07_memory : (memStore K b).SetPropertiesExact id ∧ (memStore K b).WrongValuesRejected :=
  ⟨(memConforms K b).setProperties, (memConforms K b).wrongValuesRejected⟩

/-- Setting a property of the three edges; a count is rejected. -/
example := (((C07_memory HashEq.byHash .debug).1 _ (W.demo_reach .debug) HashOrder.sorted .allEdge W.p (W.n 5) trivial
    (by decide +kernel)).2 [W.e11, W.e12, W.e21] (by decide +kernel)).1
example := ((C07_memory HashEq.byHash .debug).2 _ (W.demo_reach .debug) HashOrder.sorted (.count .allEdge)).1 3 (by decide +kernel)

theorem C08_memory : (memStore K b).DeletePropertiesExact := (memConforms K b).deleteProperties

/-- Deleting the properties `q` of both vertices, and the properties `p` of the three edges. -/
example := ((C08_memory HashEq.byHash .debug) _ (W.demo_reach .debug) HashOrder.sorted (.pipeProperty .allVertex (some W.q))
    (by decide +kernel)).1 [⟨⟨W.u 1, W.t⟩, [⟨W.q, W.n 1⟩]⟩, ⟨⟨W.u 2, W.t2⟩, [⟨W.q, W.n 1⟩]⟩] (by decide +kernel)
example := ((C08_memory HashEq.byHash .debug) _ (W.demo_reach .debug) HashOrder.sorted (.pipeProperty .allEdge none)
    (by decide +kernel)).2 [⟨W.e11, [⟨W.p, W.n 3⟩]⟩, ⟨W.e12, [⟨W.p, W.n 3⟩]⟩, ⟨W.e21, [⟨W.p, W.n 3⟩]⟩] (by decide +kernel)

theorem C09_memory : (memStore K b).DeleteEdgesIs Graph.dropEdges := (memConforms K b).deleteEdges

example := C09_memory HashEq.byHash .debug _ (W.demo_reach .debug) HashOrder.sorted (.pipe (.specificVertex [W.u 1]) .outbound 9 none)
  [W.e11, W.e12] (by decide +kernel) (by decide +kernel)

example : ((MS .debug).step HashOrder.sorted (.setProperties .allEdge W.p (W.n 5)) (W.demo .debug)).2 = .ok .unit ∧
    ((MS .debug).step HashOrder.sorted (.delete (.pipeProperty .allEdge none)) (W.demo .debug)).2 = .ok .unit ∧
    ((MS .debug).step HashOrder.sorted (.delete (.pipeProperty .allVertex (some W.q))) (W.demo .debug)).2 = .ok .unit ∧
    ((MS .debug).step HashOrder.sorted (.delete .allEdge) (W.demo .debug)).2 = .ok .unit := by decide +kernel

/-! ### C10, C11 -/

/-- C10. `K.same` is how the hash map of the index compares values: it implies `==` and holds for equal values that hash
equally (`HashEq.sound`, `HashEq.complete`). -/
theorem C10_memory_fixed_partial : ∀ hist, (memStore K .debug).CheckedHist .debug hist MemDb.new →
    (memStore K .debug).alive ((memStore K .debug).run hist MemDb.new) = true →
    (memStore K .debug).IndexExactAt K.same True ((memStore K .debug).run hist MemDb.new) := by
  intro hist hc hal
  have hr : (memStore K .debug).Reach ((memStore K .debug).run hist MemDb.new) := ⟨hist, rfl, hal, memStore_ok hist⟩
  have hci := cinv_of_checked K .debug hc hal
  refine (memConforms K .debug).indexExactAt hr (fun _ _ => trivial) ?_
  intro O n hn
  obtain ⟨x1, x2, x3, x4⟩ := index_exact hci.wf.distinct (hci.wf.sound rfl) hci.full hci.noOrphans n hn
  refine ⟨?_, ?_, ?_, ?_⟩
  · intro i hi
    show (Mem.index K _).vPresent n i = true ↔ _
    rw [x1]; simp only [Graph.exactIndex, Bool.and_eq_true, Option.isSome_iff_ne_none]
    exact ⟨fun h => h.2, fun h => ⟨hi, h⟩⟩
  · intro v i hi
    show (Mem.index K _).vValue n v i = true ↔ _
    rw [x2]; simp only [Graph.exactIndex, Bool.and_eq_true, Option.isSome_iff_ne_none]
    constructor
    · rintro ⟨_, h⟩
      cases hg : ((memStore K .debug).run hist MemDb.new).mem.graph.vprop i n with
      | none => rw [hg] at h; simp at h
      | some w => rw [hg] at h; exact ⟨w, hg, h⟩
    · rintro ⟨w, hw, h⟩
      refine ⟨hi, ?_⟩
      rw [show ((memStore K .debug).run hist MemDb.new).mem.graph.vprop i n = some w from hw]; exact h
  · intro e
    show (Mem.index K _).ePresent n e = true ↔ _
    rw [x3]; simp only [Graph.exactIndex, Bool.and_eq_true, Option.isSome_iff_ne_none]; rfl
  · intro v e
    show (Mem.index K _).eValue n v e = true ↔ _
    rw [x4]; simp only [Graph.exactIndex, Bool.and_eq_true]
    constructor
    · rintro ⟨h0, h⟩
      cases hg : ((memStore K .debug).run hist MemDb.new).mem.graph.eprop e n with
      | none => rw [hg] at h; simp at h
      | some w => rw [hg] at h; exact ⟨h0, w, hg, h⟩
    · rintro ⟨h0, w, hw, h⟩
      refine ⟨h0, ?_⟩
      rw [show ((memStore K .debug).run hist MemDb.new).mem.graph.eprop e n = some w from hw]; exact h

example := C10_memory_fixed_partial HashEq.byHash W.hist
  ⟨trivial, trivial, trivial, trivial, trivial, Or.inl rfl, trivial, Or.inl rfl, Or.inl rfl, Or.inl rfl, trivial⟩
  (by decide +kernel)

/-- What is true of C11: in release (and debug) builds and checked histories, index queries find all owners that have the
property (value). Missing: they may also return owners that no longer have it (`C11_memory_release_refuted`). -/
theorem C11_memory_release_partial : ∀ hist, (memStore K b).CheckedHist b hist MemDb.new →
    (memStore K b).alive ((memStore K b).run hist MemDb.new) = true →
    (memStore K b).IndexCompleteAt K.same ((memStore K b).run hist MemDb.new) := by
  intro hist hc hal
  have hr : (memStore K b).Reach ((memStore K b).run hist MemDb.new) := ⟨hist, rfl, hal, memStore_ok hist⟩
  have hci := cinv_of_checked K b hc hal
  refine (memConforms K b).indexCompleteAt hr ?_
  intro O n hn
  generalize (memStore K b).run hist MemDb.new = d at *
  have key : ∀ x w v, d.mem.prop x n = some w → K.same w v = true → d.mem.idx K n v x = true := by
    intro x w v hw hwv
    have h1 := hci.full n x w hn hw
    unfold idx at h1 ⊢
    cases hc : d.mem.propertyValues.get n with
    | none => rw [hc] at h1; simp at h1
    | some c => rw [hc] at h1; simp only at h1 ⊢; rw [← Container.idx_congr c hwv]; exact h1
  have keyL : ∀ x, d.mem.prop x n ≠ none → d.mem.listed n x = true := by
    intro x hx
    rw [listed_iff hci.wf.distinct]
    cases hp : d.mem.prop x n with
    | none => exact absurd hp hx
    | some w => exact ⟨w, key x w w hp (K.refl w)⟩
  refine ⟨fun i _ h => keyL (.inl i) h, ?_, fun e h => keyL (.inr e) h.2, ?_⟩
  · rintro v i _ ⟨w, hw, h⟩; exact key (.inl i) w v hw h
  · rintro v e ⟨h0, w, hw, h⟩
    show (d.mem.idx K n v (.inr e) && d.mem.edges.contains e) = true
    rw [key (.inr e) w v hw h]; exact h0

example := C11_memory_release_partial HashEq.byHash .release W.hist
  ⟨trivial, trivial, trivial, trivial, trivial, Or.inr trivial, trivial, Or.inr trivial, Or.inr trivial, Or.inr trivial, trivial⟩
  (by decide +kernel)

/-- C11 fails: in a release build, a deleted property is still found by presence and by value. -/
theorem C11_memory_release_refuted : ∃ hist, (MS .release).CheckedHist .release hist MemDb.new ∧
    (MS .release).alive ((MS .release).run hist MemDb.new) = true ∧
    ¬ (MS .release).IndexExactAt HashEq.byHash.same True ((MS .release).run hist MemDb.new) := by
  let hist : List (HashOrder × Op) := [Op.createVertex ⟨W.u 1, W.t⟩, .indexProperty W.p,
    .setProperties .allVertex W.p (W.n 1), .delete (.pipeProperty .allVertex none)].map (fun o => (HashOrder.sorted, o))
  refine ⟨hist, ⟨trivial, trivial, Or.inr trivial, trivial, trivial⟩, by decide +kernel, ?_⟩
  intro h
  obtain ⟨⟨l, h1, _, h2⟩, _⟩ := h HashOrder.sorted W.p (by decide +kernel)
  have h3 : (MS .release).value HashOrder.sorted (.vertexWithPropertyPresence W.p) ((MS .release).run hist MemDb.new)
    = .ok (.vertices [⟨W.u 1, W.t⟩]) := by decide +kernel
  rw [show (MS .release).value HashOrder.sorted (.vertexWithPropertyPresence W.p) ((MS .release).run hist MemDb.new)
    = .ok (.vertices l) from h1] at h3
  simp at h3
  have := ((h2 ⟨W.u 1, W.t⟩).1 (by rw [h3]; simp)).2
  exact this (by decide +kernel)

example : (MS .debug).value HashOrder.sorted (.vertexWithPropertyPresence W.p) (W.demo .debug)
      = .ok (.vertices [⟨W.u 1, W.t⟩]) ∧
    (MS .debug).value HashOrder.sorted (.vertexWithPropertyValue W.p (W.n 8)) (W.demo .debug)
      = .ok (.vertices [⟨W.u 1, W.t⟩]) ∧
    (MS .debug).value HashOrder.sorted (.vertexWithPropertyValue W.p (W.n 7)) (W.demo .debug) = .ok (.vertices []) ∧
    (MS .release).value HashOrder.sorted (.vertexWithPropertyValue W.p (W.n 7)) (W.demo .release)
      = .ok (.vertices [⟨W.u 1, W.t⟩]) := by decide +kernel

/-! ### C14, C15 -/

theorem C14_memory : (memStore K b).NotIndexedExact ∧ (memStore K b).NotIndexedPipedExact :=
  ⟨(memConforms K b).notIndexed (fun _ => rfl), (memConforms K b).notIndexedPiped (fun _ => rfl)⟩

example : (MS .debug).ask HashOrder.sorted (.vertexWithPropertyPresence W.p) (W.demo .debug)
      = .ok [.vertices [⟨W.u 1, W.t⟩]] ∧
    (MS .debug).ask HashOrder.sorted (.pipeWithPropertyPresence .allEdge W.q true) (W.demo .debug)
      = .error (.err .notIndexed) := by decide +kernel

theorem indexProperty_reach {d : MemDb} (hr : (memStore K b).Reach d) (O : HashOrder) (n : Identifier) :
    (memStore K b).Reach ((memStore K b).step O (.indexProperty n) d).1 ∧
    ((memStore K b).step O (.indexProperty n) d).1.mem = (Mem.indexProperty K O n d.mem).1 := by
  obtain ⟨hp, _⟩ := memStore_reach hr
  have he := memStep_eq (K := K) (b := b) hp O (.indexProperty n)
  have hm : (MemDb.step K b O (.indexProperty n) d).1.mem = (Mem.indexProperty K O n d.mem).1 := he.1
  refine ⟨?_, hm⟩
  refine hr.next O (.indexProperty n) trivial ?_
  show (!(MemDb.step K b O (.indexProperty n) d).1.poisoned) = true
  cases hq : (MemDb.step K b O (.indexProperty n) d).1.poisoned with
  | false => rfl
  | true =>
    have := he.2.2.1 hq
    simp [dbStep, txn, Upd.map, Mem.indexProperty, Except.map] at this

theorem C15_memory : (memStore K b).IndexPropertyExact ∧ (memStore K b).IndexPropertyCovers K.same := by
  constructor
  · refine (memConforms K b).indexProperty ?_ (fun d hr O n => (indexProperty_reach K b hr O n).1)
    intro d hr O O' n s' O''
    have h1 := indexProperty_reach K b hr O n
    have h2 := indexProperty_reach K b h1.1 O' n
    have hd := (memStore_reach hr).2.wf.distinct
    obtain ⟨hd1, hi1⟩ := indexProperty_idx (O := O) n d.mem hd
    obtain ⟨hd2, hi2⟩ := indexProperty_idx (O := O') n _ hd1
    show Mem.index K ((memStore K b).step O' (.indexProperty n) ((memStore K b).step O (.indexProperty n) d).1).1.mem =
      Mem.index K ((memStore K b).step O (.indexProperty n) d).1.mem
    rw [h2.2, h1.2]
    have hg : ((Mem.indexProperty K O n d.mem).1).graph = d.mem.graph.addIndex n := (indexProperty_eff (K := K) (b := b) n d.mem).2.1
    have hp : ∀ x, (Mem.indexProperty K O n d.mem).1.prop x n = d.mem.prop x n := by
      intro x; cases x <;> rfl
    have hidx : ∀ n' w x, (Mem.indexProperty K O' n (Mem.indexProperty K O n d.mem).1).1.idx K n' w x =
        (Mem.indexProperty K O n d.mem).1.idx K n' w x := by
      intro n' w x
      rw [Bool.eq_iff_iff, hi2]
      constructor
      · rintro (h | ⟨h1, h2, v, h3, h4⟩)
        · exact h
        · rw [hi1]; right; refine ⟨h1, ?_, v, (hp x).symm.trans h3, h4⟩
          cases x <;> (rw [hg] at h2; exact h2)
      · exact Or.inl
    have hl : ∀ n' x, (Mem.indexProperty K O' n (Mem.indexProperty K O n d.mem).1).1.listed n' x =
        (Mem.indexProperty K O n d.mem).1.listed n' x := by
      intro n' x
      rw [Bool.eq_iff_iff, listed_iff hd1, listed_iff hd2]
      simp only [hidx]
    unfold Mem.index
    simp only [hidx, hl]
    congr 1
  · intro d hr O O' n
    have h1 := indexProperty_reach K b hr O n
    have hd := (memStore_reach hr).2.wf.distinct
    obtain ⟨hd1, hi1⟩ := indexProperty_idx (O := O) n d.mem hd
    have hg : ((memStore K b).step O (.indexProperty n) d).1.mem.graph = d.mem.graph.addIndex n := by
      rw [h1.2]; exact (indexProperty_eff (K := K) (b := b) n d.mem).2.1
    have hin : ((memStore K b).graph ((memStore K b).step O (.indexProperty n) d).1).indexed n = true := by
      show ((memStore K b).step O (.indexProperty n) d).1.mem.graph.indexed n = true
      rw [hg]; simp [Graph.addIndex]
    have hv : ∀ w i v, d.mem.graph.vertex i ≠ none → d.mem.graph.vprop i n = some v → K.same v w = true →
        (Mem.indexProperty K O n d.mem).1.idx K n w (.inl i) = true :=
      fun w i v h1 h2 h3 => (hi1 n w (.inl i)).2 (Or.inr ⟨rfl, h1, v, h2, h3⟩)
    have hev : ∀ w e v, d.mem.graph.edge e = true → d.mem.graph.eprop e n = some v → K.same v w = true →
        (Mem.indexProperty K O n d.mem).1.idx K n w (.inr e) = true :=
      fun w e v h1 h2 h3 => (hi1 n w (.inr e)).2 (Or.inr ⟨rfl, h1, v, h2, h3⟩)
    have ans := (memConforms K b).answers h1.1 O'
    have hidx : (memStore K b).index O' ((memStore K b).step O (.indexProperty n) d).1 = (Mem.indexProperty K O n d.mem).1.index K := by
      show Mem.index K _ = _
      rw [h1.2]
    have hvert : ((memStore K b).graph ((memStore K b).step O (.indexProperty n) d).1).vertex = d.mem.graph.vertex := by
      show ((memStore K b).step O (.indexProperty n) d).1.mem.graph.vertex = _
      rw [hg]; rfl
    have someOf : ∀ {o : Option Json}, o ≠ none → ∃ v, o = some v := by
      intro o h; cases o with
      | none => exact absurd rfl h
      | some v => exact ⟨v, rfl⟩
    refine ⟨?_, ?_, ?_, ?_⟩
    · have := ans (.vertexWithPropertyPresence n)
      simp only [Answers] at this
      rw [if_pos hin] at this
      obtain ⟨l, hl, he⟩ := this
      refine ⟨_, by rw [(memConforms K b).value_eq h1.1, he]; rfl, ?_⟩
      intro v h2 h3
      rw [lookup_iff, hl.1, hidx, hvert]
      obtain ⟨w, hw⟩ := someOf h3
      exact ⟨(listed_iff hd1 n _).2 ⟨w, hv w v.id w (by rw [show d.mem.graph.vertex v.id = some v.t from h2]; simp) hw (K.refl w)⟩, h2⟩
    · have := ans (.edgeWithPropertyPresence n)
      simp only [Answers] at this
      rw [if_pos hin] at this
      obtain ⟨l, hl, he⟩ := this
      refine ⟨_, by rw [(memConforms K b).value_eq h1.1, he]; rfl, ?_⟩
      intro e h2 h3
      rw [hl.1, hidx]
      obtain ⟨w, hw⟩ := someOf h3
      exact (listed_iff hd1 n _).2 ⟨w, hev w e w h2 hw (K.refl w)⟩
    · intro x
      have := ans (.vertexWithPropertyValue n x)
      simp only [Answers] at this
      rw [if_pos hin] at this
      obtain ⟨l, hl, he⟩ := this
      refine ⟨_, by rw [(memConforms K b).value_eq h1.1, he]; rfl, ?_⟩
      intro v w h2 h3 h4
      rw [lookup_iff, hl.1, hidx, hvert]
      exact ⟨hv x v.id w (by rw [show d.mem.graph.vertex v.id = some v.t from h2]; simp) h3 h4, h2⟩
    · intro x
      have := ans (.edgeWithPropertyValue n x)
      simp only [Answers] at this
      rw [if_pos hin] at this
      obtain ⟨l, hl, he⟩ := this
      refine ⟨_, by rw [(memConforms K b).value_eq h1.1, he]; rfl, ?_⟩
      intro e w h2 h3 h4
      rw [hl.1, hidx]
      show ((Mem.indexProperty K O n d.mem).1.idx K n x (.inr e) && (Mem.indexProperty K O n d.mem).1.edges.contains e) = true
      rw [hev x e w h2 h3 h4]; exact h2

/-- a vertex and three edges had the property before it was (re-)indexed -/
example : ((MS .debug).graph (W.demo .debug)).vprop (W.u 1) W.q = some (W.n 1) ∧
    ((MS .debug).graph (W.demo .debug)).indexed W.q = false ∧
    (MS .debug).value HashOrder.sorted (.vertexWithPropertyValue W.q (W.n 1))
      ((MS .debug).step HashOrder.sorted (.indexProperty W.q) (W.demo .debug)).1
      = .ok (.vertices [⟨W.u 1, W.t⟩, ⟨W.u 2, W.t2⟩]) := by decide +kernel

/-! ### C16 - C25 -/

theorem C16_memory : (memStore K b).VertexQueriesExact ∧ (memStore K b).EdgeQueriesExact Order.lt :=
  ⟨(memConforms K b).vertexQueries, (memConforms K b).edgeQueries⟩

example : (MS .debug).ask HashOrder.sorted (.rangeVertex 1 (some W.t2) (some (W.u 1))) (W.demo .debug)
    = .ok [.vertices [⟨W.u 2, W.t2⟩]] := by decide +kernel

/-- The order of the edges at a vertex: by (out, type, in), for inbound traversals by (in, type, out). -/
theorem C17_memory : (memStore K b).PipeVerticesExact (fun d a b => match d with
    | .outbound => Order.lt a b
    | .inbound => Order.lt a.reversed b.reversed) := by
  intro s hr env inner vs hv d limit t
  obtain ⟨ea, h1, h2⟩ := (memConforms K b).pipeVertices s hr env inner vs hv d limit t
  exact ⟨ea, by intro id; have := h1 id; cases d <;> exact this, h2⟩

example : (MS .debug).value HashOrder.sorted (.pipe .allVertex .inbound 2 (some W.t)) (W.demo .debug)
    = .ok (.edges [W.e11, W.e12]) := by decide +kernel

theorem C18_memory : (memStore K b).PipeEdgesExact := (memConforms K b).pipeEdges

example : (MS .debug).value HashOrder.sorted (.pipe .allEdge .inbound 9 none) (W.demo .debug)
    = .ok (.vertices [⟨W.u 1, W.t⟩, ⟨W.u 2, W.t2⟩, ⟨W.u 1, W.t⟩]) := by decide +kernel

/-- Listing all properties of the vertex with the greatest id panics (C35); otherwise C19 holds. -/
theorem C19_memory : (memStore K b).PipePropertiesExact (fun id => id = Uuid.max) := by
  intro s hr env inner
  obtain ⟨h1, h2⟩ := (memConforms K b).pipeProperties s hr env inner
  refine ⟨fun vs hv => ⟨(h1 vs hv).1, fun hb => (h1 vs hv).2 ?_⟩, h2⟩
  intro v hv'
  simpa [memConv] using hb v hv'

example : (MS .debug).value HashOrder.sorted (.pipeProperty .allVertex none) (W.demo .debug)
    = .ok (.vertexProperties [⟨⟨W.u 1, W.t⟩, [⟨W.p, W.n 8⟩, ⟨W.q, W.n 1⟩]⟩, ⟨⟨W.u 2, W.t2⟩, [⟨W.q, W.n 1⟩]⟩]) := by
  decide +kernel

theorem C20_memory : (memStore K b).FiltersPartition := (memConforms K b).filtersPartition

example : (MS .debug).value HashOrder.sorted (.pipeWithPropertyPresence .allVertex W.p true) (W.demo .debug)
      = .ok (.vertices [⟨W.u 1, W.t⟩]) ∧
    (MS .debug).value HashOrder.sorted (.pipeWithPropertyPresence .allVertex W.p false) (W.demo .debug)
      = .ok (.vertices [⟨W.u 2, W.t2⟩]) := by decide +kernel

theorem C21_memory : (memStore K b).CountExact := (memConforms K b).countExact

example : (MS .debug).value HashOrder.sorted (.count .allEdge) (W.demo .debug) = .ok (.count 3) ∧
    (MS .debug).value HashOrder.sorted (.count (.count .allEdge)) (W.demo .debug) = .error (.err .operationOnQuery) := by
  decide +kernel

theorem C22_memory : (memStore K b).IncludeExact := (memConforms K b).includeExact

example : (MS .debug).ask HashOrder.sorted (.count (.pipe (.incl (.incl (.specificVertex [W.u 2]))) .outbound 5 none))
    (W.demo .debug) = .ok [.vertices [⟨W.u 2, W.t2⟩], .count 1] := by decide +kernel

theorem C23_memory : (memStore K b).BuiltQueriesWork := (memConforms K b).builtQueriesWork

example : (Query.count (.pipeProperty (.pipe .allVertex .outbound 5 none) none)).Built ∧
    (Query.pipe (.count .allVertex) .outbound 5 none).OnNonElements :=
  ⟨.count (.pipeProperty (.pipe .allVertex ⟨_, rfl⟩) ⟨_, rfl⟩) ⟨_, rfl⟩, Or.inl ⟨_, rfl⟩⟩

/-- A write of the memory datastore succeeds or panics. -/
theorem writes_noErr {α : Type} {φ : Graph → Graph} {m : Mem} {u : Upd Mem α} (h : Mem.Eff K b φ m u) (f : Fault)
    (hf : u.2 = .error f) : f = .panic := by
  rcases h.cases with ⟨a, ha, _⟩ | ⟨ha, _⟩
  · rw [hf] at ha; exact absurd ha (by simp)
  · rw [hf] at ha; exact Except.error.inj ha

theorem C24_memory : (memStore K b).ErrorsPure := by
  intro d hr O op e h
  obtain ⟨hp, _⟩ := memStore_reach hr
  have he := memStep_eq (K := K) (b := b) hp O op
  have h' : (dbStep (txn K O b) op d.mem).2 = .error (.err e) := he.2.1.symm.trans h
  have wr : ∀ {α : Type} {f : α → Reply} {φ : Graph → Graph} {u : Upd Mem α}, Mem.Eff K b φ d.mem u →
      (Upd.map f u).2 = .error (.err e) → False := by
    intro α f φ u hu hx
    have := writes_noErr K b hu (.err e) (map_error_iff.1 hx)
    exact absurd this (by simp)
  have hm : (dbStep (txn K O b) op d.mem).1 = d.mem := by
    cases op with
    | sync => rfl
    | createVertex v => exact absurd (wr (createVertex_eff v d.mem).1 h') (by simp)
    | createVertexFromType id t =>
      simp only [dbStep, dbCreateVertexFromType, txn, Upd.map, createVertex] at h' ⊢
      cases hg : d.mem.vertices.get id with
      | some t' => rfl
      | none => rw [hg] at h'; simp [Except.map] at h'
    | createEdge e' => exact absurd (wr (createEdge_eff e' d.mem).1 h') (by simp)
    | get q => rfl
    | delete q =>
      simp only [dbStep, dbDelete] at h' ⊢
      cases hl : lastOutput ((txn K O b).reads d.mem) q with
      | error f => simp only [Upd.map]
      | ok v =>
        rw [hl] at h'
        cases v with
        | vertices vs => exact absurd (wr (deleteVertices_eff vs d.mem) h') (by simp)
        | edges es => exact absurd (wr (deleteEdges_eff es d.mem) h') (by simp)
        | vertexProperties l => exact absurd (wr (deleteVertexProperties_eff _ d.mem) h') (by simp)
        | edgeProperties l => exact absurd (wr (deleteEdgeProperties_eff _ d.mem) h') (by simp)
        | count k => rfl
    | setProperties q n x =>
      simp only [dbStep, dbSetProperties] at h' ⊢
      cases hl : lastOutput ((txn K O b).reads d.mem) q with
      | error f => simp only [Upd.map]
      | ok v =>
        rw [hl] at h'
        cases v with
        | vertices vs => exact absurd (wr (setVertexProperties_eff _ n x d.mem) h') (by simp)
        | edges es => exact absurd (wr (setEdgeProperties_eff es n x d.mem) h') (by simp)
        | vertexProperties l => rfl
        | edgeProperties l => rfl
        | count k => rfl
    | bulkInsert items => exact absurd (wr (bulkInsert_eff items d.mem) h') (by simp)
    | indexProperty n => simp [dbStep, txn, Upd.map, Mem.indexProperty, Except.map] at h'
  have hq : (MemDb.step K b O op d).1.poisoned = false := by
    cases hq : (MemDb.step K b O op d).1.poisoned with
    | false => rfl
    | true => have := he.2.2.1 hq; rw [h'] at this; exact absurd this (by simp)
  show (MemDb.step K b O op d).1 = d
  cases hs : (MemDb.step K b O op d).1 with
  | mk m p =>
    have h1 := he.1; rw [hm, hs] at h1
    rw [hs] at hq
    simp only at h1 hq
    subst h1; subst hq
    cases d; simp only at hp; subst hp; rfl

example : ((MS .debug).step HashOrder.sorted (.delete (.pipeWithPropertyPresence .allVertex W.q true)) (W.demo .debug)).2
    = .error (.err .notIndexed) := by decide +kernel

theorem C25_memory : (memStore K b).ReadsPure := by
  intro d hr O q h
  obtain ⟨hp, _⟩ := memStore_reach hr
  have he := memStep_eq (K := K) (b := b) hp O (.get q)
  have hm : (MemDb.step K b O (.get q) d).1.mem = d.mem := he.1
  have hq : (MemDb.step K b O (.get q) d).1.poisoned = false := by
    cases hq : (MemDb.step K b O (.get q) d).1.poisoned with
    | false => rfl
    | true => exact absurd (he.2.1.trans (he.2.2.1 hq)) h
  show (MemDb.step K b O (.get q) d).1 = d
  cases hs : (MemDb.step K b O (.get q) d).1 with
  | mk m p =>
    rw [hs] at hm hq
    simp only at hm hq
    subst hm; subst hq
    cases d; simp only at hp; subst hp; rfl

example := C25_memory HashEq.byHash .debug _ (W.demo_reach .debug) HashOrder.sorted (.pipe .allVertex .outbound 9 none)
  (by decide +kernel)

/-! ### C37, C38, C50 -/

/-- C37: `next_uuid u` is the least id above `u`, and fails exactly if there is none. -/
theorem C37_next_uuid (u : Uuid) :
    (∀ w, nextUuid u = .ok w ↔ (Order.lt u w = true ∧ ∀ x, Order.lt u x = true → Order.lt x w = false)) ∧
    ((∃ e, nextUuid u = .error e) ↔ ∀ x, Order.lt u x = false) ∧
    (∀ e, nextUuid u = .error e → e = .cannotIncrementUuid) := by
  obtain ⟨h1, h2⟩ := nextUuid_spec u
  have cases_ : (∃ w, nextUuid u = .ok w) ∨ (nextUuid u = .error .cannotIncrementUuid) := by
    cases h : nextUuid u with
    | ok w => exact Or.inl ⟨w, rfl⟩
    | error e => right; unfold nextUuid at h; split at h <;> simp at h; rw [h]
  have ltF : ∀ a c : Uuid, Order.lt a c = false ↔ ¬ a.toNat < c.toNat := by
    intro a c; rw [← Uuid.lt_iff]; simp
  refine ⟨?_, ?_, ?_⟩
  · intro w
    rw [h1]
    constructor
    · intro h
      refine ⟨(Uuid.lt_iff _ _).2 (by omega), fun x hx => (ltF _ _).2 ?_⟩
      have := (Uuid.lt_iff _ _).1 hx
      omega
    · rintro ⟨h3, h4⟩
      have h5 := (Uuid.lt_iff _ _).1 h3
      rcases cases_ with ⟨w', hw'⟩ | hn
      · have h6 := (h1 w').1 hw'
        have := (ltF _ _).1 (h4 w' ((Uuid.lt_iff _ _).2 (by omega)))
        omega
      · have := h2.1 hn
        have := Uuid.toNat_lt w
        omega
  · constructor
    · rintro ⟨e, he⟩ x
      rw [ltF]
      rcases cases_ with ⟨w', hw'⟩ | hn
      · rw [hw'] at he; exact absurd he (by simp)
      · have := h2.1 hn
        have := Uuid.toNat_lt x
        omega
    · intro h
      rcases cases_ with ⟨w', hw'⟩ | hn
      · have h6 := (h1 w').1 hw'
        have := (ltF _ _).1 (h w')
        omega
      · exact ⟨_, hn⟩
  · intro e he
    rcases cases_ with ⟨w', hw'⟩ | hn
    · rw [hw'] at he; exact absurd he (by simp)
    · rw [hn] at he; exact (Except.error.inj he).symm

example : (nextUuid ⟨List.replicate 14 0 ++ [1, 255], by simp⟩).toOption
    = some ⟨List.replicate 14 0 ++ [2, 0], by simp⟩ := by
  decide +kernel

/-- The successor as the client uses it. -/
def nextId (u : Uuid) : Option Uuid := (nextUuid u).toOption

theorem nextId_spec (u : Uuid) : match nextId u with
    | some w => ∀ x, Order.lt x w = false ↔ Order.lt u x = true
    | none => ∀ x, Order.lt u x = false := by
  obtain ⟨h1, h2, _⟩ := C37_next_uuid u
  unfold nextId
  cases h : nextUuid u with
  | error e => exact h2.1 ⟨e, h⟩
  | ok w =>
    obtain ⟨h3, h4⟩ := (h1 w).1 h
    intro x
    constructor
    · intro hx
      cases hux : Order.lt u x with
      | true => rfl
      | false =>
        -- then x ≤ u < w
        rw [Order.lt_of_le_of_lt hux h3] at hx; exact absurd hx (by simp)
    · exact h4 x

theorem C38_memory : (memStore K b).PagingExact nextId :=
  (memConforms K b).paging nextId nextId_spec Uuid.not_lt_nil

example : (MS .debug).pages nextId (fun _ => HashOrder.sorted) 1 none (W.demo .debug) 3 Uuid.nil
    = [⟨W.u 1, W.t⟩, ⟨W.u 2, W.t2⟩] := by decide +kernel

theorem C50_memory : (memStore K b).LimitsMonotone := (memConforms K b).limitsMonotone

example : (MS .debug).value HashOrder.sorted (.pipe .allVertex .outbound 3 none) (W.demo .debug)
      = .ok (.edges [W.e11, W.e12, W.e21]) ∧
    (MS .debug).value HashOrder.sorted (.pipe .allVertex .outbound 2 none) (W.demo .debug)
      = .ok (.edges [W.e11, W.e12]) := by decide +kernel

/-! ### C35 -/

/-- What is true of C35: as long as properties are only written to existing owners and nobody creates the vertex with
the greatest id, no call ever panics and the database stays usable. Missing: the two cases refuted below. -/
theorem C35_memory_partial : ∀ hist, (memStore K b).CheckedHist b hist MemDb.new → (∀ p ∈ hist, p.2.AvoidsMax) →
    (memStore K b).alive ((memStore K b).run hist MemDb.new) = true := by
  intro hist hc ha
  have e : (memStore K b).run hist MemDb.new = MemDb.run K b hist MemDb.new := memStore_run hist _
  have := MemDb.no_panic hist MemDb.cinv_new rfl (by simp [MemDb.new, Mem.graph_empty, Graph.empty])
    ((checkedHist_iff K b hist _).1 hc) ha
  show (!((memStore K b).run hist MemDb.new).poisoned) = true
  rw [(congrArg MemDb.poisoned e).trans this]
  rfl

example := C35_memory_partial HashEq.byHash .release W.hist
  ⟨trivial, trivial, trivial, trivial, trivial, Or.inr trivial, trivial, Or.inr trivial, Or.inr trivial, Or.inr trivial, trivial⟩
  W.hist_avoidsMax

/-- Reading the properties of the vertex with the greatest id kills the database, for good. -/
theorem C35_memory_refuted_max (b : Build) : ∃ hist, (MS b).CheckedHist b hist MemDb.new ∧
    ∀ O op, ((MS b).step O op ((MS b).run hist MemDb.new)).2 = .error .panic := by
  let hist : List (HashOrder × Op) := [Op.createVertex ⟨Uuid.max, W.t⟩, .get (.pipeProperty .allVertex none)].map
    (fun o => (HashOrder.sorted, o))
  refine ⟨hist, ⟨trivial, trivial, trivial⟩, ?_⟩
  intro O op
  have : ((MS b).run hist MemDb.new).poisoned = true := by cases b <;> decide +kernel
  show (MemDb.step HashEq.byHash b O op _).2 = _
  rw [MemDb.step_poisoned O op this]

/-- In debug builds, overwriting a property that was set before its owner existed and before the name was indexed
panics. -/
theorem C35_memory_refuted_debug : ∃ hist, (∀ p ∈ hist, p.2.AvoidsMax) ∧
    ∀ O op, ((MS .debug).step O op ((MS .debug).run hist MemDb.new)).2 = .error .panic := by
  let hist : List (HashOrder × Op) := [Op.bulkInsert [.vertexProperty (W.u 1) W.p .null], .indexProperty W.p,
    .createVertex ⟨W.u 1, W.t⟩, .setProperties .allVertex W.p .null].map (fun o => (HashOrder.sorted, o))
  refine ⟨hist, ?_, ?_⟩
  · refine List.forall_mem_cons.2 ⟨?_, List.forall_mem_cons.2 ⟨trivial, List.forall_mem_cons.2 ⟨?_,
      List.forall_mem_cons.2 ⟨trivial, fun _ h => nomatch h⟩⟩⟩⟩
    · intro v hv; simp at hv
    · show W.u 1 ≠ Uuid.max; decide +kernel
  · intro O op
    have : ((MS .debug).run hist MemDb.new).poisoned = true := by decide +kernel
    show (MemDb.step HashEq.byHash .debug O op _).2 = _
    rw [MemDb.step_poisoned O op this]

end IndraDB
