import Verif.Props.RocksWitness
import Verif.Props.Memory
/-
The properties of the RocksDB datastore, used by one caller at a time. `X : Cfg` is the hash function, the JSON codec and
the build; the theorems hold for all of them unless they say otherwise. `rocksStore X` restricts histories to values that
can be read back (`Rocks.CanRead`); what happens otherwise is in `C07_rocks_refuted` and `C24_rocks_refuted`.
-/
set_option linter.unusedSimpArgs false
namespace IndraDB
open Rocks

variable (X : Cfg)

/-- The RocksDB datastore of the examples. -/
abbrev RS (b : Build) : Store := rocksStore (W.cfg b)
/-- Calls with sorted hash iteration. -/
def W.calm (l : List Op) : List (IdentOrder × Op) := l.map (fun o => (IdentOrder.sorted, o))
/-- The state after the example history. -/
def W.rdemo (b : Build) : Rocks := (RS b).run (W.calm W.calls) Rocks.init

/-- Values of the example can be read back. -/
theorem W.canRead {b : Build} {v : Json} (h : v ∈ W.values) : CanRead (W.cfg b) v := ⟨v, W.codec_values v h⟩

/-- Histories all values of which are in `W.values`. -/
theorem W.okCalls (b : Build) (l : List Op) (h : ∀ o ∈ l, o.ValuesOk (· ∈ W.values)) : (RS b).OkHist (W.calm l) := by
  intro p hp
  obtain ⟨o, ho, rfl⟩ := List.mem_map.1 hp
  have := h o ho
  cases o with
  | setProperties q n x => exact W.canRead this
  | bulkInsert items =>
    intro i hi
    have := this i hi
    cases i <;> first | exact trivial | exact W.canRead this
  | _ => trivial

theorem W.calls_ok : ∀ o ∈ W.calls, o.ValuesOk (· ∈ W.values) := by
  have h : ∀ k, n k ∈ W.values → ∀ q i, (Op.setProperties q i (n k)).ValuesOk (· ∈ W.values) := fun _ h _ _ => h
  refine List.forall_mem_cons.2 ⟨trivial, List.forall_mem_cons.2 ⟨trivial, List.forall_mem_cons.2 ⟨trivial,
    List.forall_mem_cons.2 ⟨trivial, List.forall_mem_cons.2 ⟨trivial, List.forall_mem_cons.2 ⟨?_,
    List.forall_mem_cons.2 ⟨trivial, List.forall_mem_cons.2 ⟨?_, List.forall_mem_cons.2 ⟨?_,
    List.forall_mem_cons.2 ⟨?_, fun _ h => nomatch h⟩⟩⟩⟩⟩⟩⟩⟩⟩⟩
  · exact h 7 (by simp [W.values]) _ _
  · exact h 1 (by simp [W.values]) _ _
  · exact h 3 (by simp [W.values]) _ _
  · exact h 8 (by simp [W.values]) _ _

theorem W.rdemo_reach (b : Build) : (RS b).Reach (W.rdemo b) := ⟨W.calm W.calls, rfl, rfl, W.okCalls b _ W.calls_ok⟩

/-! ### C01, C02, C04 -/

theorem createVertex_same (s : Rocks) (hw : Wf X s.kv) (O : IdentOrder) (v : Vertex) :
    ((graph X s).vertex v.id ≠ none → (Rocks.step X O (.createVertex v) s).1 = s) ∧
    (Rocks.index X s).SameExcept v.id (Rocks.index X (Rocks.step X O (.createVertex v) s).1) := by
  have he : (Rocks.step X O (.createVertex v) s).1 = ((createVertex X v).run s).1 := rfl
  rw [he, createVertex_eq]
  constructor
  · intro h
    have hx : (s.kv .vertices).contains (vertexKey X v.id) = true := by
      rw [vertex_isSome s hw, Option.isSome_iff_ne_none]; exact h
    rw [if_pos hx]
  · by_cases hx : (s.kv .vertices).contains (vertexKey X v.id) = true
    · rw [if_pos hx]
      exact ⟨fun _ _ _ => rfl, fun _ _ _ _ => rfl, fun _ _ => rfl, fun _ _ _ => rfl⟩
    · rw [if_neg hx]
      have hv : ∀ i, i ≠ v.id → ((s.kv.write (vertexCreate X v)) .vertices).contains (vertexKey X i) =
          (s.kv .vertices).contains (vertexKey X i) := by
        intro i hne
        have hk : vertexKey X i ≠ vertexKey X v.id := by
          intro h; exact hne (Uuid.inj (by simpa [vertexKey, build, Component.bytes] using h))
        show ((s.kv.set .vertices ((s.kv .vertices).insert (vertexKey X v.id) _)) .vertices).contains _ = _
        simp only [KV.set, if_true]
        rw [SMap.contains, SMap.contains, SMap.get_insert, if_neg hk]
      refine ⟨?_, ?_, fun _ _ => rfl, fun _ _ _ => rfl⟩
      · intro n i hne
        show (listed (s.kv .vertexPropertyValues) n i.bytes && _) = (listed (s.kv .vertexPropertyValues) n i.bytes && _)
        rw [hv i hne]
      · intro n x i hne
        show (vEntry s n (X.H x.stream) i && _) = (vEntry s n (X.H x.stream) i && _)
        rw [hv i hne]

theorem C01_rocks : (rocksStore X).CreateVertexExact ∧ (rocksStore X).CreateVertexFromTypeExact :=
  ⟨(conforms X).createVertex (fun s hr O v => ⟨(createVertex_same X s (inv_reach hr).wf O v).1, fun _ => (createVertex_same X s (inv_reach hr).wf O v).2⟩),
    (conforms X).createVertexFromType⟩

example : ((RS .debug).step .sorted (.createVertex ⟨W.u 9, W.t⟩) (W.rdemo .debug)).2 = .ok (.bool true) ∧
    ((RS .debug).step .sorted (.createVertex ⟨W.u 1, W.t2⟩) (W.rdemo .debug)).2 = .ok (.bool false) := by decide +kernel

theorem C02_rocks : (rocksStore X).CreateEdgeExact := (conforms X).createEdge

example : ((RS .debug).step .sorted (.createEdge ⟨W.u 2, W.t, W.u 2⟩) (W.rdemo .debug)).2 = .ok (.bool true) ∧
    ((RS .debug).step .sorted (.createEdge ⟨W.u 2, W.t, W.u 3⟩) (W.rdemo .debug)).2 = .ok (.bool false) := by
  decide +kernel

theorem C04_rocks : (rocksStore X).TraversalSymmetric := (conforms X).traversalSymmetric

example : (RS .debug).value .sorted (.pipe (.specificVertex [W.u 1]) .outbound 9 none) (W.rdemo .debug)
      = .ok (.edges [W.e11, W.e12]) ∧
    (RS .debug).value .sorted (.pipe (.specificVertex [W.u 2]) .inbound 9 none) (W.rdemo .debug)
      = .ok (.edges [W.e12]) := by decide +kernel

/-! ### C06 -/

/-- What deleting vertices does: everything the intended cascade does, except that the inbound edges of the deleted
vertices (and their properties) stay. Missing: those; see `C06_rocks_refuted`. -/
theorem C06_rocks_partial : (rocksStore X).DeleteVerticesIs Graph.rocksDropVertices := (conforms X).deleteVertices

example := C06_rocks_partial (W.cfg .debug) _ (W.rdemo_reach .debug) .sorted (.specificVertex [W.u 2]) [⟨W.u 2, W.t2⟩]
  (by decide +kernel) (by decide +kernel)

/-- C06 fails whatever the hash and the codec: after deleting a vertex, its inbound edge is still listed. -/
theorem C06_rocks_refuted : ¬ (rocksStore X).DeleteVerticesIs Graph.dropVertices := by
  intro h
  let hist := W.calm [.createVertex ⟨W.u 1, W.t⟩, .createVertex ⟨W.u 2, W.t⟩, .createEdge W.e12]
  have hr : (rocksStore X).Reach ((rocksStore X).run hist Rocks.init) :=
    ⟨hist, rfl, rfl, List.forall_mem_cons.2 ⟨trivial, List.forall_mem_cons.2 ⟨trivial, List.forall_mem_cons.2 ⟨trivial,
      fun _ h => nomatch h⟩⟩⟩⟩
  have hv : (rocksStore X).value .sorted (.specificVertex [W.u 2]) ((rocksStore X).run hist Rocks.init)
      = .ok (.vertices [⟨W.u 2, W.t⟩]) := by
    obtain ⟨H, c, b⟩ := X; cases b <;> kernel_rfl
  have hp : ((rocksStore X).step .sorted (.delete (.specificVertex [W.u 2])) ((rocksStore X).run hist Rocks.init)).2
      = .ok .unit := by
    obtain ⟨H, c, b⟩ := X; cases b <;> kernel_rfl
  have h1 := (h _ hr .sorted _ _ hv (by rw [hp]; simp)).2
  have h2 : ((rocksStore X).graph ((rocksStore X).step .sorted (.delete (.specificVertex [W.u 2]))
      ((rocksStore X).run hist Rocks.init)).1).edge W.e12 = true := by
    obtain ⟨H, c, b⟩ := X; cases b <;> kernel_rfl
  rw [h1] at h2
  exact absurd h2 (by simp [Graph.dropVertices, W.e12, Graph.touches])

example : (RS .debug).value .sorted .allEdge
      ((RS .debug).step .sorted (.delete (.specificVertex [W.u 2])) (W.rdemo .debug)).1
      = .ok (.edges [W.e11, W.e12]) ∧
    (RS .debug).value .sorted .allVertex
      ((RS .debug).step .sorted (.delete (.specificVertex [W.u 2])) (W.rdemo .debug)).1
      = .ok (.vertices [⟨W.u 1, W.t⟩]) := by decide +kernel

/-! ### C07, C08, C09 -/

/-- What is true of C07: setting a property changes exactly the given owners, for values that can be read back; later
reads give the value as read back (`Cfg.stored`). Missing: values that cannot be read back (`C07_rocks_refuted`). -/
theorem C07_rocks_partial : (rocksStore X).SetPropertiesExact X.stored ∧ (rocksStore X).WrongValuesRejected :=
  ⟨(conforms X).setProperties, (conforms X).wrongValuesRejected⟩

/-- Setting a property of the three edges; a count is rejected. -/
example := ((C07_rocks_partial (W.cfg .debug)).1 _ (W.rdemo_reach .debug) .sorted .allEdge W.p (W.n 5)
  (W.canRead (by simp [W.values])) (by decide +kernel)).2 [W.e11, W.e12, W.e21] (by decide +kernel)
example := ((C07_rocks_partial (W.cfg .debug)).2 _ (W.rdemo_reach .debug) .sorted (.count .allEdge)).1 3 (by decide +kernel)

theorem ask_rocks (V : Json → Prop) (O : IdentOrder) (q : Query) (s : Rocks) :
    (rocksStoreOf X V).ask O q s = (eval (reads X s) q).map (fun p => p.1 ++ [p.2]) := by
  unfold Store.ask
  have h : ((rocksStoreOf X V).step O (.get q) s).2 = (getQuery (reads X s) q).map Reply.outputs := rfl
  rw [h, getQuery_eq]
  cases eval (reads X s) q <;> rfl

theorem eval_prop_fail (R : Reads) (v : Vertex) (n : Identifier) (f : Fault)
    (h1 : R.specificVertices [v.id] = .ok [.ok v]) (h2 : R.vertexProperty v n = .error f) :
    eval R (.pipeProperty (.specificVertex [v.id]) (some n)) = .error f := by
  have he : eval R (.specificVertex [v.id]) = .ok ([], .vertices [v]) := by
    simp only [eval]; rw [h1]; rfl
  have hp : pipeVertexProps R (some n) [v] = .error f := by
    simp only [pipeVertexProps, ownerProps]; rw [h2]; rfl
  show evalStage _ (eval R (.specificVertex [v.id])) _ = _
  rw [he]
  simp only [evalStage, stageProperty]
  rw [hp]; rfl

theorem vpGet_bad {s : Rocks} {i : Uuid} {n : Identifier} {v : Json} (hd : X.codec.dec (X.codec.enc v) = none)
    (h : (s.kv .vertexProperties).get (vpKey X i n) = some (X.codec.enc v)) :
    (vpGet X i n).run s = (s, .error (.err .datastore)) := by
  unfold vpGet
  rw [Prog.run_bind_ok (a := some (X.codec.enc v)) (s' := s) (by show (s, _) = _; rw [h])]
  simp only [fromSlice, hd]
  rfl

/-- C07 fails for values that cannot be read back (with the real `serde_json`: nested more than 127 levels deep): setting
the property succeeds, and reading it fails from then on. -/
theorem C07_rocks_refuted (v : Json) (hv : ¬ CanRead X v) :
    let S := rocksStoreOf X (fun _ => True)
    let s := S.run (W.calm [.createVertex ⟨W.u 1, W.t⟩]) Rocks.init
    S.Reach s ∧ S.value .sorted (.specificVertex [W.u 1]) s = .ok (.vertices [⟨W.u 1, W.t⟩]) ∧
    (S.step .sorted (.setProperties (.specificVertex [W.u 1]) W.p v) s).2 = .ok .unit ∧
    S.ask .sorted (.pipeProperty (.specificVertex [W.u 1]) (some W.p))
      (S.step .sorted (.setProperties (.specificVertex [W.u 1]) W.p v) s).1 = .error (.err .datastore) := by
  intro S s
  have hd : X.codec.dec (X.codec.enc v) = none := by
    cases h : X.codec.dec (X.codec.enc v) with
    | none => rfl
    | some w => exact absurd ⟨w, h⟩ hv
  refine ⟨⟨_, rfl, rfl, List.forall_mem_cons.2 ⟨trivial, fun _ h => nomatch h⟩⟩, ?_, ?_, ?_⟩
  · obtain ⟨H, c, b⟩ := X; cases b <;> kernel_rfl
  · obtain ⟨H, c, b⟩ := X; cases b <;> kernel_rfl
  · generalize hs : (S.step .sorted (.setProperties (.specificVertex [W.u 1]) W.p v) s).1 = s'
    have h1 : (reads X s').specificVertices [W.u 1] = .ok [.ok ⟨W.u 1, W.t⟩] := by
      subst hs; obtain ⟨H, c, b⟩ := X; cases b <;> kernel_rfl
    have h2 : (s'.kv .vertexProperties).get (vpKey X (W.u 1) W.p) = some (X.codec.enc v) := by
      subst hs; obtain ⟨H, c, b⟩ := X; cases b <;> kernel_rfl
    have h3 : (reads X s').vertexProperty ⟨W.u 1, W.t⟩ W.p = .error (.err .datastore) :=
      congrArg Prod.snd (vpGet_bad X hd h2)
    refine (ask_rocks X _ _ _ _).trans ?_
    exact (congrArg (fun r => Except.map _ r) (eval_prop_fail (reads X s') ⟨W.u 1, W.t⟩ W.p _ h1 h3))

theorem C08_rocks : (rocksStore X).DeletePropertiesExact := (conforms X).deleteProperties

example := (C08_rocks (W.cfg .debug) _ (W.rdemo_reach .debug) .sorted (.pipeProperty .allVertex (some W.q))
  (by decide +kernel)).1 [⟨⟨W.u 1, W.t⟩, [⟨W.q, W.n 1⟩]⟩, ⟨⟨W.u 2, W.t2⟩, [⟨W.q, W.n 1⟩]⟩] (by decide +kernel)

/-- What is true of C09: deleting edges removes exactly those of them whose outbound vertex exists, with their
properties. Missing: the others, which exist after a bulk insertion or after `C06_rocks_refuted`. -/
theorem C09_rocks_partial : (rocksStore X).DeleteEdgesIs Graph.rocksDropEdges := (conforms X).deleteEdges

example := C09_rocks_partial (W.cfg .debug) _ (W.rdemo_reach .debug) .sorted (.pipe (.specificVertex [W.u 1]) .outbound 9 none)
  [W.e11, W.e12] (by decide +kernel) (by decide +kernel)

/-- C09 fails whatever the hash and the codec: an edge without outbound vertex cannot be deleted. -/
theorem C09_rocks_refuted : ¬ (rocksStore X).DeleteEdgesIs Graph.dropEdges := by
  intro h
  let hist := W.calm [.bulkInsert [.edge W.e12]]
  have hr : (rocksStore X).Reach ((rocksStore X).run hist Rocks.init) :=
    ⟨hist, rfl, rfl, List.forall_mem_cons.2 ⟨List.forall_mem_cons.2 ⟨trivial, fun _ h => nomatch h⟩,
      fun _ h => nomatch h⟩⟩
  have hv : (rocksStore X).value .sorted .allEdge ((rocksStore X).run hist Rocks.init) = .ok (.edges [W.e12]) := by
    obtain ⟨H, c, b⟩ := X; cases b <;> kernel_rfl
  have hp : ((rocksStore X).step .sorted (.delete .allEdge) ((rocksStore X).run hist Rocks.init)).2 = .ok .unit := by
    obtain ⟨H, c, b⟩ := X; cases b <;> kernel_rfl
  have h1 := (h _ hr .sorted _ _ hv (by rw [hp]; simp)).2
  have h2 : ((rocksStore X).graph ((rocksStore X).step .sorted (.delete .allEdge)
      ((rocksStore X).run hist Rocks.init)).1).edge W.e12 = true := by
    obtain ⟨H, c, b⟩ := X; cases b <;> kernel_rfl
  rw [h1] at h2
  exact absurd h2 (by simp [Graph.dropEdges])

example : ((RS .debug).step .sorted (.setProperties .allEdge W.p (W.n 5)) (W.rdemo .debug)).2 = .ok .unit ∧
    ((RS .debug).step .sorted (.delete (.pipeProperty .allEdge none)) (W.rdemo .debug)).2 = .ok .unit ∧
    ((RS .debug).step .sorted (.delete (.pipeProperty .allVertex (some W.q))) (W.rdemo .debug)).2 = .ok .unit ∧
    (RS .debug).value .sorted .allEdge ((RS .debug).step .sorted (.delete .allEdge) (W.rdemo .debug)).1
      = .ok (.edges []) := by decide +kernel

/-! ### C12, C13 -/

/-- C12: along histories that keep to `Op.IndexSafe`, index queries list exactly the owners with the property, and value
queries exactly those with a value of the same hash, each once. -/
theorem C12_rocks : ∀ hist, (rocksStore X).OkHist hist →
    (rocksStore X).Along (fun g op => op.IndexSafe X g) hist Rocks.init →
    (rocksStore X).IndexExactAt (fun w x => X.H w.stream == X.H x.stream) True ((rocksStore X).run hist Rocks.init) :=
  fun hist ho ha => index_exact ⟨hist, rfl, rfl, ho⟩ (cinv_run hist _ CInv.init ho ha)

/-- The example history keeps to it: nothing is bulk-inserted, and values are read back unchanged. -/
theorem W.rdemo_safe (b : Build) : (RS b).Along (fun g op => op.IndexSafe (W.cfg b) g) (W.calm W.calls) Rocks.init := by
  have h : ∀ k, n k ∈ W.values → SameHash (W.cfg b) (n k) := by
    intro k hk
    show Sip.hash ((W.codec.dec (W.codec.enc (n k))).getD .null).stream = _
    rw [W.codec_values _ hk]; rfl
  exact ⟨trivial, trivial, trivial, trivial, trivial, h 7 (by simp [W.values]), trivial, h 1 (by simp [W.values]),
    h 3 (by simp [W.values]), h 8 (by simp [W.values]), trivial⟩

example := C12_rocks (W.cfg .debug) (W.calm W.calls) (W.okCalls .debug _ W.calls_ok) (W.rdemo_safe .debug)

example : (RS .debug).value .sorted (.vertexWithPropertyPresence W.p) (W.rdemo .debug) = .ok (.vertices [⟨W.u 1, W.t⟩]) ∧
    (RS .debug).value .sorted (.vertexWithPropertyValue W.p (W.n 8)) (W.rdemo .debug) = .ok (.vertices [⟨W.u 1, W.t⟩]) ∧
    (RS .debug).value .sorted (.vertexWithPropertyValue W.p (W.n 7)) (W.rdemo .debug) = .ok (.vertices []) ∧
    (RS .debug).value .sorted (.edgeWithPropertyValue W.p (W.n 3)) (W.rdemo .debug)
      = .ok (.edges [W.e11, W.e12, W.e21]) := by decide +kernel

/-- What is true of C13: if the asked value collides with no stored value of this property that differs from it, value queries
return only owners with an equal value. Missing: colliding values, which exist for every hash function (`C13_rocks_refuted`). -/
theorem C13_rocks_partial : ∀ hist, (rocksStore X).OkHist hist →
    (rocksStore X).Along (fun g op => op.IndexSafe X g) hist Rocks.init →
    let s := (rocksStore X).run hist Rocks.init
    ∀ O n, (graph X s).indexed n = true → ∀ x,
      ((∀ i w, (graph X s).vprop i n = some w → X.H w.stream = X.H x.stream → w.eq x = true) →
        ∃ l, (rocksStore X).value O (.vertexWithPropertyValue n x) s = .ok (.vertices l) ∧
          ∀ v ∈ l, ∃ w, (graph X s).vprop v.id n = some w ∧ w.eq x = true) ∧
      ((∀ e w, (graph X s).eprop e n = some w → X.H w.stream = X.H x.stream → w.eq x = true) →
        ∃ l, (rocksStore X).value O (.edgeWithPropertyValue n x) s = .ok (.edges l) ∧
          ∀ e ∈ l, ∃ w, (graph X s).eprop e n = some w ∧ w.eq x = true) := by
  intro hist ho ha s O n hn x
  obtain ⟨_, _, h3, h4⟩ := C12_rocks X hist ho ha O n hn
  obtain ⟨l, hl, _, hm⟩ := h3 x
  obtain ⟨l', hl', _, hm'⟩ := h4 x
  refine ⟨fun h1 => ⟨l, hl, fun v hv => ?_⟩, fun h2 => ⟨l', hl', fun e he => ?_⟩⟩
  · obtain ⟨_, w, hw, hh⟩ := (hm v).1 hv
    exact ⟨w, hw, h1 _ _ hw (beq_iff_eq.1 hh)⟩
  · obtain ⟨_, w, hw, hh⟩ := (hm' e).1 he
    exact ⟨w, hw, h2 _ _ hw (beq_iff_eq.1 hh)⟩

theorem W.dec_values {k : Bytes} {w : Json} (h : W.codec.dec k = some w) : w ∈ W.values := by
  have h' : W.values.find? (fun v => W.text v == k) = some w := h
  exact List.mem_of_find?_eq_some h'

/-- In the example nothing collides with the value 8, and the vertex with this value is found. -/
example := ((C13_rocks_partial (W.cfg .debug) (W.calm W.calls) (W.okCalls .debug _ W.calls_ok) (W.rdemo_safe .debug)
    .sorted W.p (by decide +kernel) (W.n 8)).1 (by
  intro i w hw
  obtain ⟨k, _, hk⟩ := Option.bind_eq_some_iff.1 hw
  have : ∀ w ∈ W.values, Sip.hash w.stream = Sip.hash (W.n 8).stream → w.eq (W.n 8) = true := by decide +kernel
  exact this w (W.dec_values hk)))

/-- C13 fails for every hash function, if the value `[[],null]` is read back unchanged: querying for `[[null]]` returns a
vertex whose property is `[[],null]`, which is a different value (also for `==`). -/
theorem C13_rocks_refuted (hc : X.codec.dec (X.codec.enc W.j1) = some W.j1) :
    ∃ hist, (rocksStore X).OkHist hist ∧ (rocksStore X).Along (fun g op => op.IndexSafe X g) hist Rocks.init ∧
      ∀ O, ∃ l, (rocksStore X).value O (.vertexWithPropertyValue W.p W.j2) ((rocksStore X).run hist Rocks.init)
          = .ok (.vertices l) ∧
        ∃ v ∈ l, (graph X ((rocksStore X).run hist Rocks.init)).vprop v.id W.p = some W.j1 ∧ W.j1.eq W.j2 = false := by
  have hst : X.stored W.j1 = W.j1 := by unfold Cfg.stored; rw [hc]; rfl
  let hist := W.calm [.createVertex ⟨W.u 1, W.t⟩, .indexProperty W.p, .setProperties (.specificVertex [W.u 1]) W.p W.j1]
  have hok : (rocksStore X).OkHist hist :=
    List.forall_mem_cons.2 ⟨trivial, List.forall_mem_cons.2 ⟨trivial, List.forall_mem_cons.2 ⟨⟨_, hc⟩,
      fun _ h => nomatch h⟩⟩⟩
  have hsafe : (rocksStore X).Along (fun g op => op.IndexSafe X g) hist Rocks.init :=
    ⟨trivial, trivial, by show X.H _ = X.H _; rw [hst], trivial⟩
  refine ⟨hist, hok, hsafe, ?_⟩
  intro O
  have hx : (graph X ((rocksStore X).run hist Rocks.init)).indexed W.p = true := by
    obtain ⟨H, c, b⟩ := X; cases b <;> kernel_rfl
  have hv : (graph X ((rocksStore X).run hist Rocks.init)).vertex (W.u 1) = some W.t := by
    obtain ⟨H, c, b⟩ := X; cases b <;> kernel_rfl
  have hp : (graph X ((rocksStore X).run hist Rocks.init)).vprop (W.u 1) W.p =
      X.codec.dec (X.codec.enc W.j1) := by
    obtain ⟨H, c, b⟩ := X; cases b <;> kernel_rfl
  rw [hc] at hp
  obtain ⟨_, _, h3, _⟩ := C12_rocks X hist hok hsafe O W.p hx
  obtain ⟨l, hl, _, hm⟩ := h3 W.j2
  exact ⟨l, hl, ⟨W.u 1, W.t⟩, (hm _).2 ⟨hv, W.j1, hp, beq_iff_eq.2 (congrArg X.H (by decide +kernel))⟩, hp,
    by decide +kernel⟩

example : (W.cfg .debug).codec.dec ((W.cfg .debug).codec.enc W.j1) = some W.j1 := by decide +kernel

/-! ### C14, C15 -/

theorem C14_rocks : (rocksStore X).NotIndexedExact ∧ (rocksStore X).NotIndexedPipedExact :=
  ⟨(conforms X).notIndexed (fun _ => rfl), (conforms X).notIndexedPiped (fun _ => rfl)⟩

example : (RS .debug).ask .sorted (.vertexWithPropertyPresence W.p) (W.rdemo .debug) = .ok [.vertices [⟨W.u 1, W.t⟩]] ∧
    (RS .debug).ask .sorted (.pipeWithPropertyPresence .allEdge W.q true) (W.rdemo .debug)
      = .error (.err .notIndexed) := by decide +kernel

theorem rocks_next {s : Rocks} (hr : (rocksStore X).Reach s) (O : IdentOrder) (op : Op) (hv : op.ValuesOk (CanRead X)) :
    (rocksStore X).Reach (Rocks.step X O op s).1 := Store.Reach.next hr O op hv rfl

theorem indexProperty_same (s : Rocks) (O : IdentOrder) (n : Identifier) (h : (graph X s).indexed n = true) :
    Rocks.step X O (.indexProperty n) s = (s, .ok .unit) := by
  show Upd.map _ ((indexProperty X O n).run s) = _
  rw [indexProperty_again (X := X) s O n h]; rfl

theorem C15_rocks_exact : (rocksStore X).IndexPropertyExact := by
  refine (conforms X).indexProperty ?_ (fun s hr O n => rocks_next X hr O _ trivial)
  intro s hr O O' n s' O''
  have h1 := ((conforms X).stepWith' hr O (.indexProperty n) (by simp) (by simp) (by simp)).1
  have h2 : (graph X (Rocks.step X O (.indexProperty n) s).1).indexed n = true := by
    rw [show graph X (Rocks.step X O (.indexProperty n) s).1 = (graph X s).addIndex n from h1]; simp [Graph.addIndex]
  show Rocks.index X (Rocks.step X O' (.indexProperty n) (Rocks.step X O (.indexProperty n) s).1).1 = _
  rw [indexProperty_same X _ O' n h2]; rfl

/-- What is true of C15: indexing a property changes no data and doing it twice is the same as doing it once; and along
histories that keep to `Op.IndexSafe`, afterwards the index queries find all owners that have the property, whenever it
was set. Missing: histories that bulk-insert properties of missing owners (`C15_rocks_refuted`). -/
theorem C15_rocks_partial : (rocksStore X).IndexPropertyExact ∧
    ∀ hist, (rocksStore X).OkHist hist → (rocksStore X).Along (fun g op => op.IndexSafe X g) hist Rocks.init → ∀ O n,
      let s := (rocksStore X).run hist Rocks.init
      let s' := ((rocksStore X).step O (.indexProperty n) s).1
      (rocksStore X).graph s' = ((rocksStore X).graph s).addIndex n ∧
      (rocksStore X).IndexExactAt (fun w x => X.H w.stream == X.H x.stream) True s' := by
  refine ⟨C15_rocks_exact X, fun hist ho ha O n => ?_⟩
  have hr : (rocksStore X).Reach ((rocksStore X).run hist Rocks.init) := ⟨hist, rfl, rfl, ho⟩
  refine ⟨(C15_rocks_exact X _ hr O n).2.1, ?_⟩
  exact index_exact (rocks_next X hr O _ trivial) ((cinv_run hist _ CInv.init ho ha).step O _ trivial trivial)

example := (C15_rocks_partial (W.cfg .debug)).2 (W.calm W.calls) (W.okCalls .debug _ W.calls_ok) (W.rdemo_safe .debug) .sorted W.q

/-- The rest of C15 fails: a property is bulk-inserted for a vertex that does not exist yet, the name is indexed, the vertex
is created; then indexing again does not make the index query find the vertex. -/
theorem C15_rocks_refuted (hc : CanRead X .null) :
    ¬ (rocksStore X).IndexPropertyCovers (fun w x => X.H w.stream == X.H x.stream) := by
  intro h
  let hist := W.calm [.bulkInsert [.vertexProperty (W.u 1) W.p .null], .indexProperty W.p, .createVertex ⟨W.u 1, W.t⟩]
  have hr : (rocksStore X).Reach ((rocksStore X).run hist Rocks.init) :=
    ⟨hist, rfl, rfl, List.forall_mem_cons.2 ⟨List.forall_mem_cons.2 ⟨hc, fun _ h => nomatch h⟩,
      List.forall_mem_cons.2 ⟨trivial, List.forall_mem_cons.2 ⟨trivial, fun _ h => nomatch h⟩⟩⟩⟩
  obtain ⟨⟨l, h1, h2⟩, _⟩ := h _ hr .sorted .sorted W.p
  have hv : (rocksStore X).value .sorted (.vertexWithPropertyPresence W.p)
      ((rocksStore X).step .sorted (.indexProperty W.p) ((rocksStore X).run hist Rocks.init)).1 = .ok (.vertices []) := by
    obtain ⟨H, c, b⟩ := X; cases b <;> kernel_rfl
  rw [hv] at h1
  have hl : l = [] := by cases h1; rfl
  subst hl
  have h3 : (graph X ((rocksStore X).run hist Rocks.init)).vertex (W.u 1) = some W.t := by
    obtain ⟨H, c, b⟩ := X; cases b <;> kernel_rfl
  have h4 : (graph X ((rocksStore X).run hist Rocks.init)).vprop (W.u 1) W.p = X.codec.dec (X.codec.enc .null) := by
    obtain ⟨H, c, b⟩ := X; cases b <;> kernel_rfl
  obtain ⟨w, hw⟩ := hc
  rw [hw] at h4
  have h5 : (graph X ((rocksStore X).run hist Rocks.init)).vprop (W.u 1) W.p ≠ none := by rw [h4]; simp
  exact absurd (h2 ⟨W.u 1, W.t⟩ h3 h5) (by simp)

example : (RS .debug).value .sorted (.vertexWithPropertyValue W.q (W.n 1))
    ((RS .debug).step .sorted (.indexProperty W.q) (W.rdemo .debug)).1
    = .ok (.vertices [⟨W.u 1, W.t⟩, ⟨W.u 2, W.t2⟩]) := by decide +kernel

/-! ### C16 - C25 -/

theorem C16_rocks : (rocksStore X).VertexQueriesExact ∧ (rocksStore X).EdgeQueriesExact rocksEdgeLt := by
  refine ⟨(conforms X).vertexQueries, ?_⟩
  have h := (conforms X).edgeQueries
  have he : (conv X).edgeLt = rocksEdgeLt := by funext a b; exact edgeLt_eq a b
  rw [he] at h; exact h

example : (RS .debug).ask .sorted (.rangeVertex 1 (some W.t2) (some (W.u 1))) (W.rdemo .debug)
    = .ok [.vertices [⟨W.u 2, W.t2⟩]] := by decide +kernel

/-- The order of the edges at a vertex is the storage order, for inbound traversals that of the reversed edges. -/
theorem C17_rocks : (rocksStore X).PipeVerticesExact (fun d a b => match d with
    | .outbound => rocksEdgeLt a b
    | .inbound => rocksEdgeLt a.reversed b.reversed) := by
  intro s hr env inner vs hv d limit t
  obtain ⟨ea, h1, h2⟩ := (conforms X).pipeVertices s hr env inner vs hv d limit t
  have he : (conv X).edgeLt = rocksEdgeLt := by funext a b; exact edgeLt_eq a b
  refine ⟨ea, ?_, h2⟩
  intro id
  have := h1 id
  cases d
  all_goals
    unfold Conv.dirLt at this
    rw [he] at this
    exact this

example : (RS .debug).value .sorted (.pipe .allVertex .inbound 2 (some W.t)) (W.rdemo .debug)
    = .ok (.edges [W.e11, W.e12]) := by decide +kernel

theorem C18_rocks : (rocksStore X).PipeEdgesExact := (conforms X).pipeEdges

example : (RS .debug).value .sorted (.pipe .allEdge .inbound 9 none) (W.rdemo .debug)
    = .ok (.vertices [⟨W.u 1, W.t⟩, ⟨W.u 2, W.t2⟩, ⟨W.u 1, W.t⟩]) := by decide +kernel

theorem C19_rocks : (rocksStore X).PipePropertiesExact (fun _ => False) := by
  intro s hr env inner
  obtain ⟨h1, h2⟩ := (conforms X).pipeProperties s hr env inner
  refine ⟨fun vs hv => ⟨(h1 vs hv).1, fun _ => (h1 vs hv).2 ?_⟩, h2⟩
  intro v _ h
  exact absurd h (by simp [conv])

example : (RS .debug).value .sorted (.pipeProperty .allVertex none) (W.rdemo .debug)
    = .ok (.vertexProperties [⟨⟨W.u 1, W.t⟩, [⟨W.p, W.n 8⟩, ⟨W.q, W.n 1⟩]⟩, ⟨⟨W.u 2, W.t2⟩, [⟨W.q, W.n 1⟩]⟩]) := by
  decide +kernel

theorem C20_rocks : (rocksStore X).FiltersPartition := (conforms X).filtersPartition

example : (RS .debug).value .sorted (.pipeWithPropertyPresence .allVertex W.p true) (W.rdemo .debug)
      = .ok (.vertices [⟨W.u 1, W.t⟩]) ∧
    (RS .debug).value .sorted (.pipeWithPropertyPresence .allVertex W.p false) (W.rdemo .debug)
      = .ok (.vertices [⟨W.u 2, W.t2⟩]) := by decide +kernel

theorem C21_rocks : (rocksStore X).CountExact := (conforms X).countExact

example : (RS .debug).value .sorted (.count .allEdge) (W.rdemo .debug) = .ok (.count 3) := by decide +kernel

theorem C22_rocks : (rocksStore X).IncludeExact := (conforms X).includeExact

example : (RS .debug).ask .sorted (.count (.pipe (.incl (.incl (.specificVertex [W.u 2]))) .outbound 5 none))
    (W.rdemo .debug) = .ok [.vertices [⟨W.u 2, W.t2⟩], .count 1] := by decide +kernel

theorem C23_rocks : (rocksStore X).BuiltQueriesWork := (conforms X).builtQueriesWork

example := (C23_rocks (W.cfg .debug) _ (W.rdemo_reach .debug) .sorted).1 (.count (.pipeProperty (.pipe .allVertex .outbound 5 none) none))
  (.count (.pipeProperty (.pipe .allVertex ⟨_, rfl⟩) ⟨_, rfl⟩) ⟨_, rfl⟩)

/-- What is true of C24: in states where all stored values can be read, a failing call changes nothing; in every state
whatsoever, it changes no stored data, and nothing at all unless it is `index_property`. Missing: `index_property` on
unreadable values (`C24_rocks_refuted`). -/
theorem C24_rocks_partial : (rocksStore X).ErrorsPure ∧
    (∀ (s : Rocks) (O : IdentOrder) (op : Op) (f : Fault), (Rocks.step X O op s).2 = .error f →
      (Rocks.step X O op s).1.kv = s.kv ∧ ((∀ n, op ≠ .indexProperty n) → (Rocks.step X O op s).1 = s)) := by
  refine ⟨?_, fun s O op f h => step_error O op s h⟩
  intro s hr O op e h
  refine (step_error O op s h).2 (fun n hn => ?_)
  subst hn
  have := (C15_rocks_exact X s hr O n).1
  rw [h] at this
  cases this

example := (C24_rocks_partial (W.cfg .debug)).1 _ (W.rdemo_reach .debug) .sorted
  (.delete (.pipeWithPropertyPresence .allVertex W.q true)) .notIndexed (by decide +kernel)

theorem indexProperty_bad (s : Rocks) {v : Json} (hd : X.codec.dec (X.codec.enc v) = none)
    (h2 : (s.kv .vertexProperties).get (vpKey X (W.u 1) W.p) = some (X.codec.enc v)) (h3 : s.indexed = SMap.empty)
    (e1 : (vertexIterate X Uuid.nil).run { s with indexed := SSet.add SMap.empty W.p } =
        ({ s with indexed := SSet.add SMap.empty W.p }, .ok [.ok ⟨W.u 1, W.t⟩])) :
    (indexProperty X .sorted W.p).run s = ({ s with indexed := SSet.add SMap.empty W.p }, .error (.err .datastore)) := by
  unfold indexProperty
  rw [Prog.run_writeLock, h3]
  rw [if_neg (by decide)]
  rw [Prog.run_setIndexed, Prog.run_bind_ok e1]
  refine Prog.run_bind_error ?_
  simp only [Prog.forItems]
  refine Prog.run_bind_error ?_
  exact Prog.run_bind_error (vpGet_bad X (s := { s with indexed := SSet.add SMap.empty W.p }) hd h2)

/-- C24 fails: if a stored value cannot be read, `index_property` fails, but the name counts as indexed from then on (until
the database is reopened), with an empty index. -/
theorem C24_rocks_refuted (v : Json) (hv : ¬ CanRead X v) :
    let S := rocksStoreOf X (fun _ => True)
    let s := S.run (W.calm [.createVertex ⟨W.u 1, W.t⟩, .setProperties (.specificVertex [W.u 1]) W.p v]) Rocks.init
    S.Reach s ∧ (S.step .sorted (.indexProperty W.p) s).2 = .error (.err .datastore) ∧
    S.ask .sorted (.vertexWithPropertyPresence W.p) s = .error (.err .notIndexed) ∧
    S.ask .sorted (.vertexWithPropertyPresence W.p) (S.step .sorted (.indexProperty W.p) s).1 = .ok [.vertices []] := by
  intro S s
  have hd : X.codec.dec (X.codec.enc v) = none := by
    cases h : X.codec.dec (X.codec.enc v) with
    | none => rfl
    | some w => exact absurd ⟨w, h⟩ hv
  have h2 : (s.kv .vertexProperties).get (vpKey X (W.u 1) W.p) = some (X.codec.enc v) := by
    obtain ⟨H, c, b⟩ := X; cases b <;> kernel_rfl
  have h3 : s.indexed = SMap.empty := by
    obtain ⟨H, c, b⟩ := X; cases b <;> kernel_rfl
  have hs : (indexProperty X .sorted W.p).run s =
      ({ s with indexed := SSet.add SMap.empty W.p }, .error (.err .datastore)) := by
    have e1 : (vertexIterate X Uuid.nil).run { s with indexed := SSet.add SMap.empty W.p } =
        ({ s with indexed := SSet.add SMap.empty W.p }, .ok [.ok ⟨W.u 1, W.t⟩]) := by
      obtain ⟨H, c, b⟩ := X; cases b <;> kernel_rfl
    exact indexProperty_bad X s hd h2 h3 e1
  have ht : S.step .sorted (.indexProperty W.p) s = ({ s with indexed := SSet.add SMap.empty W.p }, .error (.err .datastore)) := by
    show Upd.map _ ((indexProperty X .sorted W.p).run s) = _
    rw [hs]; rfl
  refine ⟨⟨_, rfl, rfl, ?_⟩, by rw [ht], ?_, ?_⟩
  · exact List.forall_mem_cons.2 ⟨trivial, List.forall_mem_cons.2 ⟨trivial, fun _ h => nomatch h⟩⟩
  · obtain ⟨H, c, b⟩ := X; cases b <;> kernel_rfl
  · rw [ht]; obtain ⟨H, c, b⟩ := X; cases b <;> kernel_rfl

/-- The hypothesis is met in the example configuration. -/
example : ¬ CanRead (W.cfg .debug) (W.n 9) := by
  rintro ⟨w, h⟩
  have : W.codec.dec (W.codec.enc (W.n 9)) = none := by decide +kernel
  rw [show (W.cfg .debug).codec.dec ((W.cfg .debug).codec.enc (W.n 9)) = _ from this] at h
  cases h

theorem C25_rocks : (rocksStore X).ReadsPure := fun _ _ _ _ _ => rfl

example := C25_rocks (W.cfg .debug) _ (W.rdemo_reach .debug) .sorted (.pipe .allVertex .outbound 9 none) (by decide +kernel)

/-! ### C27 -/

/-- What is true of C27: bulk insertion has the effect of its items one after the other, where a vertex item overwrites
the type of an existing vertex and an edge item is inserted even if its endpoints are missing. -/
theorem C27_rocks_effect (s : Rocks) (hr : (rocksStore X).Reach s) (O : IdentOrder) (items : List BulkInsertItem)
    (hv : ∀ i ∈ items, i.Values (CanRead X)) :
    ((rocksStore X).step O (.bulkInsert items) s).2 = .ok .unit ∧
    (rocksStore X).graph ((rocksStore X).step O (.bulkInsert items) s).1 =
      items.foldl (Graph.rocksBulkItem X.stored) ((rocksStore X).graph s) := by
  have h := (dbStep_spec O (.bulkInsert items) s (inv_reach hr) hv).stepWith
  exact ⟨h.2, h.1⟩

/-! ### C38, C50 -/

theorem C38_rocks : (rocksStore X).PagingExact nextId := (conforms X).paging nextId nextId_spec Uuid.not_lt_nil

example : (RS .debug).pages nextId (fun _ => .sorted) 1 none (W.rdemo .debug) 3 Uuid.nil
    = [⟨W.u 1, W.t⟩, ⟨W.u 2, W.t2⟩] := by decide +kernel

theorem C50_rocks : (rocksStore X).LimitsMonotone := (conforms X).limitsMonotone

example : (RS .debug).value .sorted (.pipe .allVertex .outbound 3 none) (W.rdemo .debug)
      = .ok (.edges [W.e11, W.e12, W.e21]) ∧
    (RS .debug).value .sorted (.pipe .allVertex .outbound 2 none) (W.rdemo .debug)
      = .ok (.edges [W.e11, W.e12]) := by decide +kernel

end IndraDB
