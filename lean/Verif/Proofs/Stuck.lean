import Verif.Proofs.Refused
/-
Values that cannot be read, of indexed names: they stay for ever, with their owners.
-/
namespace IndraDB
open Rocks

namespace Unread
variable {X : Cfg} {d : Bytes → Option Json} {z₀ : {s : Rocks // Inv (X.reading d) s}}

/-- Two readers that read what `X` cannot read as different values. -/
def rd (X : Cfg) (z : Json) (b : Bytes) : Option Json := some ((X.codec.dec b).getD z)

theorem rd_reader (z : Json) : X.Reader (rd X z) := ⟨fun b v h => by simp [rd, h], fun b => ⟨_, rfl⟩⟩

theorem hiddenV_iff (s : Rocks) (id : Uuid) (n : Identifier) : HiddenV X s id n ↔
    (graph (X.reading (rd X .null)) s).vprop id n ≠ (graph (X.reading (rd X (.bool true))) s).vprop id n := by
  show (∃ b, (s.kv .vertexProperties).get (vpKey X id n) = some b ∧ X.codec.dec b = none) ↔
    ((s.kv .vertexProperties).get (vpKey X id n)).bind (rd X .null) ≠ ((s.kv .vertexProperties).get (vpKey X id n)).bind (rd X (.bool true))
  cases (s.kv .vertexProperties).get (vpKey X id n) with
  | none => simp
  | some b =>
    simp only [Option.bind_some, rd, Option.some.injEq, exists_eq_left']
    cases X.codec.dec b with
    | none => simp
    | some v => simp

theorem hiddenE_iff (s : Rocks) (e : Edge) (n : Identifier) : HiddenE X s e n ↔
    (graph (X.reading (rd X .null)) s).eprop e n ≠ (graph (X.reading (rd X (.bool true))) s).eprop e n := by
  show (∃ b, (s.kv .edgeProperties).get (epKey X e n) = some b ∧ X.codec.dec b = none) ↔
    ((s.kv .edgeProperties).get (epKey X e n)).bind (rd X .null) ≠ ((s.kv .edgeProperties).get (epKey X e n)).bind (rd X (.bool true))
  cases (s.kv .edgeProperties).get (epKey X e n) with
  | none => simp
  | some b =>
    simp only [Option.bind_some, rd, Option.some.injEq, exists_eq_left']
    cases X.codec.dec b with
    | none => simp
    | some v => simp

theorem bulk_vprop {stored : Json → Json} {id : Uuid} {n : Identifier} : ∀ (items : List BulkInsertItem) (g : Graph),
    (∀ x, BulkInsertItem.vertexProperty id n x ∉ items) → (items.foldl (Graph.rocksBulkItem stored) g).vprop id n = g.vprop id n := by
  intro items
  induction items with
  | nil => exact fun _ _ => rfl
  | cons i r ih =>
    intro g h
    rw [List.foldl_cons, ih _ (fun x hx => h x (List.mem_cons_of_mem _ hx))]
    cases i with
    | vertexProperty id' n' x =>
      show (if id ∈ [id'] ∧ n = n' then _ else _) = _
      rw [if_neg]
      rintro ⟨h1, rfl⟩
      simp only [List.mem_singleton] at h1
      subst h1
      exact h x List.mem_cons_self
    | _ => rfl

theorem bulk_eprop {stored : Json → Json} {e : Edge} {n : Identifier} : ∀ (items : List BulkInsertItem) (g : Graph),
    (∀ x, BulkInsertItem.edgeProperty e n x ∉ items) → (items.foldl (Graph.rocksBulkItem stored) g).eprop e n = g.eprop e n := by
  intro items
  induction items with
  | nil => exact fun _ _ => rfl
  | cons i r ih =>
    intro g h
    rw [List.foldl_cons, ih _ (fun x hx => h x (List.mem_cons_of_mem _ hx))]
    cases i with
    | edgeProperty e' n' x =>
      show (if e ∈ [e'] ∧ n = n' then _ else _) = _
      rw [if_neg]
      rintro ⟨h1, rfl⟩
      simp only [List.mem_singleton] at h1
      subst h1
      exact h x List.mem_cons_self
    | _ => rfl

theorem bulk_vertex {stored : Json → Json} {id : Uuid} : ∀ (items : List BulkInsertItem) (g : Graph),
    g.vertex id ≠ none → (items.foldl (Graph.rocksBulkItem stored) g).vertex id ≠ none := by
  intro items
  induction items with
  | nil => exact fun _ h => h
  | cons i r ih =>
    intro g h
    refine ih _ ?_
    cases i with
    | vertex v =>
      show (if id = v.id then some v.t else g.vertex id) ≠ none
      split
      · exact fun h => by cases h
      · exact h
    | _ => exact h

theorem bulk_edge {stored : Json → Json} {e : Edge} : ∀ (items : List BulkInsertItem) (g : Graph),
    g.edge e = true → (items.foldl (Graph.rocksBulkItem stored) g).edge e = true := by
  intro items
  induction items with
  | nil => exact fun _ h => h
  | cons i r ih =>
    intro g h
    refine ih _ ?_
    cases i with
    | edge v =>
      show (decide (e = v) || g.edge e) = true
      rw [h, Bool.or_true]
    | _ => exact h

/-- The call keeps those values. -/
def Kept (X : Cfg) (s : Rocks) (g g' : Graph) : Prop :=
  (∀ id n, s.indexed.contains n = true → HiddenV X s id n → g'.vprop id n = g.vprop id n ∧ (g.vertex id ≠ none → g'.vertex id ≠ none)) ∧
  (∀ e n, s.indexed.contains n = true → HiddenE X s e n →
    g'.eprop e n = g.eprop e n ∧ (g.vertex e.outboundId ≠ none → g.edge e = true → g'.edge e = true))

theorem Kept.more {X : Cfg} {s : Rocks} {g g' : Graph} (h1 : g'.vprop = g.vprop) (h2 : g'.eprop = g.eprop)
    (h3 : ∀ id, g.vertex id ≠ none → g'.vertex id ≠ none) (h4 : ∀ e, g.edge e = true → g'.edge e = true) : Kept X s g g' :=
  ⟨fun id n _ _ => ⟨by rw [h1], h3 id⟩, fun e n _ _ => ⟨by rw [h2], fun _ => h4 e⟩⟩

theorem Kept.rfl {X : Cfg} {s : Rocks} {g : Graph} : Kept X s g g := .more (Eq.refl _) (Eq.refl _) (fun _ h => h) (fun _ h => h)

theorem Kept.kv {X : Cfg} {s s' : Rocks} {d : Bytes → Option Json} (h : s'.kv = s.kv) :
    Kept X s (graph (X.reading d) s) (graph (X.reading d) s') := by
  refine .more ?_ ?_ ?_ ?_ <;> simp only [graph, h] <;> first | rfl | exact fun _ h => h

theorem Kept.putVertex {X : Cfg} {s : Rocks} {g : Graph} (id : Uuid) (t : Identifier) : Kept X s g (g.putVertex id t) := by
  refine .more (Eq.refl _) (Eq.refl _) (fun i h => ?_) (fun _ h => h)
  show (if i = id then some t else g.vertex i) ≠ none
  split
  · exact fun h => by cases h
  · exact h

theorem Kept.putEdge {X : Cfg} {s : Rocks} {g : Graph} (e : Edge) : Kept X s g (g.putEdge e) := by
  refine .more (Eq.refl _) (Eq.refl _) (fun i h => h) (fun x h => ?_)
  show (decide (x = e) || g.edge x) = true
  rw [h, Bool.or_true]

section
variable (hd : X.Reader d)
include hd

/-- What one call leaves of values that cannot be read, of indexed names. -/
theorem stuck_graph {s : Rocks} (hr : (rocksStoreAny X d z₀.1).Reach s) (O : IdentOrder) (op : Op) :
    Kept X s (graph (X.reading d) s) (graph (X.reading d) (Rocks.step X O op s).1) := by
  have R := refused hd s hr O
  have err : ∀ {op f}, (Rocks.step X O op s).2 = .error f → Kept X s (graph (X.reading d) s) (graph (X.reading d) (Rocks.step X O op s).1) :=
    fun h => .kv (step_error O _ s h).1
  have ref : ∀ {op}, (rocksStoreAny X d z₀.1).Refuses O op s → Kept X s (graph (X.reading d) s) (graph (X.reading d) (Rocks.step X O op s).1) := by
    intro op h
    have h' : Rocks.step X O op s = (s, .error (.err .datastore)) := h
    rw [h']; exact .rfl
  have does : ∀ {op g'}, (rocksStoreAny X d z₀.1).Does O op s g' → graph (X.reading d) (Rocks.step X O op s).1 = g' := fun h => h.2
  have sim : ∀ {q f}, (rocksStoreAny X d z₀.1).value O q s = .error f → (Rocks.step X O (.delete q) s).2 = .error f ∧
      ∀ n x, (Rocks.step X O (.setProperties q n x) s).2 = .error f := fun h => (wrongValues hd s hr O _).2.2 _ h
  cases op with
  | sync => exact .rfl
  | get q => exact .rfl
  | createVertex v =>
    obtain ⟨_, _, h, _⟩ := createVertex hd s hr O v
    have h' : graph (X.reading d) (Rocks.step X O (.createVertex v) s).1 = _ := h
    rw [h']
    split
    · exact .putVertex _ _
    · exact .rfl
  | createVertexFromType id t =>
    obtain ⟨h1, h2⟩ := createVertexFromType hd s hr O id t
    by_cases hv : (graph (X.reading d) s).vertex id = none
    · have h' : graph (X.reading d) (Rocks.step X O (.createVertexFromType id t) s).1 = _ := (h1 hv).2
      rw [h']; exact .putVertex _ _
    · have h' : graph (X.reading d) (Rocks.step X O (.createVertexFromType id t) s).1 = _ := (h2 hv).2
      rw [h']; exact .rfl
  | createEdge e =>
    obtain ⟨_, _, h⟩ := createEdge hd s hr O e
    have h' : graph (X.reading d) (Rocks.step X O (.createEdge e) s).1 = _ := h
    rw [h']
    split
    · exact .putEdge _
    · exact .rfl
  | indexProperty n =>
    by_cases hb : s.indexed.contains n = false ∧ HiddenOwner X s n
    · have h : Rocks.step X O (.indexProperty n) s = _ := (R.indexProperty n).1 hb
      rw [h]; exact .kv rfl
    · rw [does ((R.indexProperty n).2 hb)]
      exact .more rfl rfl (fun _ h => h) (fun _ h => h)
  | bulkInsert items =>
    by_cases hb : ∃ i ∈ items, i.Blocked X s
    · exact ref ((R.bulkInsert items).1 hb)
    · rw [does ((R.bulkInsert items).2 hb)]
      refine ⟨fun id n hn hh => ⟨bulk_vprop _ _ ?_, bulk_vertex _ _⟩, fun e n hn hh => ⟨bulk_eprop _ _ ?_, fun _ => bulk_edge _ _⟩⟩
      · exact fun x hx => hb ⟨_, hx, hn, hh⟩
      · exact fun x hx => hb ⟨_, hx, hn, hh⟩
  | setProperties q n x =>
    cases hv : (rocksStoreAny X d z₀.1).value O q s with
    | error f => exact err ((sim hv).2 n x)
    | ok o =>
      cases o with
      | vertices vs =>
        by_cases hb : s.indexed.contains n = true ∧ ∃ v ∈ vs, HiddenV X s v.id n
        · exact ref ((R.setVertices q vs n x hv).1 hb)
        · rw [does ((R.setVertices q vs n x hv).2 hb)]
          refine ⟨fun id m hn hh => ⟨if_neg ?_, fun h => h⟩, fun e m hn hh => ⟨rfl, fun _ h => h⟩⟩
          rintro ⟨h1, rfl⟩
          obtain ⟨v, hv, rfl⟩ := List.mem_map.1 h1
          exact hb ⟨hn, v, hv, hh⟩
      | edges es =>
        by_cases hb : s.indexed.contains n = true ∧ ∃ e ∈ es, HiddenE X s e n
        · exact ref ((R.setEdges q es n x hv).1 hb)
        · rw [does ((R.setEdges q es n x hv).2 hb)]
          refine ⟨fun id m hn hh => ⟨rfl, fun h => h⟩, fun e m hn hh => ⟨if_neg ?_, fun _ h => h⟩⟩
          rintro ⟨h1, rfl⟩
          exact hb ⟨hn, e, h1, hh⟩
      | _ => exact err ((wrongValues hd s hr O q).2.1 _ n x hv (fun h => by cases h) (fun h => by cases h))
  | delete q =>
    by_cases hp : (Rocks.step X O (.delete q) s).2 = .error .panic
    · exact err hp
    cases hv : (rocksStoreAny X d z₀.1).value O q s with
    | error f => exact err (sim hv).1
    | ok o =>
      cases o with
      | vertices vs =>
        by_cases hb : ∃ v ∈ vs, HiddenAround X s v.id
        · exact ref ((R.deleteVertices q vs hv).1 hb)
        · rw [does ((R.deleteVertices q vs hv).2 hb)]
          refine ⟨fun id m hn hh => ?_, fun e m hn hh => ?_⟩
          · have : id ∉ vs.map (·.id) := by
              intro h1
              obtain ⟨v, hv, rfl⟩ := List.mem_map.1 h1
              exact hb ⟨v, hv, .inl ⟨m, hh⟩⟩
            exact ⟨if_neg this, fun h => by simp only [Graph.rocksDropVertices, if_neg this]; exact h⟩
          · have key : ¬ (e.outboundId ∈ vs.map (·.id) ∧ ((graph X s).edge e = true ∨ (graph X s).edge e.reversed = true)) := by
              rintro ⟨h1, h2⟩
              obtain ⟨v, hv, h3⟩ := List.mem_map.1 h1
              exact hb ⟨v, hv, .inr ⟨e, h3.symm, h2, m, hh⟩⟩
            refine ⟨if_neg key, fun _ he => ?_⟩
            show (if _ then false else _) = true
            rw [if_neg (fun h => key ⟨h, .inl he⟩)]
            exact he
      | edges es =>
        by_cases hb : ∃ e ∈ es, (graph X s).vertex e.outboundId ≠ none ∧ ∃ n, HiddenE X s e n
        · exact ref ((R.deleteEdges q es hv).1 hb)
        · rw [does ((R.deleteEdges q es hv).2 hb)]
          refine ⟨fun id m hn hh => ⟨rfl, fun h => h⟩, fun e m hn hh => ?_⟩
          have key : e ∉ es.filter (fun e => ((graph (X.reading d) s).vertex e.outboundId).isSome) := by
            intro h
            obtain ⟨h1, h2⟩ := List.mem_filter.1 h
            refine hb ⟨e, h1, ?_, m, hh⟩
            show (graph (X.reading d) s).vertex e.outboundId ≠ none
            exact Option.isSome_iff_ne_none.1 h2
          exact ⟨if_neg key, fun _ h => (if_neg key).trans h⟩
      | vertexProperties l =>
        have h := ((deleteProperties hd s hr O q hp).1 l hv).2
        have h' : graph (X.reading d) (Rocks.step X O (.delete q) s).1 = _ := h
        rw [h']
        refine ⟨fun id m hn hh => ⟨if_neg ?_, fun h => h⟩, fun e m hn hh => ⟨rfl, fun _ h => h⟩⟩
        intro h
        simp only [List.mem_flatMap, List.mem_map, Prod.mk.injEq] at h
        obtain ⟨p, hp, x, hx, rfl, rfl⟩ := h
        exact (visible hd hr).1 hv p hp x hx hh
      | edgeProperties l =>
        have h := ((deleteProperties hd s hr O q hp).2 l hv).2
        have h' : graph (X.reading d) (Rocks.step X O (.delete q) s).1 = _ := h
        rw [h']
        refine ⟨fun id m hn hh => ⟨rfl, fun h => h⟩, fun e m hn hh => ⟨if_neg ?_, fun _ h => h⟩⟩
        intro h
        simp only [List.mem_flatMap, List.mem_map, Prod.mk.injEq] at h
        obtain ⟨p, hp, x, hx, rfl, rfl⟩ := h
        exact (visible hd hr).2 hv p hp x hx hh
      | count k => exact err ((wrongValues hd s hr O q).1 k hv)

end

theorem inv_other {d' : Bytes → Option Json} (hd' : X.Reader d') {s : Rocks} (h : Inv (X.reading d) s) : Inv (X.reading d') s := by
  refine ⟨⟨h.wf.vertices, h.wf.edges, h.wf.reversed, h.wf.mirror, h.wf.vprops, h.wf.eprops, h.wf.vindex, h.wf.eindex⟩, fun k v hv => ?_, fun k v hv => ?_⟩
  · obtain ⟨x, e, _⟩ := h.values.vprops k v hv
    exact ⟨x, e, canRead hd' x⟩
  · obtain ⟨x, e, _⟩ := h.values.eprops k v hv
    exact ⟨x, e, canRead hd' x⟩

theorem reach_own (d : Bytes → Option Json) (s : Rocks) : (rocksStoreAny X d s).Reach s := ⟨[], rfl, rfl, fun _ h => nomatch h⟩

/-- One call keeps values that cannot be read, of indexed names. -/
theorem stuck_step {s : Rocks} (hi : Inv (X.reading d) s) (O : IdentOrder) (op : Op) :
    let s' := (Rocks.step X O op s).1
    (∀ id n, s.indexed.contains n = true → HiddenV X s id n → s'.indexed.contains n = true ∧ HiddenV X s' id n ∧
      ((graph X s).vertex id ≠ none → (graph X s').vertex id ≠ none)) ∧
    (∀ e n, s.indexed.contains n = true → HiddenE X s e n → s'.indexed.contains n = true ∧ HiddenE X s' e n ∧
      ((graph X s).vertex e.outboundId ≠ none → (graph X s).edge e = true → (graph X s').edge e = true)) := by
  have i0 : Inv (X.reading (rd X .null)) s := inv_other (rd_reader .null) hi
  have i1 : Inv (X.reading (rd X (.bool true))) s := inv_other (rd_reader (.bool true)) hi
  have k0 := stuck_graph (z₀ := ⟨s, i0⟩) (rd_reader .null) (reach_own _ s) O op
  have k1 := stuck_graph (z₀ := ⟨s, i1⟩) (rd_reader (.bool true)) (reach_own _ s) O op
  have hi := fun n => indexed_step (rd_reader .null) O op s i0 n
  refine ⟨fun id n hn hh => ⟨(hi n).2 (.inl hn), ?_, (k0.1 id n hn hh).2⟩, fun e n hn hh => ⟨(hi n).2 (.inl hn), ?_, (k0.2 e n hn hh).2⟩⟩
  · rw [hiddenV_iff, (k0.1 id n hn hh).1, (k1.1 id n hn hh).1, ← hiddenV_iff]; exact hh
  · rw [hiddenE_iff, (k0.2 e n hn hh).1, (k1.2 e n hn hh).1, ← hiddenE_iff]; exact hh

theorem okAny {u : Rocks} (op : Op) : op.ValuesOk (rocksStoreAny X d u).okValue := by
  cases op with
  | bulkInsert items => intro i _; cases i <;> trivial
  | _ => trivial

section
variable {u : Rocks} (hd : X.Reader d)
include hd

theorem stuck_run (hist : List (IdentOrder × Op)) : ∀ s : Rocks, Inv (X.reading d) s →
    let s' := (rocksStoreAny X d u).run hist s
    (∀ id n, s.indexed.contains n = true → HiddenV X s id n → s'.indexed.contains n = true ∧ HiddenV X s' id n ∧
      ((graph X s).vertex id ≠ none → (graph X s').vertex id ≠ none)) := by
  induction hist with
  | nil => exact fun s _ id n h1 h2 => ⟨h1, h2, fun h => h⟩
  | cons a r ih =>
    intro s hi s' id n h1 h2
    obtain ⟨k1, k2, k3⟩ := (stuck_step hi a.1 a.2).1 id n h1 h2
    obtain ⟨m1, m2, m3⟩ := ih _ (inv_step hd a.1 a.2 s hi) id n k1 k2
    exact ⟨m1, m2, fun h => m3 (k3 h)⟩

theorem stuck_run_edge (hist : List (IdentOrder × Op)) : ∀ s : Rocks, Inv (X.reading d) s →
    let s' := (rocksStoreAny X d u).run hist s
    (∀ e n, s.indexed.contains n = true → HiddenE X s e n → s'.indexed.contains n = true ∧ HiddenE X s' e n) := by
  induction hist with
  | nil => exact fun s _ id n h1 h2 => ⟨h1, h2⟩
  | cons a r ih =>
    intro s hi s' id n h1 h2
    obtain ⟨k1, k2, k3⟩ := (stuck_step hi a.1 a.2).2 id n h1 h2
    exact ih _ (inv_step hd a.1 a.2 s hi) id n k1 k2

/-- C78, from the invariant. -/
theorem anyValues (hi : Inv (X.reading d) u) : AnyValues X d u := by
  let z : {s : Rocks // Inv (X.reading d) s} := ⟨u, hi⟩
  have I : ∀ s, (rocksStoreAny X d u).Reach s → Inv (X.reading d) s := fun s hr => inv (z₀ := z) hd hr
  exact {
    refused := fun s hr O => refused (z₀ := z) hd s hr O
    errorsPure := fun s O op f h => step_error O op s h
    plain := by
      intro s hr O q hq f hf
      rw [ask_any (X := X) (d := d) (w₀ := u) O q s, same_plain (d := d) s q hq] at hf
      have F := eval_answers ((conformsFrom (X.reading d) s (I s hr)).faithful s (reach s) O) q
      have F' : Answers _ _ _ q (eval (reads (X.reading d) s) q) := F
      cases he : eval (reads (X.reading d) s) q with
      | ok p => rw [he] at hf; cases hf
      | error f' =>
        rw [he] at hf
        cases hf
        rcases answers_error q _ F' _ he with h | h | ⟨_, x, _, h⟩
        · exact .inl h
        · exact .inr h
        · simp [Rocks.conv] at h
    stuck := fun s hr id n hn hh hist => (stuck_run hd hist s (I s hr) id n hn hh).2
    stuckEdge := fun s hr e n hn hh hist => (stuck_run_edge hd hist s (I s hr) e n hn hh).2
    names := by
      intro s hr O n v q hq
      have hp : ¬ q.AsksProperties := by
        simp only [List.mem_cons, List.not_mem_nil, or_false] at hq
        rcases hq with rfl | rfl | rfl | rfl <;> exact id
      have e1 := Same.ask (w₀ := u) (same_plain (X := X) (d := d) s q hp) O s
      refine Iff.trans (Iff.of_eq (congrArg (· = _) e1)) ?_
      refine Iff.trans ((conformsFrom (X.reading d) s (I s hr)).notIndexed_at (reach s) O n v q hq) ?_
      exact Bool.not_eq_true _ ▸ Iff.rfl
    indexed := fun s hr hist n => indexed_hist hd hist n s (I s hr)
    createVertex := createVertex (z₀ := z) hd
    createVertexFromType := createVertexFromType (z₀ := z) hd
    createEdge := createEdge (z₀ := z) hd
    deleteProperties := deleteProperties (z₀ := z) hd
    wrongValues := wrongValues hd
    vertexQueries := vertexQueries (z₀ := z) hd
    edgeQueries := edgeQueries (z₀ := z) hd
    pipeVertices := pipeVertices (z₀ := z) hd
    pipeEdges := pipeEdges (z₀ := z) hd
    filters := filters (z₀ := z) hd
    count := count (z₀ := z) hd
    includes := includes (z₀ := z) hd
    built := built (z₀ := z) hd
    limits := limits (z₀ := z) hd
    traversal := traversal (z₀ := z) hd
    paging := paging (z₀ := z) hd
    readsPure := readsPure (z₀ := z) hd }

end
end Unread
end IndraDB
