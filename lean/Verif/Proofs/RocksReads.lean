import Verif.Proofs.Query
import Verif.Proofs.Keys
import Verif.Proofs.Prog
import Verif.Proofs.Uuid
/-
The RocksDB datastore's reads faithfully read its graph.
-/
set_option linter.unusedSimpArgs false
namespace IndraDB
namespace Rocks
variable (X : Cfg)

/-- Conventions of the RocksDB datastore: edges in the order of their byte keys, values matched by hash, no panics. -/
def conv : Conv where
  edgeLt a b := lexLt (edgeKey X a) (edgeKey X b)
  edge_irrefl _ := lexLt_irrefl _
  edge_trans _ _ _ := lexLt_trans _ _ _
  out_lt a b h := by
    rw [edgeKey_eq, edgeKey_eq, lexLt_append (by rw [a.outboundId.len, b.outboundId.len])]
    exact Or.inl h
  bound_t e := by
    simp only [edgeKey_eq, lexLt_append_left]
    exact Uuid.not_lt_nil _
  bound e := by
    simp only [edgeKey_eq, lexLt_append_left]
    cases h : lexLt (identBytes e.t ++ e.inboundId.bytes) (identBytes Identifier.empty ++ Uuid.nil.bytes) with
    | false => rfl
    | true =>
      exfalso
      have hl := e.t.len
      have : identBytes Identifier.empty = [0] := by decide
      rw [this] at h
      simp only [identBytes, List.cons_append, List.nil_append] at h
      rw [lexLt_cons] at h
      rcases h with h | ⟨h0, h⟩
      · rw [UInt8.order_lt] at h; simp at h
      · have h1 : e.t.bytes.length = 0 := by
          have := congrArg UInt8.toNat h0
          simp [UInt8.toNat_ofNat'] at this
          omega
        rw [List.length_eq_zero_iff.1 h1, List.nil_append] at h
        have := Uuid.not_lt_nil e.inboundId
        have h' : Order.lt e.inboundId Uuid.nil = true := h
        rw [this] at h'; simp at h'
  valueMatch w v := X.H w.stream == X.H v.stream
  propsPanic _ := false

/-- The abstract graph of a state. -/
def graph (s : Rocks) : Graph where
  vertex id := ((s.kv .vertices).get (vertexKey X id)).bind (fun b => (readIdentifier b).toOption.map (·.1))
  edge e := (s.kv .edgeRanges).contains (edgeKey X e)
  vprop i n := ((s.kv .vertexProperties).get (vpKey X i n)).bind X.codec.dec
  eprop e n := ((s.kv .edgeProperties).get (epKey X e n)).bind X.codec.dec
  indexed n := s.indexed.contains n

/-- Is there an index entry for vertex `id`, name `n` and hash `h`? -/
def vEntry (s : Rocks) (n : Identifier) (h : UInt64) (id : Uuid) : Bool :=
  (s.kv .vertexPropertyValues).contains (vhKey n h id)

/-- Is there an index entry for edge `e`, name `n` and hash `h`? -/
def eEntry (s : Rocks) (n : Identifier) (h : UInt64) (e : Edge) : Bool :=
  (s.kv .edgePropertyValues).contains (ehKey X n h e)

/-- Is there an index entry with the given name and owner bytes, for any hash? -/
def listed (m : SMap Bytes Bytes) (n : Identifier) (owner : Bytes) : Bool :=
  m.toList.any (fun e => (identBytes n).isPrefixOf e.1 && decide (e.1.drop ((identBytes n).length + 8) = owner))

/-- What the index reports. -/
def index (s : Rocks) : IndexView where
  vPresent n i := listed (s.kv .vertexPropertyValues) n i.bytes && (s.kv .vertices).contains (vertexKey X i)
  vValue n v i := vEntry s n (X.H v.stream) i && (s.kv .vertices).contains (vertexKey X i)
  ePresent n e := listed (s.kv .edgePropertyValues) n (edgeKey X e)
  eValue n v e := eEntry X s n (X.H v.stream) e
  nodup := ∀ n h h', (∀ i, vEntry s n h i = true → vEntry s n h' i = true → h = h') ∧
    (∀ e, eEntry X s n h e = true → eEntry X s n h' e = true → h = h')

/-- All keys and values have the intended form, and the two edge tables mirror each other. -/
structure Wf (kv : KV) : Prop where
  vertices : ∀ k v, (kv .vertices).get k = some v → ∃ id t, k = vertexKey X id ∧ v = identBytes t
  edges : ∀ k v, (kv .edgeRanges).get k = some v → ∃ e, k = edgeKey X e
  reversed : ∀ k v, (kv .reversedEdgeRanges).get k = some v → ∃ e, k = edgeKey X e
  mirror : ∀ e, (kv .reversedEdgeRanges).contains (edgeKey X e) = (kv .edgeRanges).contains (edgeKey X e.reversed)
  vprops : ∀ k v, (kv .vertexProperties).get k = some v → ∃ id n, k = vpKey X id n
  eprops : ∀ k v, (kv .edgeProperties).get k = some v → ∃ e n, k = epKey X e n
  vindex : ∀ k v, (kv .vertexPropertyValues).get k = some v → ∃ n h id, k = vhKey n h id
  eindex : ∀ k v, (kv .edgePropertyValues).get k = some v → ∃ n h e, k = ehKey X n h e

/-- All stored values can be read back. -/
structure Readable (kv : KV) : Prop where
  vprops : ∀ k v, (kv .vertexProperties).get k = some v → ∃ x, X.codec.dec v = some x
  eprops : ∀ k v, (kv .edgeProperties).get k = some v → ∃ x, X.codec.dec v = some x

variable {X}

/-! ### Items -/

theorem debugAssert_true (p : Bool) (h : p = true) : debugAssert X p = .ok () := by
  simp [debugAssert, h]

theorem vertexItem_ok (id : Uuid) (t : Identifier) : vertexItem X (vertexKey X id, identBytes t) = .ok ⟨id, t⟩ := by
  simp [vertexItem, vertexKey_eq, debugAssert_true, id.len, readUuid_self, readIdentifier_self, Bind.bind, Except.bind,
    Pure.pure, Except.pure]

theorem edgeItem_ok (e : Edge) (v : Bytes) : edgeItem (edgeKey X e, v) = .ok e := by
  simp [edgeItem, edgeKey_eq, readUuid_append, readUuid_self, readIdentifier_append, Bind.bind, Except.bind,
    Pure.pure, Except.pure]

theorem vpvItem_ok (n : Identifier) (h : UInt64) (id : Uuid) (v : Bytes) : vpvItem (vhKey n h id, v) = .ok id := by
  simp [vpvItem, vhKey, readUuid_self, readIdentifier_append, readU64_append, Bind.bind, Except.bind, Pure.pure,
    Except.pure]

theorem epvItem_ok (n : Identifier) (h : UInt64) (e : Edge) (v : Bytes) : epvItem (ehKey X n h e, v) = .ok e := by
  simp [epvItem, ehKey, edgeKey_eq, readUuid_append, readUuid_self, readIdentifier_append, readU64_append, Bind.bind,
    Except.bind, Pure.pure, Except.pure]

theorem vpItem_ok (id : Uuid) (n : Identifier) (v : Bytes) (x : Json) (h : X.codec.dec v = some x) :
    vpItem X id (vpKey X id n, v) = .ok (id, n, x) := by
  simp [vpItem, vpKey_eq, readUuid_append, debugAssert_true, readRest_self, fromSlice, h, Bind.bind, Except.bind,
    Pure.pure, Except.pure]

theorem epItem_ok (e : Edge) (n : Identifier) (v : Bytes) (x : Json) (h : X.codec.dec v = some x) :
    epItem X e (epKey X e n, v) = .ok (e, n, x) := by
  simp [epItem, epKey_eq, edgeKey_eq, readUuid_append, readIdentifier_append, debugAssert_true, readRest_self, fromSlice,
    h, Bind.bind, Except.bind, Pure.pure, Except.pure]

/-! ### Listing -/

/-- The values of items that are all fine. -/
def okItems {α β : Type} (d : β → Res α) (L : List β) : List α := L.filterMap (fun e => (d e).toOption)

theorem map_okItems {α β : Type} {d : β → Res α} {L : List β} (h : ∀ e ∈ L, ∃ a, d e = .ok a) :
    L.map d = (okItems d L).map .ok := by
  induction L with
  | nil => rfl
  | cons e r ih =>
    obtain ⟨a, ha⟩ := h e (by simp)
    have := ih (fun x hx => h x (by simp [hx]))
    simp only [List.map_cons, okItems, List.filterMap_cons, ha, Except.toOption] at this ⊢
    rw [this]

theorem toOption_eq {α : Type} {r : Res α} {a : α} : r.toOption = some a ↔ r = .ok a := by
  cases r <;> simp [Except.toOption]

theorem mem_okItems {α β : Type} {d : β → Res α} {L : List β} {a : α} :
    a ∈ okItems d L ↔ ∃ e ∈ L, d e = .ok a := by
  unfold okItems
  rw [List.mem_filterMap]
  simp only [toOption_eq]

theorem okItems_pairwise {α β : Type} {d : β → Res α} {L : List β} {R : β → β → Prop} {S : α → α → Prop}
    (hL : L.Pairwise R) (h : ∀ e ∈ L, ∀ e' ∈ L, R e e' → ∀ a b, d e = .ok a → d e' = .ok b → S a b) :
    (okItems d L).Pairwise S := by
  unfold okItems
  refine List.Pairwise.filterMap _ (R := fun a b => a ∈ L ∧ b ∈ L ∧ R a b) ?_ ?_
  · intro a a' ⟨h1, h2, h3⟩ b hb b' hb'
    exact h a h1 a' h2 h3 b b' (toOption_eq.1 hb) (toOption_eq.1 hb')
  · exact hL.imp_of_mem (fun ha hb hab => ⟨ha, hb, hab⟩)

/-! ### The graph -/

theorem vertexGet_run (id : Uuid) (s : Rocks) (hw : Wf X s.kv) :
    (vertexGet X id).run s = (s, .ok ((graph X s).vertex id)) := by
  unfold vertexGet
  rw [Prog.run_bind_ok (Prog.run_getCf _ _ _)]
  cases h : (s.kv .vertices).get (vertexKey X id) with
  | none => simp [graph, h]
  | some b =>
    obtain ⟨id', t, hk, rfl⟩ := hw.vertices _ _ h
    simp only [graph, h, readIdentifier_self, Option.bind_some, Except.toOption, Option.map_some]
    rfl

theorem vertexExists_run (id : Uuid) (s : Rocks) :
    (vertexExists X id).run s = (s, .ok ((s.kv .vertices).contains (vertexKey X id))) := rfl

theorem vertex_isSome (s : Rocks) (hw : Wf X s.kv) (id : Uuid) :
    (s.kv .vertices).contains (vertexKey X id) = ((graph X s).vertex id).isSome := by
  cases h : (s.kv .vertices).get (vertexKey X id) with
  | none => simp [SMap.contains, graph, h]
  | some b =>
    obtain ⟨id', t, hk, rfl⟩ := hw.vertices _ _ h
    simp [SMap.contains, graph, h, readIdentifier_self, Except.toOption]

theorem vertex_some (s : Rocks) (hw : Wf X s.kv) (id : Uuid) (t : Identifier) :
    (graph X s).vertex id = some t ↔ (s.kv .vertices).get (vertexKey X id) = some (identBytes t) := by
  cases h : (s.kv .vertices).get (vertexKey X id) with
  | none => simp [graph, h]
  | some b =>
    obtain ⟨id', t', hk, rfl⟩ := hw.vertices _ _ h
    simp only [graph, h, readIdentifier_self, Except.toOption, Option.bind_some, Option.map_some, Option.some.injEq]
    exact ⟨fun h => by rw [h], ident_inj⟩

theorem vpGet_run (id : Uuid) (n : Identifier) (s : Rocks) (hr : Readable X s.kv) :
    (vpGet X id n).run s = (s, .ok ((graph X s).vprop id n)) := by
  unfold vpGet
  rw [Prog.run_bind_ok (Prog.run_getCf _ _ _)]
  cases h : (s.kv .vertexProperties).get (vpKey X id n) with
  | none => simp [graph, h]
  | some b =>
    obtain ⟨x, hx⟩ := hr.vprops _ _ h
    simp only [graph, h, fromSlice, hx, Option.bind_some]
    rfl

theorem epGet_run (e : Edge) (n : Identifier) (s : Rocks) (hr : Readable X s.kv) :
    (epGet X e n).run s = (s, .ok ((graph X s).eprop e n)) := by
  unfold epGet
  rw [Prog.run_bind_ok (Prog.run_getCf _ _ _)]
  cases h : (s.kv .edgeProperties).get (epKey X e n) with
  | none => simp [graph, h]
  | some b =>
    obtain ⟨x, hx⟩ := hr.eprops _ _ h
    simp only [graph, h, fromSlice, hx, Option.bind_some]
    rfl

/-- The vertices listed from an id. -/
def vertexList (X : Cfg) (s : Rocks) (id : Uuid) : List Vertex :=
  okItems (vertexItem X) ((s.kv .vertices).rangeFrom (vertexKey X id))

theorem vertexIterate_run (id : Uuid) (s : Rocks) (hw : Wf X s.kv) :
    (vertexIterate X id).run s = (s, .ok ((vertexList X s id).map .ok)) := by
  unfold vertexIterate
  rw [Prog.run_bind_ok (Prog.run_iteratorCf _ _ _), Prog.run_pure, mapItems_ok]
  congr 2
  apply map_okItems
  intro e he
  obtain ⟨id', t, h1, h2⟩ := hw.vertices _ _ (SMap.mem_rangeFrom.1 he).1
  refine ⟨⟨id', t⟩, ?_⟩
  have : e = (vertexKey X id', identBytes t) := Prod.ext h1 h2
  rw [this, vertexItem_ok]

theorem vertexList_enum (s : Rocks) (hw : Wf X s.kv) (lo : Uuid) :
    Enumerates vertexLt (vertexList X s lo)
      (fun v => (graph X s).vertex v.id = some v.t ∧ Order.lt v.id lo = false) := by
  constructor
  · refine okItems_pairwise (SMap.rangeFrom_sorted _ _) ?_
    intro e he e' he' hlt a b ha hb
    obtain ⟨id, t, h1, h2⟩ := hw.vertices _ _ (SMap.mem_rangeFrom.1 he).1
    obtain ⟨id', t', h1', h2'⟩ := hw.vertices _ _ (SMap.mem_rangeFrom.1 he').1
    have e1 : e = (vertexKey X id, identBytes t) := Prod.ext h1 h2
    have e2 : e' = (vertexKey X id', identBytes t') := Prod.ext h1' h2'
    subst e1 e2
    rw [vertexItem_ok] at ha hb
    cases ha; cases hb
    simp only [vertexKey_eq] at hlt
    exact hlt
  · intro v
    rw [vertexList, mem_okItems, vertex_some s hw]
    constructor
    · rintro ⟨e, he, ha⟩
      have hm := SMap.mem_rangeFrom.1 he
      obtain ⟨id, t, h1, h2⟩ := hw.vertices _ _ hm.1
      have e1 : e = (vertexKey X id, identBytes t) := Prod.ext h1 h2
      subst e1
      rw [vertexItem_ok] at ha
      cases ha
      refine ⟨hm.1, ?_⟩
      have := hm.2
      simp only [vertexKey_eq] at this
      exact this
    · rintro ⟨h1, h2⟩
      refine ⟨(vertexKey X v.id, identBytes v.t), SMap.mem_rangeFrom.2 ⟨h1, ?_⟩, vertexItem_ok _ _⟩
      simp only [vertexKey_eq]
      exact h2

theorem nil_not_lt (lo : Uuid) : Order.lt lo Uuid.nil = false := Uuid.not_lt_nil lo

/-- Edges listed in one of the edge tables. -/
theorem edges_enum {m : SMap Bytes Bytes} (hm : ∀ k v, m.get k = some v → ∃ e, k = edgeKey X e) (L : List (Bytes × Bytes))
    (p : Bytes → Prop) (hL : ∀ e : Bytes × Bytes, e ∈ L ↔ m.get e.1 = some e.2 ∧ p e.1)
    (hs : L.Pairwise (fun a b => Order.lt a.1 b.1 = true)) :
    L.map edgeItem = (okItems edgeItem L).map .ok ∧
    Enumerates (conv X).edgeLt (okItems edgeItem L)
      (fun e => m.contains (edgeKey X e) = true ∧ p (edgeKey X e)) := by
  refine ⟨?_, ?_, ?_⟩
  · apply map_okItems
    intro e he
    obtain ⟨e', h⟩ := hm _ _ ((hL e).1 he).1
    refine ⟨e', ?_⟩
    have : e = (edgeKey X e', e.2) := Prod.ext h rfl
    rw [this, edgeItem_ok]
  · refine okItems_pairwise hs ?_
    intro e he e' he' hlt a b ha hb
    obtain ⟨f, h⟩ := hm _ _ ((hL e).1 he).1
    obtain ⟨f', h'⟩ := hm _ _ ((hL e').1 he').1
    have e1 : e = (edgeKey X f, e.2) := Prod.ext h rfl
    have e2 : e' = (edgeKey X f', e'.2) := Prod.ext h' rfl
    rw [e1, edgeItem_ok] at ha
    rw [e2, edgeItem_ok] at hb
    cases ha; cases hb
    rw [h, h'] at hlt
    exact hlt
  · intro f
    rw [mem_okItems, SMap.contains_iff]
    constructor
    · rintro ⟨e, he, ha⟩
      have h1 := (hL e).1 he
      obtain ⟨f', h⟩ := hm _ _ h1.1
      have e1 : e = (edgeKey X f', e.2) := Prod.ext h rfl
      rw [e1, edgeItem_ok] at ha
      cases ha
      rw [← h]
      exact ⟨⟨_, h1.1⟩, h1.2⟩
    · rintro ⟨⟨v, hv⟩, hp⟩
      exact ⟨(edgeKey X f, v), (hL _).2 ⟨hv, hp⟩, edgeItem_ok _ _⟩

theorem edgeIterateRange_run (cf : CF) (lo : Edge) (s : Rocks)
    (hm : ∀ k v, (s.kv cf).get k = some v → ∃ e, k = edgeKey X e) :
    ∃ l : List Edge, (edgeIterateRange X cf lo).run s = (s, .ok (l.map .ok)) ∧
      Enumerates (conv X).edgeLt l
        (fun e => (s.kv cf).contains (edgeKey X e) = true ∧ (conv X).edgeLt e lo = false) := by
  have h := edges_enum hm ((s.kv cf).rangeFrom (edgeKey X lo)) (fun k => Order.lt k (edgeKey X lo) = false)
    (fun e => SMap.mem_rangeFrom) (SMap.rangeFrom_sorted _ _)
  refine ⟨_, ?_, h.2⟩
  unfold edgeIterateRange
  rw [Prog.run_bind_ok (Prog.run_iteratorCf _ _ _), Prog.run_pure, mapItems_ok, h.1]

theorem edgeIterateAll_run (cf : CF) (s : Rocks)
    (hm : ∀ k v, (s.kv cf).get k = some v → ∃ e, k = edgeKey X e) :
    ∃ l : List Edge, (edgeIterateAll cf).run s = (s, .ok (l.map .ok)) ∧
      Enumerates (conv X).edgeLt l (fun e => (s.kv cf).contains (edgeKey X e) = true) := by
  have h := edges_enum hm (s.kv cf).toList (fun _ => True)
    (fun e => by rw [SMap.mem_toList']; simp) (s.kv cf).sorted
  refine ⟨okItems edgeItem (s.kv cf).toList, ?_, h.2.sorted, fun x => by rw [h.2.mem]; simp⟩
  unfold edgeIterateAll
  rw [Prog.run_bind_ok (Prog.run_iteratorCf _ _ _), Prog.run_pure, rangeFrom_nil, mapItems_ok, h.1]

theorem prefix_sorted (m : SMap Bytes Bytes) (p : Bytes) :
    (m.toList.filter (fun e => p.isPrefixOf e.1)).Pairwise (fun a b => Order.lt a.1 b.1 = true) := m.sorted.filter _

theorem mem_prefix {m : SMap Bytes Bytes} {p : Bytes} {e : Bytes × Bytes} :
    e ∈ m.toList.filter (fun e => p.isPrefixOf e.1) ↔ m.get e.1 = some e.2 ∧ p.isPrefixOf e.1 = true := by
  rw [List.mem_filter, SMap.mem_toList']

theorem edgeIterateRoot_run (cf : CF) (id : Uuid) (s : Rocks)
    (hm : ∀ k v, (s.kv cf).get k = some v → ∃ e, k = edgeKey X e) :
    ∃ l : List Edge, (edgeIterateRoot X cf id).run s = (s, .ok (l.map .ok)) ∧
      ∀ e, e ∈ l ↔ (s.kv cf).contains (edgeKey X e) = true ∧ e.outboundId = id := by
  have h := edges_enum hm ((s.kv cf).toList.filter (fun e => id.bytes.isPrefixOf e.1))
    (fun k => id.bytes.isPrefixOf k = true) (fun e => mem_prefix) (prefix_sorted _ _)
  refine ⟨okItems edgeItem ((s.kv cf).toList.filter (fun e => id.bytes.isPrefixOf e.1)), ?_, ?_⟩
  · unfold edgeIterateRoot
    rw [Prog.run_bind_ok (Prog.run_iteratorCf _ _ _), Prog.run_pure]
    have : build X.H [.uuid id] = id.bytes := by simp [build_cons]
    rw [this, takeWithPrefix_eq, mapItems_ok, h.1]
  · intro e
    rw [h.2.mem]
    constructor
    · rintro ⟨h1, h2⟩
      rw [edgeKey_eq, uuid_prefix] at h2
      exact ⟨h1, h2.symm⟩
    · rintro ⟨h1, h2⟩
      refine ⟨h1, ?_⟩
      rw [edgeKey_eq, uuid_prefix]; exact h2.symm

/-! ### Properties -/

theorem vpIterate_run (id : Uuid) (s : Rocks) (hw : Wf X s.kv) (hr : Readable X s.kv) :
    ∃ l : List (Uuid × Identifier × Json), (vpIterate X id).run s = (s, .ok (l.map .ok)) ∧
      l.Pairwise (fun a b => Order.lt a.2.1 b.2.1 = true) ∧
      ∀ x, x ∈ l ↔ x.1 = id ∧ (graph X s).vprop id x.2.1 = some x.2.2 := by
  have hb : build X.H [.uuid id] = id.bytes := by simp [build_cons]
  have key : ∀ e, e ∈ (s.kv .vertexProperties).toList.filter (fun e => id.bytes.isPrefixOf e.1) →
      ∃ n x, e.1 = vpKey X id n ∧ X.codec.dec e.2 = some x ∧ vpItem X id e = .ok (id, n, x) ∧
        (s.kv .vertexProperties).get (vpKey X id n) = some e.2 := by
    intro e he
    obtain ⟨h1, h2⟩ := mem_prefix.1 he
    obtain ⟨id', n, hk⟩ := hw.vprops _ _ h1
    obtain ⟨x, hx⟩ := hr.vprops _ _ h1
    rw [hk, vpKey_eq, uuid_prefix] at h2
    subst h2
    refine ⟨n, x, hk, hx, ?_, by rw [← hk]; exact h1⟩
    have : e = (vpKey X id n, e.2) := Prod.ext hk rfl
    rw [this]; exact vpItem_ok _ _ _ _ hx
  refine ⟨okItems (vpItem X id) ((s.kv .vertexProperties).toList.filter (fun e => id.bytes.isPrefixOf e.1)), ?_, ?_, ?_⟩
  · unfold vpIterate
    rw [Prog.run_bind_ok (Prog.run_iteratorCf _ _ _), Prog.run_pure, hb, takeWithPrefix_eq, mapItems_ok]
    congr 2
    apply map_okItems
    intro e he
    obtain ⟨n, x, _, _, h, _⟩ := key e he
    exact ⟨_, h⟩
  · refine okItems_pairwise (prefix_sorted _ _) ?_
    intro e he e' he' hlt a b ha hb'
    obtain ⟨n, x, hk, _, h, _⟩ := key e he
    obtain ⟨n', x', hk', _, h', _⟩ := key e' he'
    rw [h] at ha; rw [h'] at hb'
    cases ha; cases hb'
    rw [hk, hk', vpKey_eq, vpKey_eq] at hlt
    have hlt' : lexLt (id.bytes ++ n.bytes) (id.bytes ++ n'.bytes) = true := hlt
    rw [lexLt_append_left] at hlt'
    exact hlt'
  · rintro ⟨i, n, x⟩
    rw [mem_okItems]
    constructor
    · rintro ⟨e, he, h⟩
      obtain ⟨n', x', hk, hx, h', hg⟩ := key e he
      rw [h'] at h
      cases h
      refine ⟨rfl, ?_⟩
      simp [graph, hg, hx]
    · rintro ⟨rfl, h⟩
      simp only [graph, Option.bind_eq_some_iff] at h
      obtain ⟨b, hg, hx⟩ := h
      refine ⟨(vpKey X i n, b), mem_prefix.2 ⟨hg, ?_⟩, vpItem_ok _ _ _ _ hx⟩
      rw [vpKey_eq, uuid_prefix]

theorem epIterate_run (f : Edge) (s : Rocks) (hw : Wf X s.kv) (hr : Readable X s.kv) :
    ∃ l : List (Edge × Identifier × Json), (epIterate X f).run s = (s, .ok (l.map .ok)) ∧
      l.Pairwise (fun a b => Order.lt a.2.1 b.2.1 = true) ∧
      ∀ x, x ∈ l ↔ x.1 = f ∧ (graph X s).eprop f x.2.1 = some x.2.2 := by
  have hb : build X.H [.uuid f.outboundId, .identifier f.t, .uuid f.inboundId] = edgeKey X f := rfl
  have key : ∀ e, e ∈ (s.kv .edgeProperties).toList.filter (fun e => (edgeKey X f).isPrefixOf e.1) →
      ∃ n x, e.1 = epKey X f n ∧ X.codec.dec e.2 = some x ∧ epItem X f e = .ok (f, n, x) ∧
        (s.kv .edgeProperties).get (epKey X f n) = some e.2 := by
    intro e he
    obtain ⟨h1, h2⟩ := mem_prefix.1 he
    obtain ⟨f', n, hk⟩ := hw.eprops _ _ h1
    obtain ⟨x, hx⟩ := hr.eprops _ _ h1
    rw [hk, epKey_eq, edge_prefix] at h2
    subst h2
    refine ⟨n, x, hk, hx, ?_, by rw [← hk]; exact h1⟩
    have : e = (epKey X f n, e.2) := Prod.ext hk rfl
    rw [this]; exact epItem_ok _ _ _ _ hx
  refine ⟨okItems (epItem X f) ((s.kv .edgeProperties).toList.filter (fun e => (edgeKey X f).isPrefixOf e.1)), ?_, ?_, ?_⟩
  · unfold epIterate
    rw [Prog.run_bind_ok (Prog.run_iteratorCf _ _ _), Prog.run_pure, hb, takeWithPrefix_eq, mapItems_ok]
    congr 2
    apply map_okItems
    intro e he
    obtain ⟨n, x, _, _, h, _⟩ := key e he
    exact ⟨_, h⟩
  · refine okItems_pairwise (prefix_sorted _ _) ?_
    intro e he e' he' hlt a b ha hb'
    obtain ⟨n, x, hk, _, h, _⟩ := key e he
    obtain ⟨n', x', hk', _, h', _⟩ := key e' he'
    rw [h] at ha; rw [h'] at hb'
    cases ha; cases hb'
    rw [hk, hk', epKey_eq, epKey_eq] at hlt
    have hlt' : lexLt (edgeKey X f ++ n.bytes) (edgeKey X f ++ n'.bytes) = true := hlt
    rw [lexLt_append_left] at hlt'
    exact hlt'
  · rintro ⟨i, n, x⟩
    rw [mem_okItems]
    constructor
    · rintro ⟨e, he, h⟩
      obtain ⟨n', x', hk, hx, h', hg⟩ := key e he
      rw [h'] at h
      cases h
      refine ⟨rfl, ?_⟩
      simp [graph, hg, hx]
    · rintro ⟨rfl, h⟩
      simp only [graph, Option.bind_eq_some_iff] at h
      obtain ⟨b, hg, hx⟩ := h
      refine ⟨(epKey X i n, b), mem_prefix.2 ⟨hg, ?_⟩, epItem_ok _ _ _ _ hx⟩
      rw [epKey_eq, edge_prefix]

theorem propItems_run {ω : Type} {p : Prog (DynIter (ω × Identifier × Json))} {s : Rocks} {l : List (ω × Identifier × Json)}
    (h : p.run s = (s, .ok (l.map .ok))) : (propItems p).run s = (s, .ok ((l.map (·.2)).map .ok)) := by
  unfold propItems
  rw [Prog.run_bind_ok h, collect_map_ok, Prog.run_bind_ok (Prog.run_lift _ _), Prog.run_pure, List.map_map]
  rfl

/-! ### The index -/

theorem vhKey_drop (n : Identifier) (h : UInt64) (id : Uuid) : (vhKey n h id).drop ((identBytes n).length + 8) = id.bytes := by
  unfold vhKey
  rw [← List.append_assoc, ← be64_length h, ← List.length_append, List.drop_left]

theorem ehKey_drop (n : Identifier) (h : UInt64) (e : Edge) :
    (ehKey X n h e).drop ((identBytes n).length + 8) = edgeKey X e := by
  unfold ehKey
  rw [← List.append_assoc, ← be64_length h, ← List.length_append, List.drop_left]

theorem vlisted_iff (s : Rocks) (hw : Wf X s.kv) (n : Identifier) (i : Uuid) :
    listed (s.kv .vertexPropertyValues) n i.bytes = true ↔ ∃ h, vEntry s n h i = true := by
  unfold listed vEntry
  rw [List.any_eq_true]
  constructor
  · rintro ⟨e, he, hp⟩
    simp only [Bool.and_eq_true, decide_eq_true_eq] at hp
    have hg := SMap.mem_toList'.1 he
    obtain ⟨m, h, id, hk⟩ := hw.vindex _ _ hg
    rw [hk, vhKey, ident_prefix] at hp
    obtain ⟨rfl, hp⟩ := hp
    have h2 := vhKey_drop n h id
    rw [vhKey, hp] at h2
    have := Uuid.inj h2
    subst this
    refine ⟨h, SMap.contains_iff.2 ⟨e.2, ?_⟩⟩
    rw [← hk]; exact hg
  · rintro ⟨h, hc⟩
    obtain ⟨v, hv⟩ := SMap.contains_iff.1 hc
    refine ⟨(vhKey n h i, v), SMap.mem_toList.2 hv, ?_⟩
    simp only [Bool.and_eq_true, decide_eq_true_eq]
    refine ⟨?_, vhKey_drop _ _ _⟩
    simp only [vhKey, ident_prefix]

theorem elisted_iff (s : Rocks) (hw : Wf X s.kv) (n : Identifier) (f : Edge) :
    listed (s.kv .edgePropertyValues) n (edgeKey X f) = true ↔ ∃ h, eEntry X s n h f = true := by
  unfold listed eEntry
  rw [List.any_eq_true]
  constructor
  · rintro ⟨e, he, hp⟩
    simp only [Bool.and_eq_true, decide_eq_true_eq] at hp
    have hg := SMap.mem_toList'.1 he
    obtain ⟨m, h, id, hk⟩ := hw.eindex _ _ hg
    rw [hk, ehKey, ident_prefix] at hp
    obtain ⟨rfl, hp⟩ := hp
    have h2 := ehKey_drop (X := X) n h id
    rw [ehKey, hp] at h2
    have := edgeKey_inj.1 h2
    subst this
    refine ⟨h, SMap.contains_iff.2 ⟨e.2, ?_⟩⟩
    rw [← hk]; exact hg
  · rintro ⟨h, hc⟩
    obtain ⟨v, hv⟩ := SMap.contains_iff.1 hc
    refine ⟨(ehKey X n h f, v), SMap.mem_toList.2 hv, ?_⟩
    simp only [Bool.and_eq_true, decide_eq_true_eq]
    refine ⟨?_, ehKey_drop _ _ _⟩
    simp only [ehKey, ident_prefix]

/-- Listing vertex index entries with a prefix. -/
theorem vpvIterate_run (c : List Component) (P : Identifier → UInt64 → Prop) (s : Rocks) (hw : Wf X s.kv)
    (hp : ∀ n h id, (build X.H c).isPrefixOf (vhKey n h id) = true ↔ P n h) :
    ∃ l : List Uuid, (vpvIterate X c).run s = (s, .ok (l.map .ok)) ∧
      (∀ id, id ∈ l ↔ ∃ n h, P n h ∧ vEntry s n h id = true) ∧
      ((∀ n h n' h' id, P n h → P n' h' → vEntry s n h id = true → vEntry s n' h' id = true → n = n' ∧ h = h') →
        l.Nodup) := by
  have key : ∀ e, e ∈ (s.kv .vertexPropertyValues).toList.filter (fun e => (build X.H c).isPrefixOf e.1) →
      ∃ n h id, e.1 = vhKey n h id ∧ P n h ∧ vEntry s n h id = true ∧ vpvItem e = .ok id := by
    intro e he
    obtain ⟨h1, h2⟩ := mem_prefix.1 he
    obtain ⟨n, h, id, hk⟩ := hw.vindex _ _ h1
    rw [hk, hp] at h2
    refine ⟨n, h, id, hk, h2, SMap.contains_iff.2 ⟨e.2, by rw [← hk]; exact h1⟩, ?_⟩
    have : e = (vhKey n h id, e.2) := Prod.ext hk rfl
    rw [this]; exact vpvItem_ok _ _ _ _
  refine ⟨okItems vpvItem ((s.kv .vertexPropertyValues).toList.filter (fun e => (build X.H c).isPrefixOf e.1)), ?_, ?_, ?_⟩
  · unfold vpvIterate
    rw [Prog.run_bind_ok (Prog.run_iteratorCf _ _ _), Prog.run_pure, takeWithPrefix_eq, mapItems_ok]
    congr 2
    apply map_okItems
    intro e he
    obtain ⟨n, h, id, _, _, _, hi⟩ := key e he
    exact ⟨_, hi⟩
  · intro id
    rw [mem_okItems]
    constructor
    · rintro ⟨e, he, hi⟩
      obtain ⟨n, h, id', _, hP, hE, hi'⟩ := key e he
      rw [hi'] at hi; cases hi
      exact ⟨n, h, hP, hE⟩
    · rintro ⟨n, h, hP, hE⟩
      obtain ⟨v, hv⟩ := SMap.contains_iff.1 hE
      exact ⟨(vhKey n h id, v), mem_prefix.2 ⟨hv, (hp n h id).2 hP⟩, vpvItem_ok _ _ _ _⟩
  · intro hu
    refine okItems_pairwise (prefix_sorted _ _) ?_
    intro e he e' he' hlt a b ha hb
    obtain ⟨n, h, id, hk, hP, hE, hi⟩ := key e he
    obtain ⟨n', h', id', hk', hP', hE', hi'⟩ := key e' he'
    rw [hi] at ha; rw [hi'] at hb
    cases ha; cases hb
    intro hab
    subst hab
    obtain ⟨rfl, rfl⟩ := hu _ _ _ _ _ hP hP' hE hE'
    rw [hk, hk', Order.irrefl] at hlt
    simp at hlt

/-- Listing edge index entries with a prefix. -/
theorem epvIterate_run (c : List Component) (P : Identifier → UInt64 → Prop) (s : Rocks) (hw : Wf X s.kv)
    (hp : ∀ n h e, (build X.H c).isPrefixOf (ehKey X n h e) = true ↔ P n h) :
    ∃ l : List Edge, (epvIterate X c).run s = (s, .ok (l.map .ok)) ∧
      (∀ id, id ∈ l ↔ ∃ n h, P n h ∧ eEntry X s n h id = true) ∧
      ((∀ n h n' h' id, P n h → P n' h' → eEntry X s n h id = true → eEntry X s n' h' id = true → n = n' ∧ h = h') →
        l.Nodup) := by
  have key : ∀ e, e ∈ (s.kv .edgePropertyValues).toList.filter (fun e => (build X.H c).isPrefixOf e.1) →
      ∃ n h id, e.1 = ehKey X n h id ∧ P n h ∧ eEntry X s n h id = true ∧ epvItem e = .ok id := by
    intro e he
    obtain ⟨h1, h2⟩ := mem_prefix.1 he
    obtain ⟨n, h, id, hk⟩ := hw.eindex _ _ h1
    rw [hk, hp] at h2
    refine ⟨n, h, id, hk, h2, SMap.contains_iff.2 ⟨e.2, by rw [← hk]; exact h1⟩, ?_⟩
    have : e = (ehKey X n h id, e.2) := Prod.ext hk rfl
    rw [this]; exact epvItem_ok _ _ _ _
  refine ⟨okItems epvItem ((s.kv .edgePropertyValues).toList.filter (fun e => (build X.H c).isPrefixOf e.1)), ?_, ?_, ?_⟩
  · unfold epvIterate
    rw [Prog.run_bind_ok (Prog.run_iteratorCf _ _ _), Prog.run_pure, takeWithPrefix_eq, mapItems_ok]
    congr 2
    apply map_okItems
    intro e he
    obtain ⟨n, h, id, _, _, _, hi⟩ := key e he
    exact ⟨_, hi⟩
  · intro id
    rw [mem_okItems]
    constructor
    · rintro ⟨e, he, hi⟩
      obtain ⟨n, h, id', _, hP, hE, hi'⟩ := key e he
      rw [hi'] at hi; cases hi
      exact ⟨n, h, hP, hE⟩
    · rintro ⟨n, h, hP, hE⟩
      obtain ⟨v, hv⟩ := SMap.contains_iff.1 hE
      exact ⟨(ehKey X n h id, v), mem_prefix.2 ⟨hv, (hp n h id).2 hP⟩, epvItem_ok _ _ _ _⟩
  · intro hu
    refine okItems_pairwise (prefix_sorted _ _) ?_
    intro e he e' he' hlt a b ha hb
    obtain ⟨n, h, id, hk, hP, hE, hi⟩ := key e he
    obtain ⟨n', h', id', hk', hP', hE', hi'⟩ := key e' he'
    rw [hi] at ha; rw [hi'] at hb
    cases ha; cases hb
    intro hab
    subst hab
    obtain ⟨rfl, rfl⟩ := hu _ _ _ _ _ hP hP' hE hE'
    rw [hk, hk', Order.irrefl] at hlt
    simp at hlt

theorem existingIds_run (l : List Uuid) (s : Rocks) :
    (existingIds X (l.map .ok)).run s =
      (s, .ok ((l.filter (fun id => (s.kv .vertices).contains (vertexKey X id))).map .ok)) := by
  unfold existingIds
  rw [Prog.run_filterMapItems (g := fun id => if (s.kv .vertices).contains (vertexKey X id) then some id else none)]
  · congr 3
    induction l with
    | nil => rfl
    | cons a r ih =>
      rw [List.filterMap_cons, List.filter_cons]
      by_cases h : (s.kv .vertices).contains (vertexKey X a) = true <;> simp [h, ih]
  · intro id _
    rw [Prog.run_bind_ok (vertexExists_run id s)]
    rfl

theorem ifIndexed_eval {α : Type} (n : Identifier) (p : Prog (DynIter α)) (s : Rocks) (l : List α)
    (h : p.run s = (s, .ok (l.map .ok))) :
    (ifIndexed n p).eval s = if (graph X s).indexed n then .ok (some (l.map .ok)) else .ok none := by
  unfold ifIndexed Prog.eval
  rw [Prog.run_readLock]
  show ((if s.indexed.contains n = true then _ else _ : Prog _).run s).2 = if s.indexed.contains n = true then _ else _
  split
  · rw [Prog.run_bind_ok h]; rfl
  · rfl

theorem lookupItems_eval {α β : Type} {f : α → Prog (Option β)} {g : α → Option β} {s : Rocks} {l : List α}
    (h : ∀ a ∈ l, (f a).run s = (s, .ok (g a))) : (lookupItems f l).eval s = .ok ((l.filterMap g).map .ok) := by
  unfold lookupItems Prog.eval
  rw [Prog.run_filterMapItems h]

theorem filterMap_if {α : Type} (p : α → Bool) (l : List α) :
    l.filterMap (fun a => if p a then some a else none) = l.filter p := by
  induction l with
  | nil => rfl
  | cons a r ih => rw [List.filterMap_cons, List.filter_cons]; by_cases h : p a = true <;> simp [h, ih]

theorem vPrefix_name (n : Identifier) : ∀ m h id, (build X.H [.identifier n]).isPrefixOf (vhKey m h id) = true ↔ m = n := by
  intro m h id
  have : build X.H [.identifier n] = identBytes n := by simp [build_cons]
  rw [this, vhKey, ident_prefix]; exact eq_comm

theorem ePrefix_name (n : Identifier) : ∀ m h e, (build X.H [.identifier n]).isPrefixOf (ehKey X m h e) = true ↔ m = n := by
  intro m h id
  have : build X.H [.identifier n] = identBytes n := by simp [build_cons]
  rw [this, ehKey, ident_prefix]; exact eq_comm

theorem vPrefix_value (n : Identifier) (v : Json) :
    ∀ m h id, (build X.H [.identifier n, .json v]).isPrefixOf (vhKey m h id) = true ↔ (m = n ∧ h = X.H v.stream) := by
  intro m h id
  have : build X.H [.identifier n, .json v] = identBytes n ++ be64 (X.H v.stream) := by simp [build_cons]
  rw [this, vhKey, hash_prefix]
  exact ⟨fun h => ⟨h.1.symm, h.2.symm⟩, fun h => ⟨h.1.symm, h.2.symm⟩⟩

theorem ePrefix_value (n : Identifier) (v : Json) :
    ∀ m h e, (build X.H [.identifier n, .json v]).isPrefixOf (ehKey X m h e) = true ↔ (m = n ∧ h = X.H v.stream) := by
  intro m h id
  have : build X.H [.identifier n, .json v] = identBytes n ++ be64 (X.H v.stream) := by simp [build_cons]
  rw [this, ehKey, hash_prefix]
  exact ⟨fun h => ⟨h.1.symm, h.2.symm⟩, fun h => ⟨h.1.symm, h.2.symm⟩⟩

theorem faithful (s : Rocks) (hw : Wf X s.kv) (hr : Readable X s.kv) :
    Faithful (reads X s) (graph X s) (index X s) (conv X) where
  allVertices := by
    refine ⟨vertexList X s Uuid.nil, ?_, ?_, ?_⟩
    · simp [Yields, reads, Prog.eval, vertexIterate_run _ _ hw]
    · simp [reads, Prog.eval, vertexIterate_run _ _ hw]
    · have := vertexList_enum s hw Uuid.nil
      exact ⟨this.sorted, fun v => by rw [this.mem]; simp [Uuid.not_lt_nil]⟩
  rangeVertices id := by
    refine ⟨vertexList X s id, ?_, vertexList_enum s hw id⟩
    simp [Yields, reads, Prog.eval, vertexIterate_run _ _ hw]
  specificVertices ids := by
    simp only [Yields, reads]
    rw [lookupItems_eval (g := fun id => ((graph X s).vertex id).map (fun t => ⟨id, t⟩))]
    · rfl
    · intro id _
      rw [Prog.run_bind_ok (vertexGet_run id s hw)]; rfl
  vIds n := by
    obtain ⟨l, h1, h2, h3⟩ := vpvIterate_run [.identifier n] (fun m _ => m = n) s hw (vPrefix_name n)
    have hrun : (do existingIds X (← vpvIterate X [.identifier n])).run s = _ :=
      (Prog.run_bind_ok h1).trans (existingIds_run l s)
    simp only [YieldsIndex, reads]
    rw [ifIndexed_eval (X := X) n _ s _ hrun]
    split
    · refine ⟨_, rfl, ?_, ?_⟩
      · intro id
        rw [List.mem_filter, h2]
        simp only [index, Bool.and_eq_true, vlisted_iff s hw]
        constructor
        · rintro ⟨⟨m, h, rfl, hE⟩, hx⟩; exact ⟨⟨h, hE⟩, hx⟩
        · rintro ⟨⟨h, hE⟩, hx⟩; exact ⟨⟨n, h, rfl, hE⟩, hx⟩
      · intro hn
        refine (h3 ?_).filter _
        intro m h m' h' id hm hm' hE hE'
        subst hm hm'
        exact ⟨rfl, (hn _ _ _).1 id hE hE'⟩
    · rfl
  vIdsValue n v := by
    obtain ⟨l, h1, h2, h3⟩ := vpvIterate_run [.identifier n, .json v] (fun m h => m = n ∧ h = X.H v.stream) s hw
      (vPrefix_value n v)
    have hrun : (do existingIds X (← vpvIterate X [.identifier n, .json v])).run s = _ :=
      (Prog.run_bind_ok h1).trans (existingIds_run l s)
    simp only [YieldsIndex, reads]
    rw [ifIndexed_eval (X := X) n _ s _ hrun]
    split
    · refine ⟨_, rfl, ?_, ?_⟩
      · intro id
        rw [List.mem_filter, h2]
        simp only [index, Bool.and_eq_true]
        constructor
        · rintro ⟨⟨m, h, ⟨rfl, rfl⟩, hE⟩, hx⟩; exact ⟨hE, hx⟩
        · rintro ⟨hE, hx⟩; exact ⟨⟨n, _, ⟨rfl, rfl⟩, hE⟩, hx⟩
      · intro _
        refine (h3 ?_).filter _
        rintro m h m' h' id ⟨rfl, rfl⟩ ⟨rfl, rfl⟩ _ _
        exact ⟨rfl, rfl⟩
    · rfl
  allEdges := by
    obtain ⟨l, h1, h2⟩ := edgeIterateAll_run .edgeRanges s hw.edges
    refine ⟨l, ?_, ?_, h2⟩
    · simp [Yields, reads, Prog.eval, h1]
    · simp [reads, Prog.eval, h1]
  rangeEdges lo := by
    obtain ⟨l, h1, h2⟩ := edgeIterateRange_run .edgeRanges lo s hw.edges
    exact ⟨l, by simp [Yields, reads, Prog.eval, h1], h2⟩
  rangeReversedEdges lo := by
    obtain ⟨l, h1, h2⟩ := edgeIterateRange_run .reversedEdgeRanges lo s hw.reversed
    refine ⟨l, by simp [Yields, reads, Prog.eval, h1], h2.sorted, ?_⟩
    intro e
    rw [h2.mem, hw.mirror]; rfl
  specificEdges es := by
    simp only [Yields, reads]
    rw [lookupItems_eval (g := fun e => if (graph X s).edge e then some e else none)]
    · rw [filterMap_if]
    · intro e _; rfl
  eIds n := by
    obtain ⟨l, h1, h2, h3⟩ := epvIterate_run [.identifier n] (fun m _ => m = n) s hw (ePrefix_name n)
    simp only [YieldsIndex, reads]
    rw [ifIndexed_eval (X := X) n _ s _ h1]
    split
    · refine ⟨_, rfl, ?_, ?_⟩
      · intro id
        rw [h2]
        simp only [index, elisted_iff s hw]
        constructor
        · rintro ⟨m, h, rfl, hE⟩; exact ⟨h, hE⟩
        · rintro ⟨h, hE⟩; exact ⟨n, h, rfl, hE⟩
      · intro hn
        refine h3 ?_
        intro m h m' h' id hm hm' hE hE'
        subst hm hm'
        exact ⟨rfl, (hn _ _ _).2 id hE hE'⟩
    · rfl
  eIdsValue n v := by
    obtain ⟨l, h1, h2, h3⟩ := epvIterate_run [.identifier n, .json v] (fun m h => m = n ∧ h = X.H v.stream) s hw
      (ePrefix_value n v)
    simp only [YieldsIndex, reads]
    rw [ifIndexed_eval (X := X) n _ s _ h1]
    split
    · refine ⟨_, rfl, ?_, ?_⟩
      · intro id
        rw [h2]
        simp only [index]
        constructor
        · rintro ⟨m, h, ⟨rfl, rfl⟩, hE⟩; exact hE
        · intro hE; exact ⟨n, _, ⟨rfl, rfl⟩, hE⟩
      · intro _
        refine h3 ?_
        rintro m h m' h' id ⟨rfl, rfl⟩ ⟨rfl, rfl⟩ _ _
        exact ⟨rfl, rfl⟩
    · rfl
  vertexProperty v n := by simp [reads, Prog.eval, vpGet_run _ _ _ hr]
  allVertexProps v := by
    simp only [conv, Bool.false_eq_true, if_false]
    obtain ⟨l, h1, h2, h3⟩ := vpIterate_run v.id s hw hr
    refine ⟨l.map (·.2), by simp [Yields, reads, Prog.eval, propItems_run h1], ?_, ?_⟩
    · rw [List.pairwise_map]; exact h2
    · intro x
      rw [List.mem_map]
      constructor
      · rintro ⟨y, hy, rfl⟩; exact ((h3 y).1 hy).2
      · intro h; exact ⟨(v.id, x), (h3 _).2 ⟨rfl, h⟩, rfl⟩
  edgeProperty e n := by simp [reads, Prog.eval, epGet_run _ _ _ hr]
  allEdgeProps e := by
    obtain ⟨l, h1, h2, h3⟩ := epIterate_run e s hw hr
    refine ⟨l.map (·.2), by simp [Yields, reads, Prog.eval, propItems_run h1], ?_, ?_⟩
    · rw [List.pairwise_map]; exact h2
    · intro x
      rw [List.mem_map]
      constructor
      · rintro ⟨y, hy, rfl⟩; exact ((h3 y).1 hy).2
      · intro h; exact ⟨(e, x), (h3 _).2 ⟨rfl, h⟩, rfl⟩

end Rocks
end IndraDB
