import Verif.Proofs.Wire3
/-
Merging the fields of the other encoded messages gives them back.
-/
namespace IndraDB
open Wire

/-- Levels of a named property. -/
def PNamedProperty.depth (p : PNamedProperty) : Nat := max (flat p.value) (flat p.name)

theorem PNamedProperty.shapes (p : PNamedProperty) : Shapes p.fields :=
  (Shapes.opt (by omega) _ _).append (Shapes.opt (by omega) _ _)

theorem PNamedProperty.merge_fields (e : PNamedProperty) (hs : e.size < 2 ^ 64) (d : Nat) :
    mergeAll (PNamedProperty.merge d) ⟨none, none⟩ e.fields = if e.depth ≤ d then some e else none := by
  simp only [PNamedProperty.size] at hs
  rcases e with ⟨n, v⟩
  simp only at hs
  simp only [PNamedProperty.fields]
  rw [mergeAll_append, merge_json (put := fun v => (⟨none, v⟩ : PNamedProperty)) (d := d) (fun _ => rfl) v (by omega)]
  refine if_bind ?_
  exact merge_ident (put := fun n => (⟨n, v⟩ : PNamedProperty)) (d := d) (fun _ => rfl) n (by omega)

theorem PNamedProperty.sub_back (e : PNamedProperty) (h : e.size < 2 ^ 64) (d : Nat) :
    sub d PNamedProperty.merge ⟨none, none⟩ (.len (putFields e.fields)) = if 1 + e.depth ≤ d then some e else none :=
  sub_put e.shapes (by rw [PNamedProperty.len]; exact h) d (fun d _ => e.merge_fields h d)

/-- Levels of a vertex with properties. -/
def PVertexProperties.depth (p : PVertexProperties) : Nat :=
  max (optDepth PVertex.depth p.vertex) (repDepth PNamedProperty.depth p.props)
/-- Levels of an edge with properties. -/
def PEdgeProperties.depth (p : PEdgeProperties) : Nat :=
  max (optDepth PEdge.depth p.edge) (repDepth PNamedProperty.depth p.props)

theorem PVertexProperties.shapes (p : PVertexProperties) : Shapes p.fields :=
  (Shapes.opt (by omega) _ _).append (Shapes.rep (by omega) _ _)
theorem PEdgeProperties.shapes (p : PEdgeProperties) : Shapes p.fields :=
  (Shapes.opt (by omega) _ _).append (Shapes.rep (by omega) _ _)

theorem PVertexProperties.merge_fields (e : PVertexProperties) (hs : e.size < 2 ^ 64) (d : Nat) :
    mergeAll (PVertexProperties.merge d) ⟨none, []⟩ e.fields = if e.depth ≤ d then some e else none := by
  simp only [PVertexProperties.size] at hs
  rcases e with ⟨v, l⟩
  simp only at hs
  simp only [PVertexProperties.fields]
  rw [mergeAll_append, merge_opt (put := fun v => (⟨v, []⟩ : PVertexProperties)) (d := d) (fun _ => rfl) v
    (fun a ha => PVertex.sub_back a (size_opt (n := 2 ^ 64) (by omega) ha) d)]
  refine if_bind ?_
  exact merge_rep (put := fun l => (⟨v, l⟩ : PVertexProperties)) (d := d) (fun _ _ => rfl) l []
    (fun a ha => PNamedProperty.sub_back a (size_rep (n := 2 ^ 64) (by omega) a ha) d)

theorem PEdgeProperties.merge_fields (e : PEdgeProperties) (hs : e.size < 2 ^ 64) (d : Nat) :
    mergeAll (PEdgeProperties.merge d) ⟨none, []⟩ e.fields = if e.depth ≤ d then some e else none := by
  simp only [PEdgeProperties.size] at hs
  rcases e with ⟨v, l⟩
  simp only at hs
  simp only [PEdgeProperties.fields]
  rw [mergeAll_append, merge_opt (put := fun v => (⟨v, []⟩ : PEdgeProperties)) (d := d) (fun _ => rfl) v
    (fun a ha => PEdge.sub_back a (size_opt (n := 2 ^ 64) (by omega) ha) d)]
  refine if_bind ?_
  exact merge_rep (put := fun l => (⟨v, l⟩ : PEdgeProperties)) (d := d) (fun _ _ => rfl) l []
    (fun a ha => PNamedProperty.sub_back a (size_rep (n := 2 ^ 64) (by omega) a ha) d)

theorem PVertexProperties.sub_back (e : PVertexProperties) (h : e.size < 2 ^ 64) (d : Nat) :
    sub d PVertexProperties.merge ⟨none, []⟩ (.len (putFields e.fields)) = if 1 + e.depth ≤ d then some e else none :=
  sub_put e.shapes (by rw [PVertexProperties.len]; exact h) d (fun d _ => e.merge_fields h d)
theorem PEdgeProperties.sub_back (e : PEdgeProperties) (h : e.size < 2 ^ 64) (d : Nat) :
    sub d PEdgeProperties.merge ⟨none, []⟩ (.len (putFields e.fields)) = if 1 + e.depth ≤ d then some e else none :=
  sub_put e.shapes (by rw [PEdgeProperties.len]; exact h) d (fun d _ => e.merge_fields h d)

/-! ### Levels are few -/

theorem flat_le {α : Type} (o : Option α) : flat o ≤ 1 := by cases o <;> simp [flat, optDepth]
theorem optDepth_le {α : Type} {depth : α → Nat} {n : Nat} (h : ∀ a, depth a ≤ n) (o : Option α) :
    optDepth depth o ≤ 1 + n := by
  cases o with
  | none => exact Nat.zero_le _
  | some a => have := h a; simp only [optDepth]; omega
theorem repDepth_le {α : Type} {depth : α → Nat} {n : Nat} (h : ∀ a, depth a ≤ n) (l : List α) :
    repDepth depth l ≤ 1 + n := by
  induction l with
  | nil => exact Nat.zero_le _
  | cons a r ih => have := h a; simp only [repDepth]; omega
theorem PEdge.depth_le (e : PEdge) : e.depth ≤ 1 := by
  have := flat_le e.outboundId; have := flat_le e.t; have := flat_le e.inboundId
  simp only [PEdge.depth]; omega
theorem PVertex.depth_le (e : PVertex) : e.depth ≤ 1 := by
  have := flat_le e.id; have := flat_le e.t
  simp only [PVertex.depth]; omega
theorem PNamedProperty.depth_le (e : PNamedProperty) : e.depth ≤ 1 := by
  have := flat_le e.value; have := flat_le e.name
  simp only [PNamedProperty.depth]; omega
theorem PVertexProperties.depth_le (e : PVertexProperties) : e.depth ≤ 2 := by
  have := optDepth_le PVertex.depth_le e.vertex; have := repDepth_le PNamedProperty.depth_le e.props
  simp only [PVertexProperties.depth]; omega
theorem PEdgeProperties.depth_le (e : PEdgeProperties) : e.depth ≤ 2 := by
  have := optDepth_le PEdge.depth_le e.edge; have := repDepth_le PNamedProperty.depth_le e.props
  simp only [PEdgeProperties.depth]; omega

/-! ### Output values, items, requests -/

/-- A `uint64`. -/
def POutput.Small : POutput → Prop
  | .count n => n < 2 ^ 64
  | _ => True

theorem POutput.shapes {o : POutput} (h : o.Small) : Shapes o.fields := by
  cases o with
  | unset => exact Shapes.nil
  | count n => exact Shapes.one ⟨by omega, by omega, h⟩
  | _ => exact Shapes.msg (by omega) _

theorem rep_variant {α β : Type} {step : α → Wire.Field → Option α} {s : α} {tag d n : Nat} {fields : β → List Wire.Field}
    {size : β → Nat} {depth : β → Nat} {merge : Nat → β → Wire.Field → Option β} {empty : β}
    {mergeL : Nat → List β → Wire.Field → Option (List β)} {C : List β → α} {l : List β}
    (htag : tag < 16) (hstep : ∀ v, step s (tag, v) = (sub d mergeL [] v).map C)
    (hL : ∀ d l v, mergeL d l (1, v) = subRep d merge empty l v)
    (hlen : ∀ a, (putFields (fields a)).length = size a) (hl : lenField (repField size l) < 2 ^ 64)
    (hback : ∀ a, size a < 2 ^ 64 → ∀ d, sub d merge empty (.len (putFields (fields a))) = if 1 + depth a ≤ d then some a else none)
    (hn : ∀ a, depth a ≤ n) (hd : 2 + n ≤ d) :
    mergeAll step s [msgF tag (repF 1 fields l)] = some (C l) := by
  simp only [lenField] at hl
  have hr := repDepth_le hn l
  rw [variant (dq := 1 + repDepth depth l) (bd := repDepth depth l) (m := l) hstep (Shapes.rep (by omega) _ _)
    (by rw [len_rep (by omega) hlen]; omega) rfl (fun d' _ => merge_rep (put := id) (depth := depth) (step := mergeL d')
      (merge := merge) (empty := empty) (fun l v => by simp [hL]) l [] (fun a ha => hback a (size_rep (n := 2 ^ 64) (by omega) a ha) d'))]
  rw [if_pos (by omega)]

theorem POutput.merge_fields (o : POutput) (hs : o.size < 2 ^ 64) {d : Nat} (hd : 4 ≤ d) :
    mergeAll (POutput.merge d) .unset o.fields = some o := by
  cases o with
  | unset => rfl
  | count n => rfl
  | vertices l =>
    exact rep_variant (C := POutput.vertices) (mergeL := mergeVertices) (by omega) (fun _ => rfl) (fun _ _ _ => rfl) PVertex.len hs
      PVertex.sub_back PVertex.depth_le (by omega)
  | edges l =>
    exact rep_variant (C := POutput.edges) (mergeL := mergeEdges) (by omega) (fun _ => rfl) (fun _ _ _ => rfl) PEdge.len hs
      PEdge.sub_back PEdge.depth_le (by omega)
  | vertexProperties l =>
    exact rep_variant (C := POutput.vertexProperties) (mergeL := mergeVertexProperties) (by omega) (fun _ => rfl) (fun _ _ _ => rfl)
      PVertexProperties.len hs PVertexProperties.sub_back PVertexProperties.depth_le (by omega)
  | edgeProperties l =>
    exact rep_variant (C := POutput.edgeProperties) (mergeL := mergeEdgeProperties) (by omega) (fun _ => rfl) (fun _ _ _ => rfl)
      PEdgeProperties.len hs PEdgeProperties.sub_back PEdgeProperties.depth_le (by omega)

theorem PBulkInsertItem.shapes (i : PBulkInsertItem) : Shapes i.fields := by
  cases i with
  | unset => exact Shapes.nil
  | _ => exact Shapes.msg (by omega) _

theorem PBulkInsertItem.merge_fields (i : PBulkInsertItem) (hs : i.size < 2 ^ 64) {d : Nat} (hd : 4 ≤ d) :
    mergeAll (PBulkInsertItem.merge d) .unset i.fields = some i := by
  cases i with
  | unset => rfl
  | vertex v =>
    simp only [PBulkInsertItem.size, lenField] at hs
    have := v.depth_le
    simp only [PBulkInsertItem.fields]
    rw [variant (C := PBulkInsertItem.vertex) (dq := 1 + v.depth) (fun _ => rfl) v.shapes (by rw [PVertex.len]; omega) rfl
      (fun d' _ => v.merge_fields (by omega) d'), if_pos (by omega)]
  | edge v =>
    simp only [PBulkInsertItem.size, lenField] at hs
    have := v.depth_le
    simp only [PBulkInsertItem.fields]
    rw [variant (C := PBulkInsertItem.edge) (dq := 1 + v.depth) (fun _ => rfl) v.shapes (by rw [PEdge.len]; omega) rfl
      (fun d' _ => v.merge_fields (by omega) d'), if_pos (by omega)]
  | vertexProperty i n v =>
    have h1 := flat_le i; have h2 := flat_le v; have h3 := flat_le n
    have hl := PBulkInsertItem.len (.vertexProperty i n v)
    simp only [PBulkInsertItem.fields, len_msg (show 3 < 16 by omega), len_nil, lenField] at hl
    simp only [PBulkInsertItem.size, lenField] at hs hl
    simp only [PBulkInsertItem.fields]
    rw [variant (C := fun m => PBulkInsertItem.vertexProperty m.1 m.2.1 m.2.2) (m := (i, n, v)) (init := (none, none, none))
      (merge := mergeVertexItem) (bd := max (flat i) (max (flat v) (flat n))) (dq := 1 + max (flat i) (max (flat v) (flat n))) (fun _ => rfl)
      (((Shapes.opt (by omega) _ _).append (Shapes.opt (by omega) _ _)).append (Shapes.opt (by omega) _ _)) (by omega) rfl
      (fun d' _ => by
        rw [List.append_assoc, mergeAll_append,
          merge_uuid (put := fun i => (i, none, none)) (d := d') (fun _ => rfl) i (by omega)]
        refine if_bind ?_
        rw [mergeAll_append, merge_json (put := fun v => (i, none, v)) (d := d') (fun _ => rfl) v (by omega)]
        refine if_bind ?_
        exact merge_ident (put := fun n => (i, n, v)) (d := d') (fun _ => rfl) n (by omega)),
      if_pos (by omega)]
  | edgeProperty i n v =>
    have h1 := optDepth_le PEdge.depth_le i; have h2 := flat_le v; have h3 := flat_le n
    have hl := PBulkInsertItem.len (.edgeProperty i n v)
    simp only [PBulkInsertItem.fields, len_msg (show 4 < 16 by omega), len_nil, lenField] at hl
    simp only [PBulkInsertItem.size, lenField] at hs hl
    simp only [PBulkInsertItem.fields]
    rw [variant (C := fun m => PBulkInsertItem.edgeProperty m.1 m.2.1 m.2.2) (m := (i, n, v)) (init := (none, none, none))
      (merge := mergeEdgeItem) (bd := max (optDepth PEdge.depth i) (max (flat v) (flat n)))
      (dq := 1 + max (optDepth PEdge.depth i) (max (flat v) (flat n))) (fun _ => rfl)
      (((Shapes.opt (by omega) _ _).append (Shapes.opt (by omega) _ _)).append (Shapes.opt (by omega) _ _)) (by omega) rfl
      (fun d' _ => by
        rw [List.append_assoc, mergeAll_append,
          merge_opt (put := fun i => (i, none, none)) (d := d') (fun _ => rfl) i
            (fun a ha => PEdge.sub_back a (size_opt (n := 2 ^ 64) (by omega) ha) d')]
        refine if_bind ?_
        rw [mergeAll_append, merge_json (put := fun v => (i, none, v)) (d := d') (fun _ => rfl) v (by omega)]
        refine if_bind ?_
        exact merge_ident (put := fun n => (i, n, v)) (d := d') (fun _ => rfl) n (by omega)),
      if_pos (by omega)]

theorem PIndexPropertyRequest.merge_fields (r : PIndexPropertyRequest) (hs : r.size < 2 ^ 64) {d : Nat} (hd : 1 ≤ d) :
    mergeAll (PIndexPropertyRequest.merge d) ⟨none⟩ r.fields = some r := by
  have := flat_le r.name
  rcases r with ⟨n⟩
  rw [show (PIndexPropertyRequest.mk n).fields = optF 1 PIdentifier.fields n from rfl,
    merge_ident (put := fun n => (⟨n⟩ : PIndexPropertyRequest)) (d := d) (fun _ => rfl) n hs, if_pos (by simp only at this; omega)]

theorem PSetPropertiesRequest.shapes (r : PSetPropertiesRequest) : Shapes r.fields :=
  ((Shapes.opt (by omega) _ _).append (Shapes.opt (by omega) _ _)).append (Shapes.opt (by omega) _ _)

theorem PSetPropertiesRequest.merge_fields (r : PSetPropertiesRequest) (hs : r.size < 2 ^ 64) {d : Nat} (hd : 1 ≤ d) :
    mergeAll (PSetPropertiesRequest.merge d) ⟨none, none, none⟩ r.fields = if r.depth ≤ d then some r else none := by
  rcases r with ⟨q, n, v⟩
  simp only [PSetPropertiesRequest.size] at hs
  have h2 := flat_le v; have h3 := flat_le n
  have : (if (PSetPropertiesRequest.mk q n v).depth ≤ d then some (PSetPropertiesRequest.mk q n v) else none) =
      if max (optDepth PQuery.depth q) (max (flat n) (flat v)) ≤ d then some (PSetPropertiesRequest.mk q n v) else none := by
    have : (PSetPropertiesRequest.mk q n v).depth ≤ d ↔ max (optDepth PQuery.depth q) (max (flat n) (flat v)) ≤ d := by
      cases q with
      | none => simp only [PSetPropertiesRequest.depth, optDepth]; omega
      | some q => simp only [PSetPropertiesRequest.depth, optDepth]; omega
    by_cases h : max (optDepth PQuery.depth q) (max (flat n) (flat v)) ≤ d
    · rw [if_pos h, if_pos (this.2 h)]
    · rw [if_neg h, if_neg (fun h' => h (this.1 h'))]
  rw [this]
  simp only [PSetPropertiesRequest.fields, List.append_assoc]
  rw [mergeAll_append, merge_opt (put := fun q => (⟨q, none, none⟩ : PSetPropertiesRequest)) (d := d) (fun _ => rfl) q
    (fun a ha => sub_put (query_shapes a) (by rw [PQuery.len]; exact size_opt (n := 2 ^ 64) (by omega) ha) d
      (fun d' _ => PQuery.merge_fields a (size_opt (n := 2 ^ 64) (by omega) ha) d'))]
  refine if_bind ?_
  rw [mergeAll_append, merge_ident (put := fun n => (⟨q, n, none⟩ : PSetPropertiesRequest)) (d := d) (fun _ => rfl) n (by omega)]
  refine if_bind ?_
  exact merge_json (put := fun v => (⟨q, n, v⟩ : PSetPropertiesRequest)) (d := d) (fun _ => rfl) v (by omega)

theorem created_merge (b : Bool) (d : Nat) : mergeAll (mergeCreated d) false (createdFields b) = some b :=
  merge_bool (fun h => h.symm) (fun h => by rw [h]; rfl)

theorem PExecutePluginRequest.merge_fields (r : PExecutePluginRequest) (hs : r.size < 2 ^ 64) {d : Nat} (hd : 1 ≤ d) :
    mergeAll (PExecutePluginRequest.merge d) ⟨"", none⟩ r.fields = some r := by
  rcases r with ⟨n, v⟩
  have h2 := flat_le v
  simp only [PExecutePluginRequest.size] at hs
  simp only [PExecutePluginRequest.fields]
  rw [mergeAll_append, merge_bytes (t := (⟨n, none⟩ : PExecutePluginRequest)) (fun h => by rw [str_empty h])
    (by simp [PExecutePluginRequest.merge, asString, str_back]), Option.bind_some,
    merge_json (put := fun v => (⟨n, v⟩ : PExecutePluginRequest)) (d := d) (fun _ => rfl) v (by omega), if_pos (by omega)]

theorem pluginReply_merge (v : Option PJson) (hs : msgField PJson.size v < 2 ^ 64) {d : Nat} (hd : 1 ≤ d) :
    mergeAll (mergePluginReply d) none (pluginReplyFields v) = some v := by
  have h2 := flat_le v
  exact (merge_json (put := id) (d := d) (step := mergePluginReply d) (fun _ => by simp [mergePluginReply]) v hs).trans
    (if_pos (by omega))

/-! ### Over the wire -/

theorem decode_put {α : Type} {merge : Nat → α → Wire.Field → Option α} {empty a : α} {l : List Wire.Field} {c : Bool} (hs : Shapes l)
    (hl : (putFields l).length < 2 ^ 64) (h : mergeAll (merge 100) empty l = if c then some a else none) :
    decodeMsg merge empty (putFields l) = if c then some a else none := by
  rw [decodeMsg, getFields_shapes hs hl]; exact h

theorem transmit_put {α : Type} {merge : Nat → α → Wire.Field → Option α} {empty a : α} {l : List Wire.Field} {size depth : Nat} (hs : Shapes l)
    (hl : (putFields l).length = size)
    (h : size < 2 ^ 64 → mergeAll (merge 100) empty l = if depth ≤ 100 then some a else none) :
    transmit merge empty (putFields l) = if wireOk size depth then some a else none := by
  unfold transmit wireOk
  rw [hl]
  by_cases h1 : size ≤ 4194304
  · rw [if_pos h1, decodeMsg, getFields_shapes hs (by rw [hl]; omega)]
    simp only
    rw [h (by omega)]
    simp [h1]
  · rw [if_neg h1]
    simp [h1]

theorem PUuid.transmit (m : PUuid) : transmit PUuid.merge ⟨[]⟩ (putFields m.fields) = if wireOk m.size 4 then some m else none :=
  transmit_put m.shapes m.len (fun _ => by rw [m.merge_fields]; simp)
theorem PIdentifier.transmit (m : PIdentifier) :
    IndraDB.transmit PIdentifier.merge ⟨""⟩ (putFields m.fields) = if wireOk m.size 4 then some m else none :=
  transmit_put m.shapes m.len (fun _ => by rw [m.merge_fields]; simp)
theorem PVertex.transmit (m : PVertex) :
    IndraDB.transmit PVertex.merge ⟨none, none⟩ (putFields m.fields) = if wireOk m.size 4 then some m else none :=
  transmit_put m.shapes m.len (fun h => by
    have := m.depth_le
    rw [m.merge_fields h, if_pos (by omega)]; simp)
theorem PEdge.transmit (m : PEdge) :
    IndraDB.transmit PEdge.merge ⟨none, none, none⟩ (putFields m.fields) = if wireOk m.size 4 then some m else none :=
  transmit_put m.shapes m.len (fun h => by
    have := m.depth_le
    rw [m.merge_fields h, if_pos (by omega)]; simp)
theorem PQuery.transmit (m : PQuery) :
    IndraDB.transmit PQuery.merge .unset (putFields m.fields) = if wireOk m.size m.depth then some m else none :=
  transmit_put (query_shapes m) m.len (fun h => m.merge_fields h 100)
theorem PSetPropertiesRequest.transmit (m : PSetPropertiesRequest) :
    IndraDB.transmit PSetPropertiesRequest.merge ⟨none, none, none⟩ (putFields m.fields) = if wireOk m.size m.depth then some m else none :=
  transmit_put m.shapes m.len (fun h => m.merge_fields h (by omega))
theorem PIndexPropertyRequest.transmit (m : PIndexPropertyRequest) :
    IndraDB.transmit PIndexPropertyRequest.merge ⟨none⟩ (putFields m.fields) = if wireOk m.size 4 then some m else none :=
  transmit_put (Shapes.opt (by omega) _ _) m.len (fun h => by rw [m.merge_fields h (by omega)]; simp)
theorem PBulkInsertItem.transmit (m : PBulkInsertItem) :
    IndraDB.transmit PBulkInsertItem.merge .unset (putFields m.fields) = if wireOk m.size 4 then some m else none :=
  transmit_put m.shapes m.len (fun h => by rw [m.merge_fields h (by omega)]; simp)
theorem POutput.transmit (m : POutput) (hm : m.Small) :
    IndraDB.transmit POutput.merge .unset (putFields m.fields) = if wireOk m.size 4 then some m else none :=
  transmit_put (POutput.shapes hm) m.len (fun h => by rw [m.merge_fields h (by omega)]; simp)
theorem PExecutePluginRequest.transmit (m : PExecutePluginRequest) :
    IndraDB.transmit PExecutePluginRequest.merge ⟨"", none⟩ (putFields m.fields) = if wireOk m.size 4 then some m else none :=
  transmit_put ((Shapes.bytes (by omega) _).append (Shapes.opt (by omega) _ _)) m.len
    (fun h => by rw [m.merge_fields h (by omega)]; simp)
theorem pluginReply_transmit (v : Option PJson) :
    transmit mergePluginReply none (putFields (pluginReplyFields v)) = if wireOk (msgField PJson.size v) 4 then some v else none :=
  transmit_put (Shapes.opt (by omega) _ _) (len_opt (by omega) PJson.len v)
    (fun h => by rw [pluginReply_merge v h (by omega)]; simp)
theorem created_transmit (b : Bool) : transmit mergeCreated false (putFields (createdFields b)) = some b := by
  have := transmit_put (size := boolField b) (depth := 0) (a := b) (merge := mergeCreated) (empty := false) (Shapes.bool (by omega) b)
    (len_bool (show 1 < 16 by omega) b) (fun h => by rw [← createdFields, created_merge]; simp)
  rw [createdFields, this, if_pos]
  cases b <;> decide

end IndraDB
