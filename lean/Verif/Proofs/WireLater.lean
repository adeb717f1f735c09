import Verif.Proofs.WireCall
/-
Messages from programs knowing a later version of the protocol.
-/
namespace IndraDB
open Wire

/-- The same contents, or those of a message with unknown fields added. -/
def LaterVal : Option MsgKind → Val → Val → Prop
  | none, v, v' => v = v'
  | some k, v, v' => v = v' ∨ ∃ a a', v = .len (putFields a) ∧ v' = .len (putFields a') ∧ Later k a a'

theorem LaterVal.refl (k : Option MsgKind) (v : Val) : LaterVal k v v := by
  cases k with
  | none => rfl
  | some k => exact .inl rfl

/-- What is merged from a field without additions with `m` is merged with `m'`, which has levels to spare, from one with. -/
structure LaterStep {α : Type} (k : MsgKind) (m m' : α → Wire.Field → Option α) : Prop where
  known : ∀ acc r tag v v', LaterVal (k.inside tag) v v' → m acc (tag, v) = some r → m' acc (tag, v') = some r
  unknown : ∀ acc f, Unknown f → m' acc f = some acc

theorem Later.mergeAll {α : Type} {k : MsgKind} {m m' : α → Wire.Field → Option α} (hs : LaterStep k m m') :
    ∀ {l l' : List Wire.Field}, Later k l l' → ∀ acc r, mergeAll m acc l = some r → Wire.mergeAll m' acc l' = some r := by
  intro l l' h
  induction h with
  | done => exact fun acc r h => h
  | @same k f l l' hf _ ih =>
    intro acc r h
    simp only [Wire.mergeAll] at h ⊢
    split at h
    · cases h
    · next a ha => rw [hs.known acc a f.1 f.2 f.2 (LaterVal.refl _ _) ha]; exact ih hs _ _ h
  | added hf _ ih =>
    intro acc r h
    simp only [Wire.mergeAll, hs.unknown _ _ hf]
    exact ih hs _ _ h
  | @within k tag k' a a' l l' hk ha _ _ _ _ ih =>
    intro acc r h
    simp only [Wire.mergeAll] at h ⊢
    split at h
    · cases h
    · next x hx =>
      rw [hs.known acc x tag _ _ (by rw [hk]; exact .inr ⟨a, a', rfl, rfl, ha⟩) hx]; exact ih hs _ _ h

theorem Later.proper {k : MsgKind} {l l' : List Wire.Field} (h : Later k l l') :
    (∀ f ∈ l, FieldOk f) ∧ (∀ f ∈ l', FieldOk f) := by
  induction h with
  | done => exact ⟨(fun _ h => nomatch h), (fun _ h => nomatch h)⟩
  | same hf _ ih => exact ⟨List.forall_mem_cons.2 ⟨hf.ok, ih.1⟩, List.forall_mem_cons.2 ⟨hf.ok, ih.2⟩⟩
  | added hf _ ih => exact ⟨ih.1, List.forall_mem_cons.2 ⟨hf.ok, ih.2⟩⟩
  | within _ _ h1 h2 _ _ ih => exact ⟨List.forall_mem_cons.2 ⟨h1.ok, ih.1⟩, List.forall_mem_cons.2 ⟨h2.ok, ih.2⟩⟩

/-! ### Parts of messages -/

section
variable {α β : Type} {k : MsgKind} {d : Nat} {v v' : Val}

theorem later_map {o o' : Option α} {g : α → β} {r : β} (h : ∀ x, o = some x → o' = some x) (hr : o.map g = some r) :
    o'.map g = some r := by
  cases o with
  | none => cases hr
  | some x => rw [h x rfl]; exact hr

theorem later_sub {f f' : Nat → α → Wire.Field → Option α} (hs : ∀ d', d = d' + 1 → LaterStep k (f d') (f' (d' + 1)))
    (hv : LaterVal (some k) v v') {init r : α} (h : sub d f init v = some r) : sub (d + 1) f' init v' = some r := by
  have refl : ∀ (l : List Wire.Field) d', d = d' + 1 → ∀ acc r, mergeAll (f d') acc l = some r →
      mergeAll (f' (d' + 1)) acc l = some r := by
    intro l d' hd
    induction l with
    | nil => exact fun _ _ h => h
    | cons x l ih =>
      intro acc r h
      simp only [Wire.mergeAll] at h ⊢
      split at h
      · cases h
      · next a ha => rw [(hs d' hd).known acc a x.1 x.2 x.2 (LaterVal.refl _ _) ha]; exact ih _ _ h
  rcases hv with rfl | ⟨a, a', rfl, rfl, ha⟩
  · cases v with
    | len b =>
      cases d with
      | zero => cases h
      | succ d =>
        rw [sub] at h ⊢
        cases hl : getFields b with
        | none => rw [hl] at h; cases h
        | some l => rw [hl] at h; exact refl l d rfl _ _ h
    | _ => cases h
  · cases d with
    | zero => cases h
    | succ d =>
      rw [sub, getFields_put ha.proper.1] at h
      rw [sub, getFields_put ha.proper.2]
      exact ha.mergeAll (hs d rfl) _ _ h

theorem later_opt {f f' : Nat → α → Wire.Field → Option α} (hs : ∀ d', d = d' + 1 → LaterStep k (f d') (f' (d' + 1)))
    (hv : LaterVal (some k) v v') {e : α} {o r : Option α} (h : subOpt d f e o v = some r) :
    subOpt (d + 1) f' e o v' = some r := later_map (fun _ => later_sub hs hv) h

theorem later_rep {f f' : Nat → α → Wire.Field → Option α} (hs : ∀ d', d = d' + 1 → LaterStep k (f d') (f' (d' + 1)))
    (hv : LaterVal (some k) v v') {e : α} {o r : List α} (h : subRep d f e o v = some r) :
    subRep (d + 1) f' e o v' = some r := later_map (fun _ => later_sub hs hv) h

theorem later_skip {a r : α} (hv : v = v') (h : skip d v a = some r) : skip (d + 1) v' a = some r := by
  subst hv
  unfold skip at h ⊢
  split at h
  · rw [if_pos (by omega)]; exact h
  · cases h

theorem later_unknown {a : α} {f : Wire.Field} (hf : Unknown f) : skip (d + 1) f.2 a = some a := by
  rw [skip, hf.levels, if_pos (by omega)]
end

/-! ### Messages -/

theorem LaterStep.of {α : Type} {k : MsgKind} {m m' : α → Wire.Field → Option α} {d : Nat}
    (hk : ∀ acc r tag v v', LaterVal (k.inside tag) v v' → m acc (tag, v) = some r → m' acc (tag, v') = some r)
    (hu : ∀ acc n v, m' acc (n + 16, v) = skip (d + 1) v acc) : LaterStep k m m' := by
  refine ⟨hk, fun acc f hf => ?_⟩
  obtain ⟨tag, v⟩ := f
  obtain ⟨n, rfl⟩ : ∃ n, tag = n + 16 := ⟨tag - 16, by have := hf.1; simp only at this; omega⟩
  rw [hu]
  exact later_unknown hf

theorem later_uuid (d : Nat) : LaterStep .leaf (PUuid.merge d) (PUuid.merge (d + 1)) :=
  LaterStep.of (fun _ _ tag _ _ hv h => match tag, hv, h with
    | 1, hv, h => by cases hv; exact h
    | 0, hv, h => later_skip hv h
    | _ + 2, hv, h => later_skip hv h) (fun _ _ _ => rfl)
theorem later_ident (d : Nat) : LaterStep .leaf (PIdentifier.merge d) (PIdentifier.merge (d + 1)) :=
  LaterStep.of (fun _ _ tag _ _ hv h => match tag, hv, h with
    | 1, hv, h => by cases hv; exact h
    | 0, hv, h => later_skip hv h
    | _ + 2, hv, h => later_skip hv h) (fun _ _ _ => rfl)
theorem later_json (d : Nat) : LaterStep .leaf (PJson.merge d) (PJson.merge (d + 1)) :=
  LaterStep.of (fun _ _ tag _ _ hv h => match tag, hv, h with
    | 1, hv, h => by cases hv; exact h
    | 0, hv, h => later_skip hv h
    | _ + 2, hv, h => later_skip hv h) (fun _ _ _ => rfl)
theorem later_empty (d : Nat) : LaterStep .leaf (mergeEmpty d) (mergeEmpty (d + 1)) :=
  LaterStep.of (fun _ _ _ _ _ hv h => later_skip hv h) (fun _ _ _ => rfl)

section
variable {d : Nat} {v v' : Val}
theorem later_uuidOpt (hv : LaterVal (some .leaf) v v') {o r : Option PUuid} (h : uuidOpt d o v = some r) :
    uuidOpt (d + 1) o v' = some r := later_opt (fun d _ => later_uuid d) hv h
theorem later_identOpt (hv : LaterVal (some .leaf) v v') {o r : Option PIdentifier} (h : identOpt d o v = some r) :
    identOpt (d + 1) o v' = some r := later_opt (fun d _ => later_ident d) hv h
theorem later_jsonOpt (hv : LaterVal (some .leaf) v v') {o r : Option PJson} (h : jsonOpt d o v = some r) :
    jsonOpt (d + 1) o v' = some r := later_opt (fun d _ => later_json d) hv h
end

theorem later_edge (d : Nat) : LaterStep .edge (PEdge.merge d) (PEdge.merge (d + 1)) :=
  LaterStep.of (fun _ _ tag _ _ hv h => match tag, hv, h with
    | 1, hv, h => later_map (fun _ => later_uuidOpt hv) h
    | 2, hv, h => later_map (fun _ => later_identOpt hv) h
    | 3, hv, h => later_map (fun _ => later_uuidOpt hv) h
    | 0, hv, h => later_skip hv h
    | _ + 4, hv, h => later_skip hv h) (fun _ _ _ => rfl)
theorem later_vertex (d : Nat) : LaterStep .vertex (PVertex.merge d) (PVertex.merge (d + 1)) :=
  LaterStep.of (fun _ _ tag _ _ hv h => match tag, hv, h with
    | 1, hv, h => later_map (fun _ => later_uuidOpt hv) h
    | 2, hv, h => later_map (fun _ => later_identOpt hv) h
    | 0, hv, h => later_skip hv h
    | _ + 3, hv, h => later_skip hv h) (fun _ _ _ => rfl)

theorem later_range (d : Nat) : LaterStep .rangeVertex (mergeRange d) (mergeRange (d + 1)) :=
  LaterStep.of (fun _ _ tag _ _ hv h => match tag, hv, h with
    | 0, hv, h => later_skip hv h
    | 1, hv, h => later_map (fun _ h => hv ▸ h) h
    | 2, hv, h => later_map (fun _ => later_identOpt hv) h
    | 3, hv, h => later_map (fun _ => later_uuidOpt hv) h
    | _ + 4, hv, h => later_skip hv h) (fun _ _ _ => rfl)
theorem later_uuids (d : Nat) : LaterStep .specificVertex (mergeUuids d) (mergeUuids (d + 1)) :=
  LaterStep.of (fun _ _ tag _ _ hv h => match tag, hv, h with
    | 0, hv, h => later_skip hv h
    | 1, hv, h => later_rep (fun d _ => later_uuid d) hv h
    | _ + 2, hv, h => later_skip hv h) (fun _ _ _ => rfl)
theorem later_edges (d : Nat) : LaterStep .specificEdge (mergeEdges d) (mergeEdges (d + 1)) :=
  LaterStep.of (fun _ _ tag _ _ hv h => match tag, hv, h with
    | 0, hv, h => later_skip hv h
    | 1, hv, h => later_rep (fun d _ => later_edge d) hv h
    | _ + 2, hv, h => later_skip hv h) (fun _ _ _ => rfl)
theorem later_name (d : Nat) : LaterStep .propertyPresence (mergeName d) (mergeName (d + 1)) :=
  LaterStep.of (fun _ _ tag _ _ hv h => match tag, hv, h with
    | 0, hv, h => later_skip hv h
    | 1, hv, h => later_identOpt hv h
    | _ + 2, hv, h => later_skip hv h) (fun _ _ _ => rfl)
theorem later_nameValue (d : Nat) : LaterStep .propertyValue (mergeNameValue d) (mergeNameValue (d + 1)) :=
  LaterStep.of (fun _ _ tag _ _ hv h => match tag, hv, h with
    | 0, hv, h => later_skip hv h
    | 1, hv, h => later_map (fun _ => later_identOpt hv) h
    | 2, hv, h => later_map (fun _ => later_jsonOpt hv) h
    | _ + 3, hv, h => later_skip hv h) (fun _ _ _ => rfl)

section
variable {inner inner' : Nat → Option PQuery → Val → Option (Option PQuery)}
  (hi : ∀ d v v' o r, LaterVal (some .query) v v' → inner d o v = some r → inner' (d + 1) o v' = some r)
include hi

theorem later_pipe (d : Nat) : LaterStep .pipe (mergePipe inner d) (mergePipe inner' (d + 1)) :=
  LaterStep.of (fun _ _ tag _ _ hv h => match tag, hv, h with
    | 0, hv, h => later_skip hv h
    | 1, hv, h => later_map (fun _ => hi _ _ _ _ _ hv) h
    | 2, hv, h => later_map (fun _ h => hv ▸ h) h
    | 3, hv, h => later_map (fun _ h => hv ▸ h) h
    | 4, hv, h => later_map (fun _ => later_identOpt hv) h
    | _ + 5, hv, h => later_skip hv h) (fun _ _ _ => rfl)
theorem later_pipeProperty (d : Nat) : LaterStep .pipeProperty (mergePipeProperty inner d) (mergePipeProperty inner' (d + 1)) :=
  LaterStep.of (fun _ _ tag _ _ hv h => match tag, hv, h with
    | 0, hv, h => later_skip hv h
    | 1, hv, h => later_map (fun _ => hi _ _ _ _ _ hv) h
    | 2, hv, h => later_map (fun _ => later_identOpt hv) h
    | _ + 3, hv, h => later_skip hv h) (fun _ _ _ => rfl)
theorem later_presence (d : Nat) : LaterStep .pipePresence (mergePresence inner d) (mergePresence inner' (d + 1)) :=
  LaterStep.of (fun _ _ tag _ _ hv h => match tag, hv, h with
    | 0, hv, h => later_skip hv h
    | 1, hv, h => later_map (fun _ => hi _ _ _ _ _ hv) h
    | 2, hv, h => later_map (fun _ => later_identOpt hv) h
    | 3, hv, h => later_map (fun _ h => hv ▸ h) h
    | _ + 4, hv, h => later_skip hv h) (fun _ _ _ => rfl)
theorem later_value (d : Nat) : LaterStep .pipeValue (mergeValue inner d) (mergeValue inner' (d + 1)) :=
  LaterStep.of (fun _ _ tag _ _ hv h => match tag, hv, h with
    | 0, hv, h => later_skip hv h
    | 1, hv, h => later_map (fun _ => hi _ _ _ _ _ hv) h
    | 2, hv, h => later_map (fun _ => later_identOpt hv) h
    | 3, hv, h => later_map (fun _ => later_jsonOpt hv) h
    | 4, hv, h => later_map (fun _ h => hv ▸ h) h
    | _ + 5, hv, h => later_skip hv h) (fun _ _ _ => rfl)
theorem later_incl (d : Nat) : LaterStep .incl (mergeInner inner d) (mergeInner inner' (d + 1)) :=
  LaterStep.of (fun _ _ tag _ _ hv h => match tag, hv, h with
    | 0, hv, h => later_skip hv h
    | 1, hv, h => hi _ _ _ _ _ hv h
    | _ + 2, hv, h => later_skip hv h) (fun _ _ _ => rfl)
theorem later_queryWith (d : Nat) : LaterStep .query (PQuery.mergeWith inner d) (PQuery.mergeWith inner' (d + 1)) :=
  LaterStep.of (fun _ _ tag _ _ hv h => match tag, hv, h with
    | 0, hv, h => later_skip hv h
    | 1, hv, h => later_map (fun _ => later_sub (fun d _ => later_empty d) hv) h
    | 2, hv, h => later_map (fun _ => later_sub (fun d _ => later_range d) hv) h
    | 3, hv, h => later_map (fun _ => later_sub (fun d _ => later_uuids d) hv) h
    | 4, hv, h => later_map (fun _ => later_sub (fun d _ => later_name d) hv) h
    | 5, hv, h => later_map (fun _ => later_sub (fun d _ => later_nameValue d) hv) h
    | 6, hv, h => later_map (fun _ => later_sub (fun d _ => later_empty d) hv) h
    | 7, hv, h => later_map (fun _ => later_sub (fun d _ => later_edges d) hv) h
    | 8, hv, h => later_map (fun _ => later_sub (fun d _ => later_name d) hv) h
    | 9, hv, h => later_map (fun _ => later_sub (fun d _ => later_nameValue d) hv) h
    | 10, hv, h => later_map (fun _ => later_sub (fun d _ => later_pipe hi d) hv) h
    | 11, hv, h => later_map (fun _ => later_sub (fun d _ => later_pipeProperty hi d) hv) h
    | 12, hv, h => later_map (fun _ => later_sub (fun d _ => later_presence hi d) hv) h
    | 13, hv, h => later_map (fun _ => later_sub (fun d _ => later_value hi d) hv) h
    | 14, hv, h => later_map (fun _ => later_sub (fun d _ => later_incl hi d) hv) h
    | 15, hv, h => later_map (fun _ => later_sub (fun d _ => later_incl hi d) hv) h
    | _ + 16, hv, h => later_skip hv h) (fun _ _ _ => rfl)
end

theorem later_innerQuery : ∀ (n d : Nat) (v v' : Val) (o r : Option PQuery), LaterVal (some .query) v v' →
    innerQuery n d o v = some r → innerQuery (n + 1) (d + 1) o v' = some r
  | 0, _, _, _, _, _, _, h => nomatch h
  | n + 1, _, _, _, _, _, hv, h => later_opt (fun d _ => later_queryWith (later_innerQuery n) d) hv h

theorem later_query (d : Nat) : LaterStep .query (PQuery.merge d) (PQuery.merge (d + 1)) :=
  later_queryWith (later_innerQuery d) d

theorem later_namedProperty (d : Nat) : LaterStep .namedProperty (PNamedProperty.merge d) (PNamedProperty.merge (d + 1)) :=
  LaterStep.of (fun _ _ tag _ _ hv h => match tag, hv, h with
    | 0, hv, h => later_skip hv h
    | 1, hv, h => later_skip hv h
    | 2, hv, h => later_map (fun _ => later_jsonOpt hv) h
    | 3, hv, h => later_map (fun _ => later_identOpt hv) h
    | _ + 4, hv, h => later_skip hv h) (fun _ _ _ => rfl)
theorem later_vertexProperties (d : Nat) : LaterStep .vertexProperties (PVertexProperties.merge d) (PVertexProperties.merge (d + 1)) :=
  LaterStep.of (fun _ _ tag _ _ hv h => match tag, hv, h with
    | 0, hv, h => later_skip hv h
    | 1, hv, h => later_map (fun _ => later_opt (fun d _ => later_vertex d) hv) h
    | 2, hv, h => later_map (fun _ => later_rep (fun d _ => later_namedProperty d) hv) h
    | _ + 3, hv, h => later_skip hv h) (fun _ _ _ => rfl)
theorem later_edgeProperties (d : Nat) : LaterStep .edgeProperties (PEdgeProperties.merge d) (PEdgeProperties.merge (d + 1)) :=
  LaterStep.of (fun _ _ tag _ _ hv h => match tag, hv, h with
    | 0, hv, h => later_skip hv h
    | 1, hv, h => later_map (fun _ => later_opt (fun d _ => later_edge d) hv) h
    | 2, hv, h => later_map (fun _ => later_rep (fun d _ => later_namedProperty d) hv) h
    | _ + 3, hv, h => later_skip hv h) (fun _ _ _ => rfl)
theorem later_vertices (d : Nat) : LaterStep .outputVertices (mergeVertices d) (mergeVertices (d + 1)) :=
  LaterStep.of (fun _ _ tag _ _ hv h => match tag, hv, h with
    | 0, hv, h => later_skip hv h
    | 1, hv, h => later_rep (fun d _ => later_vertex d) hv h
    | _ + 2, hv, h => later_skip hv h) (fun _ _ _ => rfl)
theorem later_vertexPropertiesList (d : Nat) : LaterStep .outputVertexProperties (mergeVertexProperties d) (mergeVertexProperties (d + 1)) :=
  LaterStep.of (fun _ _ tag _ _ hv h => match tag, hv, h with
    | 0, hv, h => later_skip hv h
    | 1, hv, h => later_rep (fun d _ => later_vertexProperties d) hv h
    | _ + 2, hv, h => later_skip hv h) (fun _ _ _ => rfl)
theorem later_edgePropertiesList (d : Nat) : LaterStep .outputEdgeProperties (mergeEdgeProperties d) (mergeEdgeProperties (d + 1)) :=
  LaterStep.of (fun _ _ tag _ _ hv h => match tag, hv, h with
    | 0, hv, h => later_skip hv h
    | 1, hv, h => later_rep (fun d _ => later_edgeProperties d) hv h
    | _ + 2, hv, h => later_skip hv h) (fun _ _ _ => rfl)
theorem later_output (d : Nat) : LaterStep .output (POutput.merge d) (POutput.merge (d + 1)) :=
  LaterStep.of (fun _ _ tag _ _ hv h => match tag, hv, h with
    | 0, hv, h => later_skip hv h
    | 1, hv, h => later_map (fun _ => later_sub (fun d _ => later_vertices d) hv) h
    | 2, hv, h => later_map (fun _ => later_sub (fun d _ => later_edges d) hv) h
    | 3, hv, h => later_map (fun _ h => hv ▸ h) h
    | 4, hv, h => later_map (fun _ => later_sub (fun d _ => later_vertexPropertiesList d) hv) h
    | 5, hv, h => later_map (fun _ => later_sub (fun d _ => later_edgePropertiesList d) hv) h
    | _ + 6, hv, h => later_skip hv h) (fun _ _ _ => rfl)
theorem later_vertexItem (d : Nat) : LaterStep .vertexItem (mergeVertexItem d) (mergeVertexItem (d + 1)) :=
  LaterStep.of (fun _ _ tag _ _ hv h => match tag, hv, h with
    | 0, hv, h => later_skip hv h
    | 1, hv, h => later_map (fun _ => later_uuidOpt hv) h
    | 2, hv, h => later_skip hv h
    | 3, hv, h => later_map (fun _ => later_jsonOpt hv) h
    | 4, hv, h => later_map (fun _ => later_identOpt hv) h
    | _ + 5, hv, h => later_skip hv h) (fun _ _ _ => rfl)
theorem later_edgeItem (d : Nat) : LaterStep .edgeItem (mergeEdgeItem d) (mergeEdgeItem (d + 1)) :=
  LaterStep.of (fun _ _ tag _ _ hv h => match tag, hv, h with
    | 0, hv, h => later_skip hv h
    | 1, hv, h => later_map (fun _ => later_opt (fun d _ => later_edge d) hv) h
    | 2, hv, h => later_skip hv h
    | 3, hv, h => later_map (fun _ => later_jsonOpt hv) h
    | 4, hv, h => later_map (fun _ => later_identOpt hv) h
    | _ + 5, hv, h => later_skip hv h) (fun _ _ _ => rfl)
theorem later_bulkItem (d : Nat) : LaterStep .bulkItem (PBulkInsertItem.merge d) (PBulkInsertItem.merge (d + 1)) :=
  LaterStep.of (fun _ _ tag _ _ hv h => match tag, hv, h with
    | 0, hv, h => later_skip hv h
    | 1, hv, h => later_map (fun _ => later_sub (fun d _ => later_vertex d) hv) h
    | 2, hv, h => later_map (fun _ => later_sub (fun d _ => later_edge d) hv) h
    | 3, hv, h => later_map (fun _ => later_sub (fun d _ => later_vertexItem d) hv) h
    | 4, hv, h => later_map (fun _ => later_sub (fun d _ => later_edgeItem d) hv) h
    | _ + 5, hv, h => later_skip hv h) (fun _ _ _ => rfl)
theorem later_indexProperty (d : Nat) :
    LaterStep .propertyPresence (PIndexPropertyRequest.merge d) (PIndexPropertyRequest.merge (d + 1)) :=
  ⟨fun _ _ _ _ _ hv h => later_map (fun _ => (later_name d).known _ _ _ _ _ hv) h,
    fun acc f hf => by rw [PIndexPropertyRequest.merge, (later_name d).unknown _ _ hf]; rfl⟩
theorem later_setProperties (d : Nat) : LaterStep .setProperties (PSetPropertiesRequest.merge d) (PSetPropertiesRequest.merge (d + 1)) :=
  LaterStep.of (fun _ _ tag _ _ hv h => match tag, hv, h with
    | 0, hv, h => later_skip hv h
    | 1, hv, h => later_map (fun _ => later_opt (fun d _ => later_query d) hv) h
    | 2, hv, h => later_map (fun _ => later_identOpt hv) h
    | 3, hv, h => later_map (fun _ => later_jsonOpt hv) h
    | _ + 4, hv, h => later_skip hv h) (fun _ _ _ => rfl)
theorem later_created (d : Nat) : LaterStep .leaf (mergeCreated d) (mergeCreated (d + 1)) :=
  LaterStep.of (fun _ _ tag _ _ hv h => match tag, hv, h with
    | 0, hv, h => later_skip hv h
    | 1, hv, h => hv ▸ h
    | _ + 2, hv, h => later_skip hv h) (fun _ _ _ => rfl)
theorem later_plugin (d : Nat) : LaterStep .plugin (PExecutePluginRequest.merge d) (PExecutePluginRequest.merge (d + 1)) :=
  LaterStep.of (fun _ _ tag _ _ hv h => match tag, hv, h with
    | 0, hv, h => later_skip hv h
    | 1, hv, h => later_map (fun _ h => hv ▸ h) h
    | 2, hv, h => later_map (fun _ => later_jsonOpt hv) h
    | _ + 3, hv, h => later_skip hv h) (fun _ _ _ => rfl)
theorem later_pluginReply (d : Nat) : LaterStep .pluginReply (mergePluginReply d) (mergePluginReply (d + 1)) :=
  LaterStep.of (fun _ _ tag _ _ hv h => match tag, hv, h with
    | 0, hv, h => later_skip hv h
    | 1, hv, h => later_jsonOpt hv h
    | _ + 2, hv, h => later_skip hv h) (fun _ _ _ => rfl)

/-- With one level to spare. -/
theorem decode_later {α : Type} {merge : Nat → α → Wire.Field → Option α} {empty m : α} {k : MsgKind} {l l' : List Wire.Field}
    (hs : LaterStep k (merge 99) (merge 100)) (h : Later k l l') (hm : mergeAll (merge 99) empty l = some m) :
    decodeMsg merge empty (putFields l') = some m := by
  rw [decodeMsg, getFields_put h.proper.2]
  exact h.mergeAll hs _ _ hm

end IndraDB
