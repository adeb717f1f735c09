import Verif.Proofs.WireLater
import Verif.Props.Server
/-
C94: messages as bytes.
-/
namespace IndraDB
open Wire

/-! ### Messages -/

/-- C94: the bytes of a query are as many as the limit of 4 MiB counts, different queries have different bytes, and a query
comes back from its bytes if it has at most 100 levels; otherwise the bytes are refused. (A buffer has fewer than 2^64
bytes.) -/
theorem C94_query (q : PQuery) (hs : q.size < 2 ^ 64) :
    (PQuery.codec.encode q).length = q.size ∧
    PQuery.codec.decode (PQuery.codec.encode q) = (if q.depth ≤ 100 then some q else none) ∧
    ∀ q', PQuery.codec.encode q' = PQuery.codec.encode q → q' = q := by
  refine ⟨q.len, ?_, fun q' h => (PQuery.encode_inj hs h.symm).symm⟩
  show decodeMsg _ _ (putFields _) = _
  rw [decodeMsg, getFields_shapes (query_shapes q) (by rw [PQuery.len]; exact hs)]
  exact q.merge_fields hs 100

/-- The other message with a query in it. -/
theorem C94_setProperties (m : PSetPropertiesRequest) (hs : m.size < 2 ^ 64) :
    (PSetPropertiesRequest.codec.encode m).length = m.size ∧
    PSetPropertiesRequest.codec.decode (PSetPropertiesRequest.codec.encode m) = if m.depth ≤ 100 then some m else none := by
  refine ⟨m.len, ?_⟩
  show decodeMsg _ _ (putFields _) = _
  rw [decodeMsg, getFields_shapes m.shapes (by rw [PSetPropertiesRequest.len]; exact hs)]
  exact m.merge_fields hs (by omega)

theorem back {α : Type} {merge : Nat → α → Wire.Field → Option α} {empty m : α} {l : List Wire.Field} (hs : Shapes l)
    (hl : (putFields l).length < 2 ^ 64) (h : mergeAll (merge 100) empty l = some m) :
    decodeMsg merge empty (putFields l) = some m := by
  rw [decodeMsg, getFields_shapes hs hl]; exact h

/-- C94: all other messages come back from their bytes. -/
theorem C94_messages :
    PUuid.codec.RoundTrips (·.size < 2 ^ 64) ∧
    PIdentifier.codec.RoundTrips (·.size < 2 ^ 64) ∧
    PVertex.codec.RoundTrips (·.size < 2 ^ 64) ∧
    PEdge.codec.RoundTrips (·.size < 2 ^ 64) ∧
    POutput.codec.RoundTrips (fun m => m.size < 2 ^ 64 ∧ ∀ n, m = .count n → n < 2 ^ 64) ∧
    PBulkInsertItem.codec.RoundTrips (·.size < 2 ^ 64) ∧
    PIndexPropertyRequest.codec.RoundTrips (·.size < 2 ^ 64) ∧
    createdCodec.RoundTrips (fun _ => True) ∧
    PExecutePluginRequest.codec.RoundTrips (·.size < 2 ^ 64) ∧
    pluginReplyCodec.RoundTrips (fun m => msgField PJson.size m < 2 ^ 64) := by
  refine ⟨fun m h => back m.shapes (by rw [PUuid.len]; exact h) (by rw [m.merge_fields]; rfl),
    fun m h => back m.shapes (by rw [PIdentifier.len]; exact h) (by rw [m.merge_fields]; rfl),
    fun m h => back m.shapes (by rw [PVertex.len]; exact h) (by
      have := m.depth_le
      rw [m.merge_fields h, if_pos (by omega)]),
    fun m h => back m.shapes (by rw [PEdge.len]; exact h) (by
      have := m.depth_le
      rw [m.merge_fields h, if_pos (by omega)]),
    fun m h => back (POutput.shapes ?_) (by rw [POutput.len]; exact h.1) (m.merge_fields h.1 (by omega)),
    fun m h => back m.shapes (by rw [PBulkInsertItem.len]; exact h) (m.merge_fields h (by omega)),
    fun m h => back (Shapes.opt (by omega) _ _) (by rw [PIndexPropertyRequest.len]; exact h)
      (m.merge_fields h (by omega)),
    fun m _ => back (Shapes.bool (by omega) _) (by rw [createdFields, len_bool (by omega)]; cases m <;> decide) (created_merge m 100),
    fun m h => back ((Shapes.bytes (by omega) _).append (Shapes.opt (by omega) _ _))
      (by rw [PExecutePluginRequest.len]; exact h) (m.merge_fields h (by omega)),
    fun m h => back (Shapes.opt (by omega) _ _) (by rw [pluginReplyFields, len_opt (by omega) PJson.len]; exact h)
      (pluginReply_merge m h (by omega))⟩
  cases m with
  | count n => exact h.2 n rfl
  | _ => trivial

/-- C94: the lengths the limit of 4 MiB is compared with are those of the bytes. -/
theorem C94_length :
    (∀ m, (PUuid.codec.encode m).length = m.size) ∧ (∀ m, (PIdentifier.codec.encode m).length = m.size) ∧
    (∀ m, (PVertex.codec.encode m).length = m.size) ∧ (∀ m, (PEdge.codec.encode m).length = m.size) ∧
    (∀ m, (POutput.codec.encode m).length = m.size) ∧ (∀ m, (PBulkInsertItem.codec.encode m).length = m.size) ∧
    (∀ m, (PIndexPropertyRequest.codec.encode m).length = m.size) ∧
    (∀ m, (PExecutePluginRequest.codec.encode m).length = m.size) :=
  ⟨PUuid.len, PIdentifier.len, PVertex.len, PEdge.len, POutput.len, PBulkInsertItem.len, PIndexPropertyRequest.len,
    PExecutePluginRequest.len⟩

/-- C94: messages with fields of later versions of the protocol added are read without them. -/
theorem C94_unknown :
    PVertex.codec.SkipsUnknown PVertex.fields (·.size < 2 ^ 64) ∧
    PEdge.codec.SkipsUnknown PEdge.fields (·.size < 2 ^ 64) ∧
    PQuery.codec.SkipsUnknown PQuery.fields (fun q => q.size < 2 ^ 64 ∧ q.depth ≤ 100) ∧
    PSetPropertiesRequest.codec.SkipsUnknown PSetPropertiesRequest.fields (fun m => m.size < 2 ^ 64 ∧ m.depth ≤ 100) ∧
    PBulkInsertItem.codec.SkipsUnknown PBulkInsertItem.fields (·.size < 2 ^ 64) ∧
    POutput.codec.SkipsUnknown POutput.fields (fun m => m.size < 2 ^ 64 ∧ ∀ n, m = .count n → n < 2 ^ 64) := by
  refine ⟨fun m l h hu hf => decode_skip (fun d a t v ht => ?_) m.shapes (by rw [PVertex.len]; exact h) hu hf (by
      have := m.depth_le
      rw [m.merge_fields h, if_pos (by omega)]),
    fun m l h hu hf => decode_skip (fun d a t v ht => ?_) m.shapes (by rw [PEdge.len]; exact h) hu hf (by
      have := m.depth_le
      rw [m.merge_fields h, if_pos (by omega)]),
    fun m l h hu hf => decode_skip (fun d a t v ht => ?_) (query_shapes m) (by rw [PQuery.len]; exact h.1) hu hf (by
      rw [m.merge_fields h.1, if_pos h.2]),
    fun m l h hu hf => decode_skip (fun d a t v ht => ?_) m.shapes (by rw [PSetPropertiesRequest.len]; exact h.1) hu hf (by
      rw [m.merge_fields h.1 (by omega), if_pos h.2]),
    fun m l h hu hf => decode_skip (fun d a t v ht => ?_) m.shapes (by rw [PBulkInsertItem.len]; exact h) hu hf
      (m.merge_fields h (by omega)),
    fun m l h hu hf => decode_skip (fun d a t v ht => ?_) (POutput.shapes ?_) (by rw [POutput.len]; exact h.1) hu hf
      (m.merge_fields h.1 (by omega))⟩
  · unfold PVertex.merge; split <;> simp_all <;> omega
  · unfold PEdge.merge; split <;> simp_all <;> omega
  · unfold PQuery.merge PQuery.mergeWith; split <;> simp_all <;> omega
  · unfold PSetPropertiesRequest.merge; split <;> simp_all <;> omega
  · unfold PBulkInsertItem.merge; split <;> simp_all <;> omega
  · unfold POutput.merge; split <;> simp_all <;> omega
  · cases m with
    | count n => exact h.2 n rfl
    | _ => trivial

/-- C94: the same for fields added to the messages inside, at any depth. (The limit of 100 levels includes what is added.) -/
theorem C94_later :
    PUuid.codec.ReadsLater .leaf PUuid.fields (fun _ => True) ∧
    PIdentifier.codec.ReadsLater .leaf PIdentifier.fields (fun _ => True) ∧
    PVertex.codec.ReadsLater .vertex PVertex.fields (·.size < 2 ^ 64) ∧
    PEdge.codec.ReadsLater .edge PEdge.fields (·.size < 2 ^ 64) ∧
    PQuery.codec.ReadsLater .query PQuery.fields (fun q => q.size < 2 ^ 64 ∧ q.depth ≤ 99) ∧
    PSetPropertiesRequest.codec.ReadsLater .setProperties PSetPropertiesRequest.fields
      (fun m => m.size < 2 ^ 64 ∧ m.depth ≤ 99) ∧
    PBulkInsertItem.codec.ReadsLater .bulkItem PBulkInsertItem.fields (·.size < 2 ^ 64) ∧
    POutput.codec.ReadsLater .output POutput.fields (·.size < 2 ^ 64) ∧
    PIndexPropertyRequest.codec.ReadsLater .propertyPresence PIndexPropertyRequest.fields (·.size < 2 ^ 64) ∧
    createdCodec.ReadsLater .leaf createdFields (fun _ => True) ∧
    PExecutePluginRequest.codec.ReadsLater .plugin PExecutePluginRequest.fields (·.size < 2 ^ 64) ∧
    pluginReplyCodec.ReadsLater .pluginReply pluginReplyFields (fun m => msgField PJson.size m < 2 ^ 64) := by
  refine ⟨fun m l _ hl => decode_later (later_uuid 99) hl (by rw [m.merge_fields]; rfl),
    fun m l _ hl => decode_later (later_ident 99) hl (by rw [m.merge_fields]; rfl),
    fun m l h hl => decode_later (later_vertex 99) hl (by
      have := m.depth_le
      rw [m.merge_fields h, if_pos (by omega)]),
    fun m l h hl => decode_later (later_edge 99) hl (by
      have := m.depth_le
      rw [m.merge_fields h, if_pos (by omega)]),
    fun m l h hl => decode_later (later_query 99) hl (by rw [m.merge_fields h.1, if_pos h.2]),
    fun m l h hl => decode_later (later_setProperties 99) hl (by rw [m.merge_fields h.1 (by omega), if_pos h.2]),
    fun m l h hl => decode_later (later_bulkItem 99) hl (m.merge_fields h (by omega)),
    fun m l h hl => decode_later (later_output 99) hl (m.merge_fields h (by omega)),
    fun m l h hl => decode_later (later_indexProperty 99) hl (m.merge_fields h (by omega)),
    fun m l _ hl => decode_later (later_created 99) hl (created_merge m 99),
    fun m l h hl => decode_later (later_plugin 99) hl (m.merge_fields h (by omega)),
    fun m l h hl => decode_later (later_pluginReply 99) hl (pluginReply_merge m h (by omega))⟩

/-- A message from a later version: `include` of all vertices, with a field of 4 bytes added to the query inside, one of 8
bytes to the `include`, and a number and some bytes to the query itself. -/
example :
    Later .query (PQuery.incl (some .allVertex)).fields
      [(16, .varint 5), (14, .len (putFields [(1, .len (putFields [(1, .len (putFields [])), (17, .fixed32 [1, 2, 3, 4])])),
        (18, .fixed64 [1, 2, 3, 4, 5, 6, 7, 8])])), (19, .len [1])] := by
  refine .added ⟨by decide, by decide, by decide, by decide⟩ (.within (k' := .incl) rfl
    (.within (k' := .query) rfl (.same ⟨by decide, by decide, by decide⟩ (.added ⟨by decide, by decide, by decide, rfl⟩ .done))
      ⟨by decide, by decide, by decide +kernel⟩ ⟨by decide, by decide, by decide +kernel⟩ (.added ⟨by decide, by decide, by decide, rfl⟩ .done))
    ⟨by decide, by decide, by decide +kernel⟩ ⟨by decide, by decide, by decide +kernel⟩
    (.added ⟨by decide, by decide, by decide, by decide⟩ .done))

/-! ### Calls -/

section
variable (letter : Char → Bool) (J : JsonText)

/-- C94: a history of calls through client and memory server, all messages being turned into bytes and back, is what
`limitedRun` says: calls whose messages are longer than 4 MiB or deeper than 100 levels are refused without effect, the
others do what they do in the library, and the client reports what the library returns (a too long output value: an error).
-/
theorem C94_memory (K : HashEq) (b : Build) (hist : List (HashOrder × Op))
    (ha : ∀ p ∈ hist, p.2.All (·.Valid letter) J.Faithful) (hc : (memStore K b).SmallCounts J hist MemDb.new) :
    (memStore K b).wireRun letter J hist MemDb.new = (memStore K b).limitedRun J hist MemDb.new := by
  rw [(memStore K b).wireRun_eq letter J (memStore_typed K b) hist _ ha hc]
  exact (C45_memory_partial letter J K b hist ha).2

/-- The same for RocksDB. -/
theorem C94_rocks (X : Cfg) (hX : ∀ x, J.Faithful x → J.Faithful (X.stored x)) (hist : List (IdentOrder × Op))
    (hok : (rocksStore X).OkHist hist) (ha : ∀ p ∈ hist, p.2.All (·.Valid letter) J.Faithful)
    (hc : (rocksStore X).SmallCounts J hist Rocks.init) :
    (rocksStore X).wireRun letter J hist Rocks.init = (rocksStore X).limitedRun J hist Rocks.init := by
  rw [(rocksStore X).wireRun_eq letter J (rocksStore_typed X) hist _ ha hc]
  exact (C45_rocks_partial letter J X hX hist hok ha).2

/-- C94: executing a plugin as bytes: a request that is too long does not reach the plugin; if the reply is too long, the
plugin has run all the same. -/
theorem C94_plugin {σ : Type} (describe : PluginError → String) (entries : Entries (PluginFn σ)) (name : String)
    (arg : Json) (s : σ) :
    (4194304 < (PExecutePluginRequest.mk name (some (arg.toProto J))).size →
      wireExecutePlugin J describe entries name arg s = (s, .error (.grpc .undecodable))) ∧
    ((PExecutePluginRequest.mk name (some (arg.toProto J))).size ≤ 4194304 →
      (wireExecutePlugin J describe entries name arg s).1 = (clientExecutePlugin J describe entries name arg s).1 ∧
      ((∀ v, (executePlugin J describe entries ⟨name, some (arg.toProto J)⟩ s).2 = .ok v → msgField PJson.size v.value ≤ 4194304) →
        wireExecutePlugin J describe entries name arg s = clientExecutePlugin J describe entries name arg s)) := by
  rw [wireExecutePlugin_eq]
  refine ⟨fun h => by rw [if_neg]; simp [wireOk]; omega, fun h => ?_⟩
  rw [if_pos (by simp [wireOk, h])]
  unfold clientExecutePlugin
  generalize executePlugin J describe entries ⟨name, some (arg.toProto J)⟩ s = u
  obtain ⟨s', r⟩ := u
  cases r with
  | error st => exact ⟨rfl, fun _ => rfl⟩
  | ok resp =>
    by_cases h2 : wireOk (msgField PJson.size resp.value) 4 = true
    · simp only [h2, if_true, implies_true, and_self]
    · refine ⟨?_, fun h3 => absurd ?_ h2⟩
      · simp only [h2]
        cases resp.value with
        | none => rfl
        | some v => simp only; cases v.conv J <;> rfl
      · have := h3 resp rfl
        simp [wireOk, this]

end

/-- `include` this many times. -/
def W.nested : Nat → PQuery → PQuery
  | 0, q => q
  | n + 1, q => .incl (some (W.nested n q))

/-! ### Concrete messages

The bytes are those of the protobuf format for `proto/indradb.proto`. -/

theorem C94_layout :
    PVertex.codec.encode ⟨some ⟨[1, 2]⟩, some ⟨"foo"⟩⟩ = [10, 4, 10, 2, 1, 2, 18, 5, 10, 3, 102, 111, 111] ∧
    PEdge.codec.encode ⟨some ⟨[1]⟩, some ⟨"f"⟩, some ⟨[2]⟩⟩ = [10, 3, 10, 1, 1, 18, 3, 10, 1, 102, 26, 3, 10, 1, 2] ∧
    PQuery.codec.encode .allVertex = [10, 0] ∧ PQuery.codec.encode .allEdge = [50, 0] ∧
    PQuery.codec.encode (.rangeVertex 300 (some ⟨"f"⟩) (some ⟨[7]⟩)) =
      [18, 13, 8, 172, 2, 18, 3, 10, 1, 102, 26, 3, 10, 1, 7] ∧
    PQuery.codec.encode (.specificVertex [⟨[1]⟩, ⟨[2]⟩]) = [26, 10, 10, 3, 10, 1, 1, 10, 3, 10, 1, 2] ∧
    PQuery.codec.encode (.vertexWithPropertyPresence (some ⟨"f"⟩)) = [34, 5, 10, 3, 10, 1, 102] ∧
    PQuery.codec.encode (.vertexWithPropertyValue (some ⟨"f"⟩) (some ⟨"1"⟩)) = [42, 10, 10, 3, 10, 1, 102, 18, 3, 10, 1, 49] ∧
    PQuery.codec.encode (.specificEdge [⟨none, none, none⟩]) = [58, 2, 10, 0] ∧
    PQuery.codec.encode (.edgeWithPropertyPresence (some ⟨"f"⟩)) = [66, 5, 10, 3, 10, 1, 102] ∧
    PQuery.codec.encode (.edgeWithPropertyValue (some ⟨"f"⟩) (some ⟨"1"⟩)) = [74, 10, 10, 3, 10, 1, 102, 18, 3, 10, 1, 49] ∧
    PQuery.codec.encode (.pipe (some .allVertex) 1 3 (some ⟨"f"⟩)) =
      [82, 13, 10, 2, 10, 0, 16, 1, 24, 3, 34, 3, 10, 1, 102] ∧
    PQuery.codec.encode (.pipe none (-1) 0 none) = [82, 11, 16, 255, 255, 255, 255, 255, 255, 255, 255, 255, 1] ∧
    PQuery.codec.encode (.pipeProperty (some .allEdge) (some ⟨"f"⟩)) = [90, 9, 10, 2, 50, 0, 18, 3, 10, 1, 102] ∧
    PQuery.codec.encode (.pipeWithPropertyPresence (some .allEdge) (some ⟨"f"⟩) true) =
      [98, 11, 10, 2, 50, 0, 18, 3, 10, 1, 102, 24, 1] ∧
    PQuery.codec.encode (.pipeWithPropertyValue (some .allEdge) (some ⟨"f"⟩) (some ⟨"1"⟩) true) =
      [106, 16, 10, 2, 50, 0, 18, 3, 10, 1, 102, 26, 3, 10, 1, 49, 32, 1] ∧
    PQuery.codec.encode (.incl (some .allEdge)) = [114, 4, 10, 2, 50, 0] ∧
    PQuery.codec.encode (.count (some .allEdge)) = [122, 4, 10, 2, 50, 0] := by
  decide +kernel

/-- More of them: output values, items, requests, responses. -/
theorem C94_layout2 :
    POutput.codec.encode (.vertices [⟨some ⟨[1]⟩, none⟩]) = [10, 7, 10, 5, 10, 3, 10, 1, 1] ∧
    POutput.codec.encode (.edges [⟨none, none, some ⟨[1]⟩⟩]) = [18, 7, 10, 5, 26, 3, 10, 1, 1] ∧
    POutput.codec.encode (.count 0) = [24, 0] ∧ POutput.codec.encode (.count 300) = [24, 172, 2] ∧
    POutput.codec.encode (.vertexProperties [⟨some ⟨none, none⟩, [⟨some ⟨"f"⟩, some ⟨"1"⟩⟩]⟩]) =
      [34, 16, 10, 14, 10, 0, 18, 10, 18, 3, 10, 1, 49, 26, 3, 10, 1, 102] ∧
    POutput.codec.encode (.edgeProperties [⟨some ⟨none, none, none⟩, [⟨some ⟨"f"⟩, some ⟨"1"⟩⟩]⟩]) =
      [42, 16, 10, 14, 10, 0, 18, 10, 18, 3, 10, 1, 49, 26, 3, 10, 1, 102] ∧
    PBulkInsertItem.codec.encode (.vertex ⟨some ⟨[1]⟩, none⟩) = [10, 5, 10, 3, 10, 1, 1] ∧
    PBulkInsertItem.codec.encode (.edge ⟨none, none, some ⟨[1]⟩⟩) = [18, 5, 26, 3, 10, 1, 1] ∧
    PBulkInsertItem.codec.encode (.vertexProperty (some ⟨[1]⟩) (some ⟨"f"⟩) (some ⟨"1"⟩)) =
      [26, 15, 10, 3, 10, 1, 1, 26, 3, 10, 1, 49, 34, 3, 10, 1, 102] ∧
    PBulkInsertItem.codec.encode (.edgeProperty (some ⟨none, none, none⟩) (some ⟨"f"⟩) (some ⟨"1"⟩)) =
      [34, 12, 10, 0, 26, 3, 10, 1, 49, 34, 3, 10, 1, 102] ∧
    PIndexPropertyRequest.codec.encode ⟨some ⟨"f"⟩⟩ = [10, 3, 10, 1, 102] ∧
    PSetPropertiesRequest.codec.encode ⟨some .allEdge, some ⟨"f"⟩, some ⟨"1"⟩⟩ =
      [10, 2, 50, 0, 18, 3, 10, 1, 102, 26, 3, 10, 1, 49] ∧
    createdCodec.encode true = [8, 1] ∧ createdCodec.encode false = [] ∧
    PExecutePluginRequest.codec.encode ⟨"f", some ⟨"1"⟩⟩ = [10, 1, 102, 18, 3, 10, 1, 49] ∧
    pluginReplyCodec.encode (some ⟨"1"⟩) = [10, 3, 10, 1, 49] := by
  decide +kernel

/-- Fields may come in any order and more than once; a later field of a `oneof` replaces an earlier one of another kind, and
is merged into one of the same kind; messages cut short, fields of the wrong type and strings that are not UTF-8 are refused.
-/
theorem C94_foreign :
    PVertex.codec.decode [18, 3, 10, 1, 102, 10, 3, 10, 1, 1, 10, 3, 10, 1, 2] = some ⟨some ⟨[2]⟩, some ⟨"f"⟩⟩ ∧
    (PQuery.codec.decode [10, 0, 34, 5, 10, 3, 10, 1, 102] = some (.vertexWithPropertyPresence (some ⟨"f"⟩))) ∧
    (PQuery.codec.decode [42, 5, 10, 3, 10, 1, 102, 42, 5, 18, 3, 10, 1, 49] =
      some (.vertexWithPropertyValue (some ⟨"f"⟩) (some ⟨"1"⟩))) ∧
    PVertex.codec.decode [18, 4, 10, 1, 102] = none ∧ PVertex.codec.decode [8, 1] = none ∧
    PVertex.codec.decode [18, 3, 10, 1, 255] = none ∧ PVertex.codec.decode [0, 1] = none ∧
    PVertex.codec.decode [131, 1, 8, 1, 132, 1] = some ⟨none, none⟩ ∧ PVertex.codec.decode [131, 1, 8, 1, 140, 1] = none ∧
    PVertex.codec.decode [] = some ⟨none, none⟩ := by
  refine ⟨?_, rfl, rfl, ?_, ?_, ?_, ?_, ?_, ?_, ?_⟩ <;> decide +kernel

/-- A variant that comes twice is merged with itself, its parts too; one that comes after another replaces it. -/
theorem C94_merged :
    PQuery.codec.decode [18, 2, 8, 1, 18, 7, 8, 2, 18, 3, 10, 1, 102] = some (.rangeVertex 2 (some ⟨"f"⟩) none) ∧
    PQuery.codec.decode [26, 5, 10, 3, 10, 1, 1, 26, 5, 10, 3, 10, 1, 2] = some (.specificVertex [⟨[1]⟩, ⟨[2]⟩]) ∧
    PQuery.codec.decode [34, 5, 10, 3, 10, 1, 102, 34, 0] = some (.vertexWithPropertyPresence (some ⟨"f"⟩)) ∧
    PQuery.codec.decode [58, 4, 10, 2, 10, 0, 58, 2, 10, 0] = some (.specificEdge [⟨some ⟨[]⟩, none, none⟩, ⟨none, none, none⟩]) ∧
    PQuery.codec.decode [66, 5, 10, 3, 10, 1, 102, 66, 0] = some (.edgeWithPropertyPresence (some ⟨"f"⟩)) ∧
    PQuery.codec.decode [74, 5, 10, 3, 10, 1, 102, 74, 5, 18, 3, 10, 1, 49] =
      some (.edgeWithPropertyValue (some ⟨"f"⟩) (some ⟨"1"⟩)) ∧
    PQuery.codec.decode [82, 8, 10, 2, 10, 0, 16, 1, 24, 3, 82, 5, 34, 3, 10, 1, 102] =
      some (.pipe (some .allVertex) 1 3 (some ⟨"f"⟩)) ∧
    PQuery.codec.decode [90, 4, 10, 2, 50, 0, 90, 5, 18, 3, 10, 1, 102] = some (.pipeProperty (some .allEdge) (some ⟨"f"⟩)) ∧
    PQuery.codec.decode [98, 4, 10, 2, 50, 0, 98, 7, 18, 3, 10, 1, 102, 24, 1] =
      some (.pipeWithPropertyPresence (some .allEdge) (some ⟨"f"⟩) true) ∧
    PQuery.codec.decode [106, 4, 10, 2, 50, 0, 106, 12, 18, 3, 10, 1, 102, 26, 3, 10, 1, 49, 32, 1] =
      some (.pipeWithPropertyValue (some .allEdge) (some ⟨"f"⟩) (some ⟨"1"⟩) true) ∧
    PQuery.codec.decode [114, 4, 10, 2, 50, 0, 114, 0] = some (.incl (some .allEdge)) ∧
    PQuery.codec.decode [122, 4, 10, 2, 50, 0, 122, 0] = some (.count (some .allEdge)) ∧
    PQuery.codec.decode [122, 4, 10, 2, 50, 0, 122, 4, 10, 2, 10, 0] = some (.count (some .allVertex)) ∧
    PQuery.codec.decode [122, 4, 10, 2, 50, 0, 114, 0] = some (.incl none) ∧
    POutput.codec.decode [10, 2, 10, 0, 10, 2, 10, 0] = some (.vertices [⟨none, none⟩, ⟨none, none⟩]) ∧
    POutput.codec.decode [18, 2, 10, 0, 18, 2, 10, 0] = some (.edges [⟨none, none, none⟩, ⟨none, none, none⟩]) ∧
    POutput.codec.decode [24, 1, 24, 2] = some (.count 2) ∧
    POutput.codec.decode [34, 2, 10, 0, 34, 2, 10, 0] = some (.vertexProperties [⟨none, []⟩, ⟨none, []⟩]) ∧
    POutput.codec.decode [42, 2, 10, 0, 42, 2, 10, 0] = some (.edgeProperties [⟨none, []⟩, ⟨none, []⟩]) ∧
    POutput.codec.decode [24, 1, 10, 0] = some (.vertices []) ∧
    PBulkInsertItem.codec.decode [10, 2, 10, 0, 10, 5, 18, 3, 10, 1, 102] = some (.vertex ⟨some ⟨[]⟩, some ⟨"f"⟩⟩) ∧
    PBulkInsertItem.codec.decode [18, 2, 10, 0, 18, 5, 18, 3, 10, 1, 102] = some (.edge ⟨some ⟨[]⟩, some ⟨"f"⟩, none⟩) ∧
    PBulkInsertItem.codec.decode [26, 2, 10, 0, 26, 5, 34, 3, 10, 1, 102] = some (.vertexProperty (some ⟨[]⟩) (some ⟨"f"⟩) none) ∧
    PBulkInsertItem.codec.decode [34, 2, 10, 0, 34, 5, 34, 3, 10, 1, 102] =
      some (.edgeProperty (some ⟨none, none, none⟩) (some ⟨"f"⟩) none) ∧
    PBulkInsertItem.codec.decode [10, 2, 10, 0, 18, 0] = some (.edge ⟨none, none, none⟩) := by
  refine ⟨?_, ?_, ?_, ?_, ?_, ?_, ?_, ?_, ?_, ?_, ?_, ?_, ?_, ?_, ?_, ?_, ?_, ?_, ?_, ?_, ?_, ?_, ?_, ?_, ?_⟩ <;> rfl

/-- The hypotheses of `C94_memory` are met by a history that creates a vertex and counts. -/
example (letter : Char → Bool) (J : JsonText) :
    (∀ p ∈ [(HashOrder.sorted, Op.createVertex ⟨W.u 1, noName⟩), (HashOrder.sorted, .get (.count .allVertex))],
      p.2.All (·.Valid letter) J.Faithful) ∧
    (MS .debug).SmallCounts J
      [(HashOrder.sorted, Op.createVertex ⟨W.u 1, noName⟩), (HashOrder.sorted, .get (.count .allVertex))] MemDb.new := by
  have key : ∀ (s : MemDb) k, k < 2 ^ 64 → ((MS .debug).step HashOrder.sorted (.get (.count .allVertex)) s).2 = .ok (.outputs [.count k]) →
      (MS .debug).SmallCounts J [(HashOrder.sorted, .get (.count .allVertex))] s := by
    intro s k hk h
    refine ⟨fun x hx => ?_, fun _ => trivial, fun _ => trivial⟩
    rw [h] at hx
    cases hx
    intro n hn
    simp only [List.mem_singleton, Output.count.injEq] at hn
    omega
  refine ⟨List.forall_mem_cons.2 ⟨noName_valid letter, List.forall_mem_cons.2 ⟨trivial, fun _ h => nomatch h⟩⟩, ?_, fun _ => ?_, fun _ => ?_⟩
  · intro x hx
    have : ((MS .debug).step HashOrder.sorted (.createVertex ⟨W.u 1, noName⟩) MemDb.new).2 = .ok (.bool true) := by decide +kernel
    rw [this] at hx
    cases hx
    trivial
  · exact key _ 1 (by omega) (by decide +kernel)
  · exact key _ 0 (by omega) (by decide +kernel)

/-- A query of 100 levels, and one more: only the first gets through. -/
example : (W.nested 49 .allVertex).depth ≤ 100 ∧ 100 < (W.nested 50 .allVertex).depth := by decide +kernel

end IndraDB
