import Verif.Proofs.Proto
import Verif.Props.Values
/-
C42 (protobuf conversions round-trip) and C43 (malformed messages are rejected).
-/
namespace IndraDB
/-- A codec that knows two values. -/
def twoText : JsonText where
  print v := if v = .null then "null" else "true"
  parse s := if s = "null" then some .null else if s = "true" then some (.bool true) else none

/-- An identifier. -/
def fooIdent : Identifier := ⟨strBytes "foo", by decide +kernel⟩

theorem fooIdent_valid : fooIdent.Valid asciiAlnum := ⟨"foo", rfl, by decide +kernel⟩

/-- A nested query with identifiers and values. -/
def nestedQuery : Query := .pipeWithPropertyValue (.pipe (.rangeVertex 3 (some fooIdent) (some Uuid.max)) .inbound 7 (some fooIdent))
    fooIdent (.bool true) false

theorem nestedQuery_valid : nestedQuery.All (·.Valid asciiAlnum) twoText.Faithful := by
  refine ⟨⟨?_, ?_⟩, fooIdent_valid, by simp [JsonText.Faithful, twoText]⟩
  · intro x hx; cases hx; exact fooIdent_valid
  · intro x hx; cases hx; exact fooIdent_valid

/-- A message in which a query is missing, inside two others. -/
def brokenQuery : PQuery := .incl (some (.count (some (.pipe none 0 5 none))))

theorem brokenQuery_inside : (PQuery.pipe none 0 5 none).Inside brokenQuery := .step (.step .refl rfl) rfl

variable (letter : Char → Bool) (J : JsonText)

/-! ### C42 -/

/-- Every query, of any depth, whose identifiers are valid and whose values survive printing and parsing, comes back
from its message unchanged. -/
theorem C42_query (q : Query) (h : q.All (·.Valid letter) J.Faithful) : (q.toProto J).conv letter J = .ok q :=
  (PQuery.conv_iff letter J _ _).2 (Query.toProto_means letter J q h)

example : (nestedQuery.toProto twoText).conv asciiAlnum twoText = .ok nestedQuery := C42_query _ _ _ nestedQuery_valid

/-- So does every output value. -/
theorem C42_output (o : Output) (h : o.All (·.Valid letter) J.Faithful) : (o.toProto J).conv letter J = .ok o :=
  (POutput.conv_iff letter J _ _).2 (Output.toProto_means letter J o h)

example : ((Output.vertexProperties [⟨⟨Uuid.max, fooIdent⟩, [⟨fooIdent, .bool true⟩]⟩]).toProto twoText).conv asciiAlnum twoText =
    .ok (.vertexProperties [⟨⟨Uuid.max, fooIdent⟩, [⟨fooIdent, .bool true⟩]⟩]) :=
  C42_output _ _ _ (by simp [Output.All, fooIdent_valid, JsonText.Faithful, twoText])

/-- So does every bulk item. -/
theorem C42_item (i : BulkInsertItem) (h : i.All (·.Valid letter) J.Faithful) : (i.toProto J).conv letter J = .ok i :=
  (PBulkInsertItem.conv_iff letter J _ _).2 (BulkInsertItem.toProto_means letter J i h)

example : ((BulkInsertItem.edgeProperty ⟨.nil, fooIdent, .max⟩ fooIdent .null).toProto twoText).conv asciiAlnum twoText =
    .ok (.edgeProperty ⟨.nil, fooIdent, .max⟩ fooIdent .null) :=
  C42_item _ _ _ (by simp [BulkInsertItem.All, fooIdent_valid, JsonText.Faithful, twoText])

/-- So does every set-properties request. -/
theorem C42_set (q : Query) (n : Identifier) (v : Json) (h : q.All (·.Valid letter) J.Faithful)
    (hn : n.Valid letter) (hv : J.Faithful v) : (setPropertiesRequest J q n v).conv letter J = .ok (q, n, v) :=
  (PSetPropertiesRequest.conv_iff letter J _ _).2 ⟨⟨_, rfl, Query.toProto_means letter J q h⟩,
    ⟨_, rfl, Identifier.toProto_means letter hn⟩, ⟨_, rfl, Json.toProto_means J hv⟩⟩

example : (setPropertiesRequest twoText nestedQuery fooIdent .null).conv asciiAlnum twoText = .ok (nestedQuery, fooIdent, .null) :=
  C42_set _ _ _ _ _ nestedQuery_valid fooIdent_valid (by simp [JsonText.Faithful, twoText])

/-- Ids, identifiers, values, vertices, edges and single properties. -/
theorem C42_values (u : Uuid) (i : Identifier) (hi : i.Valid letter) (v : Json) (hv : J.Faithful v) (x : Vertex)
    (hx : x.t.Valid letter) (e : Edge) (he : e.t.Valid letter) (d : EdgeDirection) :
    u.toProto.conv = .ok u ∧ i.toProto.conv letter = .ok i ∧ (v.toProto J).conv J = .ok v ∧
    x.toProto.conv letter = .ok x ∧ e.toProto.conv letter = .ok e ∧
    (PEdgeDirection.ofI32 d.toProto.toI32).conv = d ∧
    (NamedProperty.toProto J ⟨i, v⟩).conv letter J = .ok ⟨i, v⟩ ∧
    (VertexProperty.toProto J ⟨u, v⟩).conv J = .ok ⟨u, v⟩ ∧
    (EdgeProperty.toProto J ⟨e, v⟩).conv letter J = .ok ⟨e, v⟩ ∧
    (PIndexPropertyRequest.mk (some i.toProto)).conv letter = .ok i := by
  have hj := Json.toProto_means J hv
  have hid := Identifier.toProto_means letter hi
  have hed := Edge.toProto_means letter he
  exact ⟨(PUuid.conv_iff _ _).2 u.toProto_means, (PIdentifier.conv_iff _ _ _).2 hid, (PJson.conv_iff _ _ _).2 hj,
    (PVertex.conv_iff _ _ _).2 (Vertex.toProto_means letter hx), (PEdge.conv_iff _ _ _).2 hed, by cases d <;> rfl,
    (PNamedProperty.conv_iff _ _ _ _).2 ⟨⟨_, rfl, hid⟩, ⟨_, rfl, hj⟩⟩,
    (PVertexProperty.conv_iff _ _ _).2 ⟨⟨_, rfl, u.toProto_means⟩, ⟨_, rfl, hj⟩⟩,
    (PEdgeProperty.conv_iff _ _ _ _).2 ⟨⟨_, rfl, hed⟩, ⟨_, rfl, hj⟩⟩,
    (PIndexPropertyRequest.conv_iff _ _ _).2 ⟨_, rfl, hid⟩⟩

example : (Edge.toProto ⟨.nil, fooIdent, .max⟩).conv asciiAlnum = .ok ⟨.nil, fooIdent, .max⟩ :=
  (C42_values asciiAlnum twoText .nil fooIdent fooIdent_valid .null (by simp [JsonText.Faithful, twoText]) ⟨.nil, fooIdent⟩
    fooIdent_valid ⟨.nil, fooIdent, .max⟩ fooIdent_valid .outbound).2.2.2.2.1

/-- The conversion to messages does not merge queries: two queries with the same message are the same. -/
theorem C42_query_injective (q q' : Query) (h : q.All (·.Valid letter) J.Faithful)
    (h' : q'.All (·.Valid letter) J.Faithful) (e : q.toProto J = q'.toProto J) : q = q' := by
  have h1 := C42_query letter J q h
  rw [e, C42_query letter J q' h'] at h1
  exact (Except.ok.inj h1).symm

example (q : Query) (h : q.All (·.Valid asciiAlnum) twoText.Faithful) (e : nestedQuery.toProto twoText = q.toProto twoText) :
    q = nestedQuery := (C42_query_injective _ _ _ _ nestedQuery_valid h e).symm

/-- Identifiers made by `Identifier::new` are valid. -/
theorem C42_new_valid (s : String) (i : Identifier) (h : Identifier.new letter s = .ok i) : i.Valid letter := by
  obtain ⟨h1, h2⟩ := (Identifier.new_iff letter s i).1 h
  exact ⟨s, h1.symm, h2⟩

example (i : Identifier) (h : Identifier.new asciiAlnum "foo-Bar_9" = .ok i) : i.Valid asciiAlnum := C42_new_valid _ _ _ h

/-! ### C43 -/

/-- A query message is accepted exactly if it stands for a query (all required fields present at every depth, ids of 16
bytes, valid identifiers, JSON that parses), and the result is that query. -/
theorem C43_query (m : PQuery) :
    (∀ q, m.conv letter J = .ok q ↔ m.Means letter J q) ∧
    ((∃ e, m.conv letter J = .error e) ↔ ¬ ∃ q, m.Means letter J q) := by
  refine ⟨PQuery.conv_iff letter J m, ?_⟩
  simp only [← PQuery.conv_iff]
  cases m.conv letter J <;> simp

example : PQuery.Means asciiAlnum twoText (nestedQuery.toProto twoText) nestedQuery :=
  ((C43_query _ _ _).1 _).1 (C42_query _ _ _ nestedQuery_valid)

/-- A missing field anywhere inside the message makes the conversion fail. -/
theorem C43_missing (m m' : PQuery) (h : m'.Inside m) (hm : m'.MissingField) : ∃ e, m.conv letter J = .error e := by
  refine (C43_query letter J m).2.2 ?_
  rintro ⟨q, hq⟩
  obtain ⟨q', hq'⟩ := PQuery.inside_means letter J h hq
  exact PQuery.missing_not letter J hm hq'

example : ∃ e, brokenQuery.conv asciiAlnum twoText = .error e := C43_missing _ _ _ _ brokenQuery_inside .pipe

/-- So does any message inside it that is itself rejected. -/
theorem C43_inside (m m' : PQuery) (h : m'.Inside m) (e : ConversionError) (hm : m'.conv letter J = .error e) :
    ∃ e', m.conv letter J = .error e' := by
  refine (C43_query letter J m).2.2 ?_
  rintro ⟨q, hq⟩
  obtain ⟨q', hq'⟩ := PQuery.inside_means letter J h hq
  rw [(PQuery.conv_iff letter J _ _).2 hq'] at hm
  cases hm

example : ∃ e, brokenQuery.conv asciiAlnum twoText = .error e := C43_inside _ _ _ _ brokenQuery_inside _ rfl

/-- Ids are accepted if they have 16 bytes, identifiers if `Identifier::new` accepts them, JSON if it parses. -/
theorem C43_leaves (b : Bytes) (s : String) (t : String) :
    ((∃ u, (PUuid.mk b).conv = .ok u) ↔ b.length = 16) ∧
    ((∃ i, (PIdentifier.mk s).conv letter = .ok i) ↔
      (strBytes s).length ≤ 255 ∧ ∀ c ∈ s.toList, c = '-' ∨ c = '_' ∨ letter c = true) ∧
    ((∃ v, (PJson.mk t).conv J = .ok v) ↔ ∃ v, J.parse t = some v) := by
  refine ⟨?_, ?_, ?_⟩
  · simp only [PUuid.conv_iff, PUuid.Means]
    exact ⟨fun ⟨u, h⟩ => h ▸ u.len, fun h => ⟨⟨b, h⟩, rfl⟩⟩
  · simp only [PIdentifier.conv_iff, PIdentifier.Means]
    exact ⟨fun ⟨i, h1, h2⟩ => ⟨h1 ▸ i.len, h2⟩, fun ⟨h1, h2⟩ => ⟨⟨_, h1⟩, rfl, h2⟩⟩
  · simp only [PJson.conv_iff, PJson.Means]

example : ¬ ∃ u, (PUuid.mk [1, 2, 3]).conv = .ok u := fun h => absurd ((C43_leaves asciiAlnum twoText [1, 2, 3] "" "").1.1 h) (by decide)

/-- The other messages: accepted exactly if they stand for something, and then that is the result. -/
theorem C43_others :
    (∀ m v, PVertex.conv letter m = .ok v ↔ m.Means letter v) ∧
    (∀ m e, PEdge.conv letter m = .ok e ↔ m.Means letter e) ∧
    (∀ m p, PNamedProperty.conv letter J m = .ok p ↔ m.Means letter J p) ∧
    (∀ m p, PVertexProperty.conv J m = .ok p ↔ m.Means J p) ∧
    (∀ m p, PEdgeProperty.conv letter J m = .ok p ↔ m.Means letter J p) ∧
    (∀ m o, POutput.conv letter J m = .ok o ↔ m.Means letter J o) ∧
    (∀ m i, PBulkInsertItem.conv letter J m = .ok i ↔ m.Means letter J i) ∧
    (∀ m i, PIndexPropertyRequest.conv letter m = .ok i ↔ Field (PIdentifier.Means letter) m.name i) ∧
    (∀ m r, PSetPropertiesRequest.conv letter J m = .ok r ↔ m.Means letter J r) :=
  ⟨PVertex.conv_iff letter, PEdge.conv_iff letter, PNamedProperty.conv_iff letter J, PVertexProperty.conv_iff J,
   PEdgeProperty.conv_iff letter J, POutput.conv_iff letter J, PBulkInsertItem.conv_iff letter J,
   PIndexPropertyRequest.conv_iff letter, PSetPropertiesRequest.conv_iff letter J⟩

/-- a vertex without an id -/
example : ¬ ∃ v, PVertex.conv asciiAlnum ⟨none, some ⟨"foo"⟩⟩ = .ok v := fun ⟨v, h⟩ => by
  have := (((C43_others asciiAlnum twoText).1 _ v).1 h).id
  simp [Field] at this

/-- Whatever is accepted contains only valid identifiers. -/
theorem C43_valid :
    (∀ m q, PQuery.conv letter J m = .ok q → q.All (·.Valid letter) (fun _ => True)) ∧
    (∀ m i, PBulkInsertItem.conv letter J m = .ok i → i.All (·.Valid letter) (fun _ => True)) ∧
    (∀ m v, PVertex.conv letter m = .ok v → v.t.Valid letter) ∧
    (∀ m e, PEdge.conv letter m = .ok e → e.t.Valid letter) ∧
    (∀ m i, PIdentifier.conv letter m = .ok i → i.Valid letter) := by
  refine ⟨?_, ?_, ?_, ?_, ?_⟩
  · intro m q h
    have := PQuery.means_valid letter J ((PQuery.conv_iff letter J _ _).1 h)
    clear h
    induction q <;> simp_all [Query.All]
  · intro m i h
    have := PBulkInsertItem.means_valid letter J ((PBulkInsertItem.conv_iff letter J _ _).1 h)
    cases i <;> simp_all [BulkInsertItem.All]
  · intro m v h; exact PVertex.means_valid letter _ _ ((PVertex.conv_iff letter _ _).1 h)
  · intro m v h; exact PEdge.means_valid letter _ _ ((PEdge.conv_iff letter _ _).1 h)
  · intro m v h; exact PIdentifier.means_valid letter ((PIdentifier.conv_iff letter _ _).1 h)

example (m : PQuery) (q : Query) (n : Identifier) (h : m.conv asciiAlnum twoText = .ok (.pipeProperty q (some n))) : n.Valid asciiAlnum :=
  ((C43_valid asciiAlnum twoText).1 _ _ h).2 n rfl

/-! ### Cases -/

end IndraDB
