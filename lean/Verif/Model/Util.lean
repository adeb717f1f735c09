import Verif.Model.Json
import Verif.Model.Query
/-
Model of `lib/src/util.rs` (without the UUID v1 generator, see `Model/UuidV1.lean`) and of `Identifier::new`
(`lib/src/models/identifiers.rs:25-35`).
-/
namespace IndraDB

/-! ### Byte keys -/

/-- 8 bytes, most significant first (`write_u64::<BigEndian>`, `lib/src/util.rs:59`). -/
def be64 (n : UInt64) : Bytes :=
  [UInt8.ofNat (n.toNat / 2^56), UInt8.ofNat (n.toNat / 2^48), UInt8.ofNat (n.toNat / 2^40), UInt8.ofNat (n.toNat / 2^32),
   UInt8.ofNat (n.toNat / 2^24), UInt8.ofNat (n.toNat / 2^16), UInt8.ofNat (n.toNat / 2^8), UInt8.ofNat n.toNat]

/-- `Component` (`lib/src/util.rs:23-32`). -/
inductive Component where
  | uuid (u : Uuid)
  | fixedLengthString (s : Bytes)
  | identifier (i : Identifier)
  | json (v : Json)

/-- `Component::write` (`lib/src/util.rs:47-62`); `H` is `DefaultHasher` (SipHash with fixed keys) on the hash input. The length
byte is `i.0.len() as u8`. -/
def Component.bytes (H : Bytes → UInt64) : Component → Bytes
  | .uuid u => u.bytes
  | .fixedLengthString s => s
  | .identifier i => UInt8.ofNat i.bytes.length :: i.bytes
  | .json v => be64 (H v.stream)

/-- `build` (`lib/src/util.rs:69-79`). -/
def build (H : Bytes → UInt64) : List Component → Bytes
  | [] => []
  | c :: r => c.bytes H ++ build H r

/-! Readers: a cursor is the remaining bytes. `read_exact` fails with an I/O error when too few bytes remain. -/

/-- `read_exact` of `n` bytes. `lib/src/util.rs:87, 104, 109`. -/
def readExact (n : Nat) (cur : Bytes) : Res (Bytes × Bytes) :=
  if cur.length < n then .error (.err .io) else .ok (cur.take n, cur.drop n)

/-- `read_uuid` (`lib/src/util.rs:85-90`). -/
def readUuid (cur : Bytes) : Res (Uuid × Bytes) :=
  match readExact 16 cur with
  | .error f => .error f
  | .ok (b, r) => match Uuid.ofBytes? b with
    | none => .error .panic
    | some u => .ok (u, r)

/-- `read_identifier` (`lib/src/util.rs:101-112`). -/
def readIdentifier (cur : Bytes) : Res (Identifier × Bytes) :=
  match cur with
  | [] => .error (.err .io)
  | n :: cur => match readExact n.toNat cur with
    | .error f => .error f
    | .ok (b, r) => if h : b.length ≤ 255 then .ok (⟨b, h⟩, r) else .error .panic

/-- `read_fixed_length_string` (`lib/src/util.rs:118-122`) followed by `new_unchecked` (`lib/src/rdb/managers.rs:329-330`). UTF-8
validity is not modelled. A name of more than 255 bytes cannot be represented (never written). -/
def readRestIdentifier (cur : Bytes) : Res Identifier :=
  if h : cur.length ≤ 255 then .ok ⟨cur, h⟩ else .error .panic

/-- `read_u64` (`lib/src/util.rs:128-131`); the value is never used by callers, only its 8 bytes are consumed. -/
def readU64 (cur : Bytes) : Res (Bytes × Bytes) := readExact 8 cur

/-! ### `next_uuid` -/

/-- The loop of `next_uuid` (`lib/src/util.rs:150-157`) on the reversed bytes. -/
def incRev : Bytes → Option Bytes
  | [] => none
  | b :: r => if b < 255 then some ((b + 1) :: r) else (incRev r).map (0 :: ·)

theorem incRev_length : ∀ (l l' : Bytes), incRev l = some l' → l'.length = l.length
  | [], _, h => by simp [incRev] at h
  | b :: r, l', h => by
    unfold incRev at h
    split at h
    · simp at h; subst h; simp
    · rw [Option.map_eq_some_iff] at h
      obtain ⟨x, hx, rfl⟩ := h
      simp [incRev_length r x hx]

/-- `next_uuid` (`lib/src/util.rs:147-160`). -/
def nextUuid (u : Uuid) : Except ValidationError Uuid :=
  match h : incRev u.bytes.reverse with
  | some l => .ok ⟨l.reverse, by have := incRev_length _ _ h; simp at this; simp [this, u.len]⟩
  | none => .error .cannotIncrementUuid

/-! ### `Identifier::new` -/

/-- UTF-8 bytes of a string. As written by `lib/src/util.rs:47-63`. -/
def strBytes (s : String) : Bytes := s.toUTF8.data.toList

/-- `Identifier::new` (`lib/src/models/identifiers.rs:25-35`). `isAlnum` is `char::is_alphanumeric`. -/
def Identifier.new (isAlnum : Char → Bool) (s : String) : Except ValidationError Identifier :=
  if h : (strBytes s).length > 255 then .error .valueTooLong
  else if !(s.toList.all (fun c => c == '-' || c == '_' || isAlnum c)) then .error .invalidValue
  else .ok ⟨strBytes s, by omega⟩

/-! ### `extract_*` (`lib/src/util.rs:166-220`) -/

/-- `extract_vertices` (`lib/src/util.rs:166-176`). -/
def extractVertices (output : List Output) : Option (List Vertex) :=
  match output.getLast? with
  | some (.vertices v) => some v
  | _ => none

/-- `extract_edges` (`lib/src/util.rs:178-188`). -/
def extractEdges (output : List Output) : Option (List Edge) :=
  match output.getLast? with
  | some (.edges v) => some v
  | _ => none

/-- `extract_count` (`lib/src/util.rs:190-200`). -/
def extractCount (output : List Output) : Option Nat :=
  match output.getLast? with
  | some (.count v) => some v
  | _ => none

/-- `extract_vertex_properties` (`lib/src/util.rs:202-212`). -/
def extractVertexProperties (output : List Output) : Option (List VertexProperties) :=
  match output.getLast? with
  | some (.vertexProperties v) => some v
  | _ => none

/-- `extract_edge_properties` (`lib/src/util.rs:214-224`). -/
def extractEdgeProperties (output : List Output) : Option (List EdgeProperties) :=
  match output.getLast? with
  | some (.edgeProperties v) => some v
  | _ => none

end IndraDB
