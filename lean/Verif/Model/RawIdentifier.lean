import Verif.Model.Rocks
/-
Identifiers as the program represents them: any interned string (`pub struct Identifier(pub(crate) Intern<String>)`,
`lib/src/models/identifiers.rs:93-101`). The rest of the model uses `Identifier` (`Model/Types.lean`), which has at most
255 bytes by construction; this file models the ways in which safe code obtains identifiers, one of which does not check
anything, and what `create_vertex` and `create_edge` of the RocksDB datastore store for such an identifier.
-/
namespace IndraDB

/-- `Identifier`: a string. `lib/src/models/identifiers.rs:14`. -/
structure RawIdentifier where
  s : String
deriving DecidableEq

/-- `as_str`, `Deref` (`lib/src/models/identifiers.rs:49-52`, 61-66), as bytes. -/
def RawIdentifier.bytes (i : RawIdentifier) : Bytes := strBytes i.s

/-- What a `serde` deserializer has to offer: a string, or something else.
The derived or written `Deserialize` of `lib/src/models/identifiers.rs:93-101`. -/
inductive SerdeValue where
  | str (s : String)
  | other

/-- The safe ways to make an identifier from the user's data: `Identifier::new` (25-35), `FromStr` (68-74),
`TryFrom<String>` (76-82), `Default` (55-59), `Deserialize` (93-102; also through the derived `Deserialize` of `Edge`,
`lib/src/models/edges.rs:11`). -/
inductive MakeIdentifier where
  | new (s : String)
  | fromStr (s : String)
  | tryFrom (s : String)
  | default
  | deserialize (v : SerdeValue)

/-- `Identifier::new` (lib/src/models/identifiers.rs:25-35). -/
def RawIdentifier.new (isAlnum : Char → Bool) (s : String) : Option RawIdentifier :=
  if (strBytes s).length > 255 then none
  else if !(s.toList.all (fun c => c == '-' || c == '_' || isAlnum c)) then none
  else some ⟨s⟩

/-- The identifier made, if there was no error. `isAlnum` is `char::is_alphanumeric`.
The functions of `lib/src/models/identifiers.rs` that make identifiers. -/
def MakeIdentifier.run (isAlnum : Char → Bool) : MakeIdentifier → Option RawIdentifier
  | .new s => RawIdentifier.new isAlnum s
  | .fromStr s => RawIdentifier.new isAlnum s
  | .tryFrom s => RawIdentifier.new isAlnum s
  | .default => some ⟨""⟩
  | .deserialize (.str s) => some ⟨s⟩   -- `unsafe { Identifier::new_unchecked(v) }`
  | .deserialize .other => none

namespace Rocks
variable (X : Cfg)

/-- `Component::Identifier` written (`lib/src/util.rs:52-55`): the length as one byte (`as u8`, which drops the higher bits), and
all of the string. -/
def rawIdentBytes (t : RawIdentifier) : Bytes := UInt8.ofNat t.bytes.length :: t.bytes

/-- `create_vertex` (`lib/src/rdb/datastore.rs:258-267`, `lib/src/rdb/managers.rs:80-84`) with any identifier as type. -/
def createVertexRaw (id : Uuid) (t : RawIdentifier) : Prog Bool := do
  if ← vertexExists X id then return false
  else do
    Prog.writeBatch [.put .vertices (vertexKey X id) (rawIdentBytes t)]
    return true

/-- An edge key (`lib/src/rdb/managers.rs:200-206`) with any identifier as type. -/
def edgeKeyRaw (a : Uuid) (t : RawIdentifier) (b : Uuid) : Bytes := a.bytes ++ (rawIdentBytes t ++ b.bytes)

/-- `EdgeManager::set` (`lib/src/rdb/managers.rs:143-156`). -/
def edgeSetRaw (a : Uuid) (t : RawIdentifier) (b : Uuid) : Prog Batch := do
  let d : Batch := if (← Prog.getCf .edgeRanges (edgeKeyRaw a t b)).isSome then
      [.delete .edgeRanges (edgeKeyRaw a t b), .delete .reversedEdgeRanges (edgeKeyRaw b t a)]
    else []
  return d ++ [.put .edgeRanges (edgeKeyRaw a t b) [], .put .reversedEdgeRanges (edgeKeyRaw b t a) []]

/-- `create_edge` (`lib/src/rdb/datastore.rs:269-278`) with any identifier as type. -/
def createEdgeRaw (a : Uuid) (t : RawIdentifier) (b : Uuid) : Prog Bool := do
  if !(← vertexExists X a) then return false
  else if !(← vertexExists X b) then return false
  else do
    let batch ← edgeSetRaw a t b
    Prog.writeBatch batch
    return true

end Rocks
end IndraDB
