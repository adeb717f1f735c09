import Verif.Model.MemorySync
/-
The bytes of a persisted image: what `rmp_serde::encode::write` writes for an `InternalMemory`
(`lib/src/memory/datastore.rs:296`) and how `rmp_serde::from_read` reads them (430), i.e. an `ImageCodec`. The crates
`rmp`, `rmp-serde`, `serde_json` and `uuid` are not part of the repository; what is modelled is their behaviour on the types at
`lib/src/memory/datastore.rs:17-35`: MessagePack in its shortest form, structs and tuples as arrays, ids as 16 byte
binaries, an enum as a map with one entry.
Simplification: the reader refuses some forms that `sync` never writes and the crate would accept (a struct as a map, a
variant by its number, 32 bit floats, identifiers above 255 bytes, see `Model/RawIdentifier.lean` for those). The theorems
are about files written by `sync`, and about pieces of such files.
-/
namespace IndraDB

/-! ### Writing -/

/-- `k` bytes, most significant first, of `n mod 256^k`. All numbers in the file are big-endian.
Part of what is written at `lib/src/memory/datastore.rs:296`. -/
def be : Nat → Nat → Bytes
  | 0, _ => []
  | k + 1, n => UInt8.ofNat (n / 256 ^ k) :: be k n

/-- `rmp::encode::write_uint`: the shortest form. Part of what is written at `lib/src/memory/datastore.rs:296`. -/
def packUint (n : Nat) : Bytes :=
  if n < 128 then [UInt8.ofNat n]
  else if n < 256 then 0xcc :: be 1 n
  else if n < 65536 then 0xcd :: be 2 n
  else if n < 4294967296 then 0xce :: be 4 n
  else 0xcf :: be 8 n

/-- `rmp::encode::write_sint` of the negative number `-(m+1)`: the shortest form, in two's complement.
Part of what is written at `lib/src/memory/datastore.rs:296`. -/
def packSint (m : Nat) : Bytes :=
  if m < 32 then [UInt8.ofNat (255 - m)]
  else if m < 128 then 0xd0 :: be 1 (256 - 1 - m)
  else if m < 32768 then 0xd1 :: be 2 (65536 - 1 - m)
  else if m < 2147483648 then 0xd2 :: be 4 (4294967296 - 1 - m)
  else 0xd3 :: be 8 (18446744073709551616 - 1 - m)

/-- `rmp::encode::write_str`. The length is written with at most 32 bits.
Part of what is written at `lib/src/memory/datastore.rs:296`. -/
def packStr (s : Bytes) : Bytes :=
  (if s.length < 32 then [UInt8.ofNat (0xa0 + s.length)]
   else if s.length < 256 then 0xd9 :: be 1 s.length
   else if s.length < 65536 then 0xda :: be 2 s.length
   else 0xdb :: be 4 s.length) ++ s

/-- `rmp::encode::write_array_len`. Part of what is written at `lib/src/memory/datastore.rs:296`. -/
def packArr (n : Nat) : Bytes :=
  if n < 16 then [UInt8.ofNat (0x90 + n)]
  else if n < 65536 then 0xdc :: be 2 n
  else 0xdd :: be 4 n

/-- `rmp::encode::write_map_len`. Part of what is written at `lib/src/memory/datastore.rs:296`. -/
def packMap (n : Nat) : Bytes :=
  if n < 16 then [UInt8.ofNat (0x80 + n)]
  else if n < 65536 then 0xde :: be 2 n
  else 0xdf :: be 4 n

/-- `Serialize for serde_json::Number`, used by `Json` (`lib/src/models/json.rs:198-205`). -/
def Num.pack : Num → Bytes
  | .posInt n => packUint n.val
  | .negInt m => packSint m.val
  | .float f => 0xcb :: be 8 f.toBits

/-- The number of elements of an array (`lib/src/models/json.rs:43-48`). -/
def JArr.length : JArr → Nat
  | .nil => 0
  | .cons _ r => r.length + 1

/-- The number of entries of an object (`lib/src/models/json.rs:49-55`). -/
def JObj.length : JObj → Nat
  | .nil => 0
  | .cons _ _ r => r.length + 1

mutual
/-- `Serialize for serde_json::Value`, used by `Json` (`lib/src/models/json.rs:198-205`). -/
def Json.pack : Json → Bytes
  | .null => [0xc0]
  | .bool false => [0xc2]
  | .bool true => [0xc3]
  | .num n => n.pack
  | .str s => packStr s
  | .arr a => packArr a.length ++ a.pack
  | .obj o => packMap o.length ++ o.pack
/-- The elements of an array, in order (`lib/src/models/json.rs:198-205`). -/
def JArr.pack : JArr → Bytes
  | .nil => []
  | .cons v r => v.pack ++ r.pack
/-- The entries of an object, in order (`lib/src/models/json.rs:198-205`). -/
def JObj.pack : JObj → Bytes
  | .nil => []
  | .cons k v r => packStr k ++ v.pack ++ r.pack
end

/-- `Serialize for Uuid`: 16 bytes. The ids at `lib/src/memory/datastore.rs:19, 29-33`. -/
def Uuid.pack (u : Uuid) : Bytes := 0xc4 :: 16 :: u.bytes

/-- `Serialize for Identifier` (`lib/src/models/identifiers.rs:84-91`): a string. -/
def Identifier.pack (i : Identifier) : Bytes := packStr i.bytes

/-- Derived `Serialize for Edge` (`lib/src/models/edges.rs:11`). -/
def Edge.pack (e : Edge) : Bytes := packArr 3 ++ (e.outboundId.pack ++ (e.t.pack ++ e.inboundId.pack))

/-- Derived `Serialize for IndexedPropertyMember` (`lib/src/memory/datastore.rs:17-21`): a map from the name of the variant to its content. -/
def Member.pack : Member → Bytes
  | .inl id => packMap 1 ++ (packStr [86, 101, 114, 116, 101, 120] ++ id.pack)
  | .inr e => packMap 1 ++ (packStr [69, 100, 103, 101] ++ e.pack)

/-- The elements of a set or the entries of a map, one after the other. Derived `Serialize`, `lib/src/memory/datastore.rs:27-35`. -/
def packAll {α : Type} (f : α → Bytes) : List α → Bytes
  | [] => []
  | a :: r => f a ++ packAll f r

/-- Derived `Serialize for InternalMemory` (`lib/src/memory/datastore.rs:27-35`): the fields in the order of their declaration. -/
def Image.pack (i : Image) : Bytes :=
  packArr 6 ++
  ((packMap i.vertices.length ++ packAll (fun e => e.1.pack ++ e.2.pack) i.vertices) ++
  ((packArr i.edges.length ++ packAll Edge.pack i.edges) ++
  ((packArr i.reversedEdges.length ++ packAll Edge.pack i.reversedEdges) ++
  ((packMap i.vertexProperties.length ++
    packAll (fun e => (packArr 2 ++ (e.1.1.pack ++ e.1.2.pack)) ++ e.2.pack) i.vertexProperties) ++
  ((packMap i.edgeProperties.length ++
    packAll (fun e => (packArr 2 ++ (e.1.1.pack ++ e.1.2.pack)) ++ e.2.pack) i.edgeProperties) ++
  (packMap i.propertyValues.length ++
    packAll (fun e => e.1.pack ++ (packMap e.2.length ++
      packAll (fun s => s.1.pack ++ (packArr s.2.length ++ packAll Member.pack s.2)) e.2)) i.propertyValues))))))

/-! ### Reading -/

/-- A reader takes bytes from the front of the file; `none` is an error (`rmp_serde::decode::Error`), in particular when
the file ends too early. `lib/src/memory/datastore.rs:430`. -/
abbrev Unpack (α : Type) := Bytes → Option (α × Bytes)

namespace Unpack

/-- Read nothing. Part of what is done at `lib/src/memory/datastore.rs:430`. -/
def ret {α : Type} (a : α) : Unpack α := fun b => some (a, b)

/-- An error. Part of what is done at `lib/src/memory/datastore.rs:430`. -/
def fail {α : Type} : Unpack α := fun _ => none

/-- One after the other. Part of what is done at `lib/src/memory/datastore.rs:430`. -/
def bind {α β : Type} (p : Unpack α) (f : α → Unpack β) : Unpack β := fun b =>
  match p b with
  | none => none
  | some (a, r) => f a r

/-- Read one byte. Part of what is done at `lib/src/memory/datastore.rs:430`. -/
def byte : Unpack UInt8
  | [] => none
  | x :: r => some (x, r)

/-- Read `n` bytes. Part of what is done at `lib/src/memory/datastore.rs:430`. -/
def take : Nat → Unpack Bytes
  | 0 => ret []
  | n + 1 => byte.bind fun x => (take n).bind fun l => ret (x :: l)

/-- The number whose bytes, most significant first, are `b`; `acc` is what has been read before.
Part of what is done at `lib/src/memory/datastore.rs:430`. -/
def ofBe (acc : Nat) : Bytes → Nat
  | [] => acc
  | x :: r => ofBe (acc * 256 + x.toNat) r

/-- Read a big-endian number of `k` bytes. Part of what is done at `lib/src/memory/datastore.rs:430`. -/
def nat (k : Nat) : Unpack Nat := (take k).bind fun b => ret (ofBe 0 b)

/-- Read `n` things. Part of what is done at `lib/src/memory/datastore.rs:430`. -/
def rep {α : Type} (p : Unpack α) : Nat → Unpack (List α)
  | 0 => ret []
  | n + 1 => p.bind fun a => (rep p n).bind fun l => ret (a :: l)

end Unpack

/-- What a marker announces; strings, binaries and numbers are complete, of arrays and maps it is the number of entries
that follow. Read at `lib/src/memory/datastore.rs:430`. -/
inductive PackItem where
  | nil
  | bool (b : Bool)
  | uint (n : Nat)
  /-- `-(m+1)` -/
  | sint (m : Nat)
  | f64 (bits : Nat)
  | str (s : Bytes)
  | bin (s : Bytes)
  | arr (n : Nat)
  | map (n : Nat)
deriving DecidableEq

open Unpack in
/-- A signed number of `k` bytes. Read at `lib/src/memory/datastore.rs:430`. -/
def unpackSigned (k : Nat) : Unpack PackItem := (nat k).bind fun v =>
  if 2 * v < 256 ^ k then ret (.uint v) else ret (.sint (256 ^ k - 1 - v))

open Unpack in
/-- The markers of MessagePack: the shortest and the longer forms. Read at `lib/src/memory/datastore.rs:430`. -/
def unpackItem : Unpack PackItem := byte.bind fun x =>
  let m := x.toNat
  if m < 0x80 then ret (.uint m)
  else if m < 0x90 then ret (.map (m - 0x80))
  else if m < 0xa0 then ret (.arr (m - 0x90))
  else if m < 0xc0 then (take (m - 0xa0)).bind fun s => ret (.str s)
  else if m = 0xc0 then ret .nil
  else if m = 0xc2 then ret (.bool false)
  else if m = 0xc3 then ret (.bool true)
  else if m = 0xc4 then (nat 1).bind fun n => (take n).bind fun s => ret (.bin s)
  else if m = 0xc5 then (nat 2).bind fun n => (take n).bind fun s => ret (.bin s)
  else if m = 0xc6 then (nat 4).bind fun n => (take n).bind fun s => ret (.bin s)
  else if m = 0xcb then (nat 8).bind fun n => ret (.f64 n)
  else if m = 0xcc then (nat 1).bind fun n => ret (.uint n)
  else if m = 0xcd then (nat 2).bind fun n => ret (.uint n)
  else if m = 0xce then (nat 4).bind fun n => ret (.uint n)
  else if m = 0xcf then (nat 8).bind fun n => ret (.uint n)
  else if m = 0xd0 then unpackSigned 1
  else if m = 0xd1 then unpackSigned 2
  else if m = 0xd2 then unpackSigned 4
  else if m = 0xd3 then unpackSigned 8
  else if m = 0xd9 then (nat 1).bind fun n => (take n).bind fun s => ret (.str s)
  else if m = 0xda then (nat 2).bind fun n => (take n).bind fun s => ret (.str s)
  else if m = 0xdb then (nat 4).bind fun n => (take n).bind fun s => ret (.str s)
  else if m = 0xdc then (nat 2).bind fun n => ret (.arr n)
  else if m = 0xdd then (nat 4).bind fun n => ret (.arr n)
  else if m = 0xde then (nat 2).bind fun n => ret (.map n)
  else if m = 0xdf then (nat 4).bind fun n => ret (.map n)
  else if m < 0xe0 then fail
  else ret (.sint (255 - m))

/-- `f64::from_bits`; `none` for infinities and NaNs, which are no JSON numbers. Used by `Deserialize for Json`
(`lib/src/models/json.rs:207-215`). -/
def F64.ofBits (n : Nat) : Option F64 :=
  if h : n / 2 ^ 52 % 2048 < 2047 then
    some ⟨decide (2 ^ 63 ≤ n), ⟨n / 2 ^ 52 % 2048, h⟩, ⟨n % 4503599627370496, Nat.mod_lt _ (by decide)⟩⟩
  else none

/-- The elements that were read. `Deserialize for Json` (`lib/src/models/json.rs:207-215`). -/
def JArr.ofElems : List Json → JArr
  | [] => .nil
  | v :: r => .cons v (JArr.ofElems r)

/-- `Map::insert` (a `BTreeMap`). `Deserialize for Json` (`lib/src/models/json.rs:207-215`). -/
def JObj.insert (k : Bytes) (v : Json) : JObj → JObj
  | .nil => .cons k v .nil
  | .cons k' v' r =>
    if Order.lt k k' then .cons k v (.cons k' v' r)
    else if Order.lt k' k then .cons k' v' (JObj.insert k v r)
    else .cons k v r

/-- Insert the entries that were read one after the other. `Deserialize for Json` (`lib/src/models/json.rs:207-215`). -/
def JObj.ofEntries (acc : JObj) : List (Bytes × Json) → JObj
  | [] => acc
  | e :: r => JObj.ofEntries (acc.insert e.1 e.2) r

section
variable (utf8 : Bytes → Bool)
open Unpack

/-- Read a string; `utf8` is the check made by `str::from_utf8`. Read at `lib/src/memory/datastore.rs:430`. -/
def unpackStr : Unpack Bytes := unpackItem.bind fun
  | .str s => if utf8 s then ret s else fail
  | _ => fail

/-- `Deserialize for serde_json::Value`, used by `Json` (`lib/src/models/json.rs:207-215`). The argument is the number of
levels that may still be opened (`rmp_serde`'s counter against too deeply nested data): entering an array or a map
lowers it by one, and is an error if it becomes zero. -/
def unpackJson : Nat → Unpack Json
  | 0 => fail
  | c + 1 => unpackItem.bind fun
    | .nil => ret .null
    | .bool b => ret (.bool b)
    | .uint n => if h : n < 18446744073709551616 then ret (.num (.posInt ⟨n, h⟩)) else fail
    | .sint m => if h : m < 9223372036854775808 then ret (.num (.negInt ⟨m, h⟩)) else fail
    | .f64 n => match F64.ofBits n with
      | some f => ret (.num (.float f))
      | none => ret .null
    | .str s => if utf8 s then ret (.str s) else fail
    | .bin _ => fail
    | .arr n => if c = 0 then fail else (rep (unpackJson c) n).bind fun l => ret (.arr (JArr.ofElems l))
    | .map n => if c = 0 then fail else
      (rep ((unpackStr utf8).bind fun k => (unpackJson c).bind fun v => ret (k, v)) n).bind fun l =>
        ret (.obj (JObj.ofEntries .nil l))

/-- `Deserialize for Uuid`. The ids at `lib/src/memory/datastore.rs:19, 29-33`. -/
def unpackUuid : Unpack Uuid := unpackItem.bind fun
  | .bin s => match Uuid.ofBytes? s with
    | some u => ret u
    | none => fail
  | _ => fail

/-- `Deserialize for Identifier` (`lib/src/models/identifiers.rs:93-102`). -/
def unpackIdentifier : Unpack Identifier := (unpackStr utf8).bind fun s =>
  if h : s.length ≤ 255 then ret ⟨s, h⟩ else fail

/-- Enter an array of exactly `n` elements: a struct or a tuple. Derived `Deserialize`, `lib/src/memory/datastore.rs:27-35`. -/
def unpackFields {α : Type} (n c : Nat) (p : Nat → Unpack α) : Unpack α := unpackItem.bind fun
  | .arr k => if c ≤ 1 then fail else if k = n then p (c - 1) else fail
  | _ => fail

/-- A set. Derived `Deserialize`, `lib/src/memory/datastore.rs:27-35`. -/
def unpackSeq {α : Type} (c : Nat) (p : Nat → Unpack α) : Unpack (List α) := unpackItem.bind fun
  | .arr k => if c ≤ 1 then fail else rep (p (c - 1)) k
  | _ => fail

/-- A map. Derived `Deserialize`, `lib/src/memory/datastore.rs:27-35`. -/
def unpackEntries {α β : Type} (c : Nat) (p : Nat → Unpack α) (q : Nat → Unpack β) : Unpack (List (α × β)) :=
  unpackItem.bind fun
  | .map k => if c ≤ 1 then fail else rep ((p (c - 1)).bind fun a => (q (c - 1)).bind fun b => ret (a, b)) k
  | _ => fail

/-- Derived `Deserialize for Edge` (`lib/src/models/edges.rs:11`). -/
def unpackEdge (c : Nat) : Unpack Edge := unpackFields 3 c fun _ =>
  unpackUuid.bind fun o => (unpackIdentifier utf8).bind fun t => unpackUuid.bind fun i => ret ⟨o, t, i⟩

/-- Derived `Deserialize for IndexedPropertyMember` (`lib/src/memory/datastore.rs:17-21`). -/
def unpackMember (c : Nat) : Unpack Member := unpackItem.bind fun
  | .map k => if k = 1 then
      (unpackStr utf8).bind fun name =>
        if name = [86, 101, 114, 116, 101, 120] then unpackUuid.bind fun u => ret (.inl u)
        else if name = [69, 100, 103, 101] then (unpackEdge utf8 c).bind fun e => ret (.inr e)
        else fail
    else fail
  | _ => fail

/-- Derived `Deserialize for InternalMemory` (`lib/src/memory/datastore.rs:27-35`), as far as the lists that were read; what is
made of them is `Image.load`. -/
def unpackImage (c : Nat) : Unpack Image := unpackFields 6 c fun c =>
  (unpackEntries c (fun _ => unpackUuid) (fun _ => unpackIdentifier utf8)).bind fun vertices =>
  (unpackSeq c (unpackEdge utf8)).bind fun edges =>
  (unpackSeq c (unpackEdge utf8)).bind fun reversedEdges =>
  (unpackEntries c (fun c => unpackFields 2 c fun _ => unpackUuid.bind fun u => (unpackIdentifier utf8).bind fun n => ret (u, n))
    (unpackJson utf8)).bind fun vertexProperties =>
  (unpackEntries c (fun c => unpackFields 2 c fun c => (unpackEdge utf8 c).bind fun e =>
    (unpackIdentifier utf8).bind fun n => ret (e, n)) (unpackJson utf8)).bind fun edgeProperties =>
  (unpackEntries c (fun _ => unpackIdentifier utf8) (fun c => unpackEntries c (unpackJson utf8)
    (fun c => unpackSeq c (unpackMember utf8)))).bind fun propertyValues =>
  ret ⟨vertices, edges, reversedEdges, vertexProperties, edgeProperties, propertyValues⟩

/-- `rmp_serde` on images. `levels` is the limit for nested data (1024 in `rmp_serde`; the writer has none). Bytes after the
image are ignored. `lib/src/memory/datastore.rs:296, 430`. -/
def msgpack (levels : Nat) : ImageCodec where
  enc := Image.pack
  dec b := (unpackImage utf8 levels b).map (·.1)

end
end IndraDB
