import Verif.Base.SMap
/-
Model of `lib/src/models/{identifiers,edges,vertices,properties,bulk_insert}.rs` and `lib/src/errors.rs`.
-/
namespace IndraDB

/-- `uuid::Uuid`: 16 bytes, ordered bytewise (derived `Ord` on `[u8; 16]`).
Used everywhere, e.g. `lib/src/models/vertices.rs:10-14`. -/
structure Uuid where
  bytes : Bytes
  len : bytes.length = 16
deriving DecidableEq

namespace Uuid
theorem inj {a b : Uuid} (h : a.bytes = b.bytes) : a = b := by
  cases a; cases b; simp at h; subst h; rfl
/-- The derived `Ord` of `[u8; 16]`, on which the keys at `lib/src/memory/datastore.rs:28-36` are ordered. -/
instance : Order Uuid := Order.comap Uuid.bytes (fun _ _ => inj)
/-- `Uuid::default()`: all zero bytes (used in `lib/src/database.rs:440`). -/
def nil : Uuid := ⟨List.replicate 16 0, by simp⟩
/-- The greatest UUID `ffffffff-ffff-ffff-ffff-ffffffffffff` (see `lib/src/util.rs:144-146`). -/
def max : Uuid := ⟨List.replicate 16 255, by simp⟩
/-- `Uuid::from_slice`. Used at `lib/src/util.rs:88` and in `proto/src/converters.rs`. -/
def ofBytes? (b : Bytes) : Option Uuid := if h : b.length = 16 then some ⟨b, h⟩ else none
end Uuid

/-- `Identifier` (`lib/src/models/identifiers.rs:13-14`): the bytes of a string of at most 255 bytes, which is what
`Identifier::new` (25-35) accepts. Longer identifiers, which `unsafe new_unchecked` and `Deserialize` (93-102)
make, are in `Model/RawIdentifier.lean`.
`Intern<String>` is compared by contents. The character restriction is modelled separately (`Model/Util.lean`). -/
structure Identifier where
  bytes : Bytes
  len : bytes.length ≤ 255
deriving DecidableEq

namespace Identifier
theorem inj {a b : Identifier} (h : a.bytes = b.bytes) : a = b := by
  cases a; cases b; simp at h; subst h; rfl
/-- The derived `Ord` (`lib/src/models/identifiers.rs:13`): that of the string. -/
instance : Order Identifier := Order.comap Identifier.bytes (fun _ _ => inj)
/-- `Identifier::default()` (`lib/src/models/identifiers.rs:55-59`): the empty string. -/
def empty : Identifier := ⟨[], by simp⟩
end Identifier

/-- `Edge` (`lib/src/models/edges.rs:11-21`). -/
structure Edge where
  outboundId : Uuid
  t : Identifier
  inboundId : Uuid
deriving DecidableEq

namespace Edge
/-- Derived `Ord` (`lib/src/models/edges.rs:11`): lexicographic in declaration order. -/
instance : Order Edge :=
  Order.comap (fun e : Edge => (e.outboundId, e.t, e.inboundId)) (fun a b h => by
    cases a; cases b; simp_all)
/-- `Edge::reversed` (`lib/src/models/edges.rs:41-43`). -/
def reversed (e : Edge) : Edge := ⟨e.inboundId, e.t, e.outboundId⟩
@[simp] theorem reversed_reversed (e : Edge) : e.reversed.reversed = e := rfl
@[simp] theorem reversed_outboundId (e : Edge) : e.reversed.outboundId = e.inboundId := rfl
@[simp] theorem reversed_inboundId (e : Edge) : e.reversed.inboundId = e.outboundId := rfl
@[simp] theorem reversed_t (e : Edge) : e.reversed.t = e.t := rfl
theorem reversed_inj {a b : Edge} (h : a.reversed = b.reversed) : a = b := by
  have := congrArg reversed h; simpa using this
theorem reversed_eq_iff {a b : Edge} : a.reversed = b ↔ a = b.reversed :=
  ⟨fun h => by rw [← h]; rfl, fun h => by rw [h]; rfl⟩
theorem lt_iff (a b : Edge) : Order.lt a b = Order.lt (a.outboundId, a.t, a.inboundId) (b.outboundId, b.t, b.inboundId) := rfl
end Edge

/-- `Vertex` (`lib/src/models/vertices.rs:10-16`). (Rust's `==` on vertices compares only the id; the model compares
vertices structurally, which is stronger.) -/
structure Vertex where
  id : Uuid
  t : Identifier
deriving DecidableEq

/-! ### JSON values -/

/-- A finite `f64`: sign, biased exponent (below 2047) and fraction. The floats of `lib/src/models/json.rs`. -/
structure F64 where
  neg : Bool
  exp : Fin 2047
  frac : Fin 4503599627370496
deriving DecidableEq

/-- `serde_json::Number` (without `arbitrary_precision`): `PosInt(u64)`, `NegInt(i64)` (always negative; `negInt m`
stands for `-(m+1)`), `Float(f64)` (always finite). The numbers of `lib/src/models/json.rs:28-38`. -/
inductive Num where
  | posInt (n : Fin 18446744073709551616)
  | negInt (m : Fin 9223372036854775808)
  | float (f : F64)
deriving DecidableEq

mutual
/-- `serde_json::Value`. Strings are their UTF-8 bytes. Wrapped at `lib/src/models/json.rs:148-149`. -/
inductive Json where
  | null
  | bool (b : Bool)
  | num (n : Num)
  | str (s : Bytes)
  | arr (a : JArr)
  | obj (o : JObj)
deriving DecidableEq
/-- `Vec<Value>`. `lib/src/models/json.rs:43-48`. -/
inductive JArr where
  | nil
  | cons (v : Json) (r : JArr)
deriving DecidableEq
/-- `serde_json::Map` in iteration order (a `BTreeMap` without `preserve_order`). `lib/src/models/json.rs:49-55`. -/
inductive JObj where
  | nil
  | cons (k : Bytes) (v : Json) (r : JObj)
deriving DecidableEq
end

/-- Not code: a default for `lib/src/models/json.rs:149`, used for list lookups in examples. -/
instance : Inhabited Json := ⟨.null⟩

/-- `NamedProperty` (`lib/src/models/properties.rs:28-34`). -/
structure NamedProperty where
  name : Identifier
  value : Json
deriving DecidableEq

/-- `VertexProperties` (`lib/src/models/properties.rs:48-55`). -/
structure VertexProperties where
  vertex : Vertex
  props : List NamedProperty
deriving DecidableEq

/-- `EdgeProperties` (`lib/src/models/properties.rs:80-87`). -/
structure EdgeProperties where
  edge : Edge
  props : List NamedProperty
deriving DecidableEq

/-- `BulkInsertItem` (`lib/src/models/bulk_insert.rs`). -/
inductive BulkInsertItem where
  | vertex (v : Vertex)
  | edge (e : Edge)
  | vertexProperty (id : Uuid) (name : Identifier) (value : Json)
  | edgeProperty (e : Edge) (name : Identifier) (value : Json)
deriving DecidableEq

/-- `ValidationError` (`lib/src/errors.rs:107-119`). -/
inductive ValidationError where
  | invalidValue | valueTooLong | cannotIncrementUuid | innerQuery
deriving DecidableEq

/-- `Error` (`lib/src/errors.rs:15-38`); payloads of `Datastore` and `Io` are dropped. -/
inductive Error where
  | uuidTaken | datastore | io | notIndexed | unsupported | invalid (e : ValidationError) | operationOnQuery
deriving DecidableEq

/-- How a computation can fail to return a value: a Rust `Err` or a Rust panic. `lib/src/errors.rs:16-38`. -/
inductive Fault where
  | err (e : Error)
  | panic
deriving DecidableEq

/-- `Result<T>` plus the possibility of a panic. `lib/src/errors.rs`. -/
abbrev Res (α : Type) := Except Fault α

/-- Decidable equality of outcomes (`lib/src/errors.rs`); used by examples only. -/
instance {α : Type} [DecidableEq α] : DecidableEq (Res α) := fun a b =>
  match a, b with
  | .ok x, .ok y => if h : x = y then isTrue (by rw [h]) else isFalse (fun e => h (Except.ok.inj e))
  | .error x, .error y => if h : x = y then isTrue (by rw [h]) else isFalse (fun e => h (Except.error.inj e))
  | .ok _, .error _ => isFalse (fun e => nomatch e)
  | .error _, .ok _ => isFalse (fun e => nomatch e)

/-- `DynIter` (`lib/src/database.rs:12`): the items a lazy iterator would yield, each possibly an error. -/
abbrev DynIter (α : Type) := List (Res α)

/-- `iter.collect::<Result<Vec<T>>>()`: the first failing item wins. Used throughout `lib/src/database.rs:380-690`. -/
def collect {α : Type} : DynIter α → Res (List α)
  | [] => .ok []
  | .ok a :: r => match collect r with
    | .ok l => .ok (a :: l)
    | .error f => .error f
  | .error f :: _ => .error f

theorem collect_map_ok {α : Type} (l : List α) : collect (l.map .ok) = .ok l := by
  induction l with
  | nil => rfl
  | cons a r ih => simp [collect, ih]

/-- Debug (`debug_assertions` on) or release build.
It matters for the `debug_assert`s of `lib/src/memory/datastore.rs:265-287` and `lib/src/rdb/managers.rs`. -/
inductive Build where
  | debug | release
deriving DecidableEq

end IndraDB
