import Verif.Model.Memory
/-
Persistence of the in-memory datastore: `sync` (`lib/src/memory/datastore.rs:291-303`), `new_db`, `read_msgpack_db` and
`create_msgpack_db` (414-448), over a small file system.
-/
namespace IndraDB

/-- What serde writes for an `InternalMemory` (derived `Serialize`, `lib/src/memory/datastore.rs:27-35`): every map as a list of
pairs and every set as a list, in iteration order. -/
structure Image where
  vertices : List (Uuid × Identifier)
  edges : List Edge
  reversedEdges : List Edge
  vertexProperties : List ((Uuid × Identifier) × Json)
  edgeProperties : List ((Edge × Identifier) × Json)
  propertyValues : List (Identifier × List (Json × List Member))
deriving DecidableEq

/-- Iteration orders of the hash maps and sets during serialization: arbitrary permutations.
Those of the derived `Serialize` (`lib/src/memory/datastore.rs:27`) on the maps and sets at 28-36. -/
structure ImageOrder where
  names : List (Identifier × Container) → List (Identifier × Container)
  names_perm : ∀ l, (names l).Perm l
  values : Container → Container
  values_perm : ∀ c, List.Perm (values c) c
  members : List Member → List Member
  members_perm : ∀ l, (members l).Perm l

/-- One such order of the maps of `lib/src/memory/datastore.rs:28-36`; only used in examples. -/
def ImageOrder.sorted : ImageOrder := ⟨id, fun _ => .refl _, id, fun _ => .refl _, id, fun _ => .refl _⟩

/-- `Serialize for InternalMemory`. Derived at `lib/src/memory/datastore.rs:27`. -/
def Mem.image (Q : ImageOrder) (m : Mem) : Image where
  vertices := m.vertices.toList
  edges := m.edges.elems
  reversedEdges := m.reversedEdges.elems
  vertexProperties := m.vertexProperties.toList
  edgeProperties := m.edgeProperties.toList
  propertyValues := (Q.names m.propertyValues.toList).map
    (fun e => (e.1, (Q.values e.2).map (fun s => (s.1, Q.members s.2.elems))))

/-- Deserialization of a `BTreeMap`: insert the pairs one after the other.
Derived at `lib/src/memory/datastore.rs:27`, called at 430. -/
def loadMap {κ α : Type} [Order κ] [DecidableEq κ] (l : List (κ × α)) : SMap κ α :=
  l.foldl (fun m e => m.insert e.1 e.2) SMap.empty

/-- Deserialization of a `BTreeSet` or `HashSet`. Derived at `lib/src/memory/datastore.rs:27`, called at 430. -/
def loadSet {κ : Type} [Order κ] [DecidableEq κ] (l : List κ) : SSet κ :=
  l.foldl (fun s k => s.add k) SMap.empty

/-- Deserialization of `HashMap<Json, HashSet<..>>`: `insert` replaces the value of a key that is found.
The field at `lib/src/memory/datastore.rs:34`. -/
def loadContainer (F : Finder) (l : List (Json × List Member)) : Container :=
  l.foldl (fun c e => c.upsert F e.1 (fun _ => loadSet e.2)) []

/-- `Deserialize for InternalMemory`. (`Identifier`'s `Deserialize` makes no checks, `lib/src/models/identifiers.rs:93-102`.) -/
def Image.load (F : Finder) (i : Image) : Mem where
  vertices := loadMap i.vertices
  edges := loadSet i.edges
  reversedEdges := loadSet i.reversedEdges
  vertexProperties := loadMap i.vertexProperties
  edgeProperties := loadMap i.edgeProperties
  propertyValues := loadMap (i.propertyValues.map (fun e => (e.1, loadContainer F e.2)))

/-- `rmp_serde` on images. Used at `lib/src/memory/datastore.rs:296, 430`. -/
structure ImageCodec where
  enc : Image → Bytes
  dec : Bytes → Option Image

/-- A path (any name). `lib/src/memory/datastore.rs:409`. -/
abbrev Path := Bytes

/-- The file system: contents of files.
What `sync` and `read_msgpack_db` (`lib/src/memory/datastore.rs:291-303, 426-435`) work on. -/
abbrev Fs := Path → Option Bytes

/-- System calls with an effect on the file system. Those made by `sync` (`lib/src/memory/datastore.rs:291-303`). -/
inductive FsOp where
  | create (p : Path)
  | append (p : Path) (b : Bytes)
  | rename (p q : Path)
  | remove (p : Path)

/-- The effect of one of the system calls of `sync` (`lib/src/memory/datastore.rs:291-303`). -/
def FsOp.apply : FsOp → Fs → Fs
  | .create p, fs => fun x => if x = p then some [] else fs x
  | .append p b, fs => fun x => if x = p then (fs p).map (· ++ b) else fs x
  | .rename p q, fs => fun x => if x = q then fs p else if x = p then none else fs x
  | .remove p, fs => fun x => if x = p then none else fs x

/-- The effect of system calls of `sync` (`lib/src/memory/datastore.rs:291-303`), one after the other. -/
def Fs.run (ops : List FsOp) (fs : Fs) : Fs := ops.foldl (fun fs o => o.apply fs) fs

/-- What the environment decides during one `sync`. `lib/src/memory/datastore.rs:291-303`. -/
structure SyncIo where
  /-- the name `NamedTempFile::new` picks (in the system's temporary directory, not next to the target) -/
  temp : Path
  /-- creating the temporary file works -/
  createOk : Bool
  /-- the writes done by the `BufWriter` while encoding (`rmp_serde::encode::write`, whenever the buffer is full) … -/
  head : List Bytes
  /-- … and when it is dropped (298), which writes the rest of the buffer. -/
  tail : List Bytes
  /-- `some n`: after `n` writes while encoding, the next one fails -/
  headFail : Option Nat
  /-- `some n`: after `n` writes of the final flush, the next one fails. `BufWriter`'s `drop` ignores that. -/
  tailFail : Option Nat
  /-- the rename works (it does not, for instance, if the temporary directory is on another file system) -/
  renameOk : Bool

/-- `sync` (`lib/src/memory/datastore.rs:291-303`): system calls and result. `NamedTempFile::new()` (293), encoding through a
`BufWriter` (295-296), drop of the `BufWriter` (297), `persist` = rename (299-300). If a step fails, `?` returns and the
drop of the `NamedTempFile` removes the temporary file. The environment is only constrained by `SyncIo.Writes` below. -/
def syncOps (path : Option Path) (io : SyncIo) : List FsOp × Res Unit :=
  match path with
  | none => ([], .ok ())
  | some p =>
    if !io.createOk then ([], .error (.err .datastore))
    else match io.headFail with
    | some n => (.create io.temp :: (io.head.take n).map (.append io.temp) ++ [.remove io.temp], .error (.err .datastore))
    | none =>
      let tail := match io.tailFail with
        | none => io.tail
        | some n => io.tail.take n
      let writes := .create io.temp :: (io.head ++ tail).map (.append io.temp)
      if io.renameOk then (writes ++ [.rename io.temp p], .ok ())
      else (writes ++ [.remove io.temp], .error (.err .datastore))

/-- The `BufWriter` is given the bytes `b`. `lib/src/memory/datastore.rs:295-296`. -/
def SyncIo.Writes (io : SyncIo) (b : Bytes) : Prop := io.head.flatten ++ io.tail.flatten = b

/-- The process dies after `k` system calls; if the next one is a write, a part of it (`cut` bytes) may have happened.
Not code: the calls are those of `sync` (`lib/src/memory/datastore.rs:291-303`). -/
def crashOps (ops : List FsOp) (k cut : Nat) : List FsOp :=
  ops.take k ++ match ops[k]? with
    | some (.append p b) => [.append p (b.take cut)]
    | _ => []

/-- `MemoryDatastore` (lib/src/memory/datastore.rs:407-410). -/
structure MemHandle where
  db : MemDb
  path : Option Path

/-- `new_db` (lib/src/memory/datastore.rs:414-419). -/
def MemHandle.newDb : MemHandle := ⟨MemDb.new, none⟩

/-- `create_msgpack_db` (lib/src/memory/datastore.rs:443-448): does not touch the file. -/
def MemHandle.createMsgpack (p : Path) : MemHandle := ⟨MemDb.new, some p⟩

/-- `read_msgpack_db` (lib/src/memory/datastore.rs:426-435). -/
def MemHandle.readMsgpack (F : Finder) (C : ImageCodec) (fs : Fs) (p : Path) : Res MemHandle :=
  match fs p with
  | none => .error (.err .io)
  | some b => match C.dec b with
    | none => .error (.err .datastore)
    | some i => .ok ⟨⟨i.load F, false⟩, some p⟩

end IndraDB
