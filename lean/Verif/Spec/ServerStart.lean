import Verif.Model.ServerStart
/-
What a server needs to start, and what it then is.
-/
namespace IndraDB
open Rocks

/-- A library that can be loaded and that was built for this server. -/
def PluginFile.Fits {P : Type} (me : VersionInfo) (f : PluginFile P) : Prop :=
  ∃ d, f = .plugin d ∧ d.versionInfo.rustc = me.rustc ∧ d.versionInfo.pluginInterface = me.pluginInterface

/-- `x` is declared as `name` by a library, and by no later one. -/
def DeclaredLast {P : Type} (libs : String → PluginFile P) (paths : List String) (name : String) (x : P) : Prop :=
  ∃ pre path post d, paths = pre ++ path :: post ∧ libs path = .plugin d ∧ d.entries name = some x ∧
    ∀ q ∈ post, ∀ d', libs q = .plugin d' → d'.entries name = none

/-- The plugins available are those of the command line: none, or - if the pattern is good, and all that matches can be read and
fits - just those declared. -/
def PluginsStarted {P : Type} (E : StartEnv P) (m : Entries P) : Prop :=
  match E.pattern with
  | none => ∀ name, m name = none
  | some pat => ∃ paths : List String, E.glob pat = some (paths.map some) ∧ (∀ p ∈ paths, (E.libs p).Fits E.me) ∧
      ∀ name x, m name = some x ↔ DeclaredLast E.libs paths name x

/-- There is an address to listen on. -/
def Listens {P : Type} (E : StartEnv P) : Prop := ∃ a r, E.addrs = some (a :: r) ∧ E.bind a = true

/-- The memory database a server starts with: empty without a path; what the file says; or empty if there is no file to be seen. -/
inductive MemoryStarted (F : Finder) (C : ImageCodec) (visible : Bool) (fs : Fs) : Option Path → MemHandle → Prop
  | volatile : MemoryStarted F C visible fs none ⟨⟨Mem.empty, false⟩, none⟩
  | saved {p : Path} {bytes : Bytes} {i : Image} : visible = true → fs p = some bytes → C.dec bytes = some i →
      MemoryStarted F C visible fs (some p) ⟨⟨i.load F, false⟩, some p⟩
  | new {p : Path} : (visible = false ∨ fs p = none) → MemoryStarted F C visible fs (some p) ⟨⟨Mem.empty, false⟩, some p⟩

/-- A RocksDB directory that a start can have left behind: nothing, an empty database before the first column family was created,
or a complete one. -/
inductive Dir.Sound : Dir → KV → Prop
  | none : Dir.Sound none KV.empty
  | bare : Dir.Sound (some ([], KV.empty)) KV.empty
  | full (kv : KV) : Dir.Sound (Dir.full kv) kv

end IndraDB
