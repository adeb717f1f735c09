import Verif.Model.PluginMap
import Verif.Model.Server
/-
Model of plugin declarations (`plugins/host/src/decl.rs`), of loading plugins (`proto/src/server.rs:124-191`) and of calling
them (`proto/src/server.rs:287-312`, `proto/src/client.rs:239-249`).
-/
namespace IndraDB

/-- `VersionInfo` (`plugins/host/src/decl.rs:16-25`). -/
structure VersionInfo where
  rustc : String
  pluginInterface : UInt8
deriving DecidableEq

/-- `VersionInfo::default()` (`plugins/host/src/decl.rs:27-35`): the compiler version the host crate was built with (read at compile time),
and the constant 1. -/
def VersionInfo.default (rustc : String) : VersionInfo := ⟨rustc, 1⟩

/-- A `HashMap` with string keys. `proto/src/server.rs:119-124`, `plugins/host/src/decl.rs:60`. -/
abbrev Entries (P : Type) := String → Option P

/-- `HashMap::insert`. `plugins/host/src/decl.rs:71-75`. -/
def Entries.insert {P : Type} (m : Entries P) (name : String) (p : P) : Entries P := fun x => if x = name then some p else m x

/-- `HashMap::extend` with another map: its entries replace those of the same name. `proto/src/server.rs:156-190`. -/
def Entries.extend {P : Type} (m d : Entries P) : Entries P := fun x => match d x with
  | some p => some p
  | none => m x

/-- `PluginDeclaration` (`plugins/host/src/decl.rs:58-62`). -/
structure PluginDeclaration (P : Type) where
  versionInfo : VersionInfo
  entries : Entries P

/-- The function generated by `register_plugins!` (`plugins/host/src/decl.rs:64-84`), in a library compiled with `rustc`: plugins are
inserted in order. The interface version given to the macro is not used. -/
def registerPlugins {P : Type} (rustc : String) (_interfaceVersion : UInt8) (plugins : List (String × P)) :
    PluginDeclaration P :=
  ⟨VersionInfo.default rustc, plugins.foldl (fun m p => m.insert p.1 p.2) (fun _ => none)⟩

/-- What the file at a path is: not a library that can be loaded, a library without the symbol `register`, or a library
whose `register` returns a declaration. `proto/src/server.rs:156-190`. -/
inductive PluginFile (P : Type) where
  | notALibrary | noSymbol | plugin (d : PluginDeclaration P)

/-- `InitError` (`proto/src/server.rs:38-60`), as far as `new_with_plugins` returns it. -/
inductive InitError where
  | libLoading (path : String)
  | versionMismatch (path : String) (library indradb : VersionInfo)
deriving DecidableEq

/-- The loop of `Server::new_with_plugins` (`proto/src/server.rs:164-184`). `me` is the version of the server. -/
def loadPlugins {P : Type} (me : VersionInfo) (fs : String → PluginFile P) : List String → Entries P →
    Except InitError (Entries P)
  | [], m => .ok m
  | path :: rest, m => match fs path with
    | .notALibrary => .error (.libLoading path)
    | .noSymbol => .error (.libLoading path)
    | .plugin d =>
      if d.versionInfo ≠ me then .error (.versionMismatch path d.versionInfo me)
      else loadPlugins me fs rest (m.extend d.entries)

/-- `Server::new_with_plugins` (`proto/src/server.rs:156-191`). -/
def newWithPlugins {P : Type} (me : VersionInfo) (fs : String → PluginFile P) (paths : List String) :
    Except InitError (Entries P) := loadPlugins me fs paths (fun _ => none)

/-- A plugin working on databases with states `σ` (`plugins/host/src/decl.rs:44-55`): arbitrary code that may change the database. -/
abbrev PluginFn (σ : Type) := σ → Json → σ × Except PluginError Json

/-- `ExecutePluginResponse` (`proto/indradb.proto:327-329`). -/
structure PExecutePluginResponse where
  value : Option PJson

section
variable (J : JsonText)

/-- `execute_plugin` of the server (`proto/src/server.rs:287-312`): first the argument is converted (absent: `null`), then the plugin
is looked up. `describe` is the text of a plugin error. -/
def executePlugin {σ : Type} (describe : PluginError → String) (entries : Entries (PluginFn σ)) (req : PExecutePluginRequest)
    (s : σ) : σ × Except Status PExecutePluginResponse :=
  match (match req.arg with | some a => mapConversionResult (a.conv J) | none => .ok .null) with
  | .error st => (s, .error st)
  | .ok arg => match entries req.name with
    | none => (s, .error .notFound)
    | some plugin => match plugin s arg with
      | (s', .ok v) => (s', .ok ⟨some (v.toProto J)⟩)
      | (s', .error e) => (s', .error (.plugin (describe e)))

/-- `Client::execute_plugin` (`proto/src/client.rs:239-249`), if the messages fit. -/
def clientExecutePlugin {σ : Type} (describe : PluginError → String) (entries : Entries (PluginFn σ)) (name : String)
    (arg : Json) (s : σ) : σ × Except ClientError Json :=
  match executePlugin J describe entries ⟨name, some (arg.toProto J)⟩ s with
  | (s', .error st) => (s', .error (.grpc st))
  | (s', .ok resp) => match resp.value with
    | none => (s', .ok .null)
    | some v => match v.conv J with
      | .ok v => (s', .ok v)
      | .error e => (s', .error (.conversion e))

/-- `hello_world` (`plugins/hello_world/src/lib.rs:7-16`): greets the argument, printed as JSON. -/
def helloWorld {σ : Type} : PluginFn σ := fun s arg => (s, .ok (.str (strBytes ("hello, " ++ J.print arg))))

end
end IndraDB
