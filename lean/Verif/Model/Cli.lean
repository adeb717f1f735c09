import Verif.Model.Server
/-
Model of the command line client (`client/src/main.rs`), from the parsed command line on. `clap` has checked that the
required arguments are there; connecting to the server is not modelled.
-/
namespace IndraDB

/-- The commands (`client/src/main.rs:45-145`) with their arguments as the strings given. -/
inductive Command where
  | ping
  | setVertex (t : String) (id : Option String)
  | setEdge (outboundId t inboundId : String)
  | setVertexProperty (uuid name value : String)
  | setEdgeProperty (outboundId t inboundId name value : String)
  | countVertex
  | countEdge
  | getVertex (uuid : String)
  | getEdge (outboundId t inboundId : String)
  | getVertexProperty (uuid : String) (name : Option String)
  | getEdgeProperty (outboundId t inboundId : String) (name : Option String)
  | deleteVertex (uuid : String)
  | deleteEdge (outboundId t inboundId : String)
  | deleteVertexProperty (uuid name : String)
  | deleteEdgeProperty (outboundId t inboundId name : String)

/-- What the program prints. The arguments of the `println!`s in `client/src/main.rs:159-240`. -/
inductive Printed where
  | nothing
  | ok
  | vertex (v : Vertex)
  | edge (e : Edge)
  | count (n : Nat)
  | vertices (l : Option (List Vertex))
  | edges (l : Option (List Edge))
  | vertexProperties (l : Option (List VertexProperties))
  | edgeProperties (l : Option (List EdgeProperties))
deriving DecidableEq

/-- How the program fails: the error `main` returns, or a panic.
`main` (`client/src/main.rs:20`) returns any error of `run` (153); the `unwrap`s at 199 and 202 panic. -/
inductive CliError where
  | uuidTaken
  | vertexInvalid
  | validation (e : ValidationError)
  | uuid
  | json
  | client (e : ClientError)
  | panic
deriving DecidableEq

section
variable (S : Store) (letter : Char → Bool) (J : JsonText) (parseUuid : String → Option Uuid)

/-- `Uuid::parse_str(..)?`. `client/src/main.rs:165, 261, 267, 268`. -/
def argUuid (s : String) : Except CliError Uuid :=
  match parseUuid s with
  | some u => .ok u
  | none => .error .uuid

/-- `Identifier::new(..)?`. `client/src/main.rs:163, 183, 189, 217, 229, 245, 249, 266`. -/
def argIdent (s : String) : Except CliError Identifier :=
  match Identifier.new letter s with
  | .ok i => .ok i
  | .error e => .error (.validation e)

/-- `Json::from_str(..)?`. `client/src/main.rs:184, 190`. -/
def argJson (s : String) : Except CliError Json :=
  match J.parse s with
  | some v => .ok v
  | none => .error .json

/-- `build_vertex_query` (`client/src/main.rs:260-263`). -/
def buildVertexQuery (uuid : String) : Except CliError Query := do
  return .specificVertex [← argUuid parseUuid uuid]

/-- `build_edge` (`client/src/main.rs:265-270`). -/
def buildEdge (outboundId t inboundId : String) : Except CliError Edge := do
  let t ← argIdent letter t
  let o ← argUuid parseUuid outboundId
  let i ← argUuid parseUuid inboundId
  return ⟨o, t, i⟩

/-- `.properties()?`, then `.name(..)`. `client/src/main.rs:218-220, 230-232, 246, 250-252`. -/
def propertiesOf (q : Query) (name : Option Identifier) : Except CliError Query :=
  match Query.newPipeProperty q with
  | .ok (.pipeProperty i _) => .ok (.pipeProperty i name)
  | .ok q => .ok q
  | .error e => .error (.validation e)

/-- `.count()?`. `client/src/main.rs:198, 201`. -/
def countOfQuery (q : Query) : Except CliError Query :=
  match Query.newCount q with
  | .ok q => .ok q
  | .error e => .error (.validation e)

/-- Optional names: `match property_name { Some(..) => Identifier::new(..)?, None => .. }`.
`client/src/main.rs:215-233`. -/
def argName : Option String → Except CliError (Option Identifier)
  | none => .ok none
  | some s => do return some (← argIdent letter s)

/-- What is sent to the server, and what is printed for the reply.
The branches of `run` (`client/src/main.rs:153-258`) up to the call of the client, and what they do with the reply. -/
inductive Plan where
  | ping
  /-- a call that returns whether it did something; if not, the command fails with `refused` -/
  | create (op : Op) (refused : CliError) (done : Printed)
  /-- a call that returns nothing -/
  | quiet (op : Op)
  /-- a query; `none` is the panic of `extract_count(..).unwrap()` -/
  | query (q : Query) (print : List Output → Option Printed)

/-- The part of `run` (`client/src/main.rs:150-258`) before the call: the arguments are read from left to right as the code does;
`generated` is what `generate_uuid_v1` would return. -/
def plan (generated : Uuid) : Command → Except CliError Plan
  | .ping => .ok .ping
  | .setVertex t id => do
    let t ← argIdent letter t
    let id ← match id with
      | some id => argUuid parseUuid id
      | none => .ok generated
    return .create (.createVertex ⟨id, t⟩) .uuidTaken (.vertex ⟨id, t⟩)
  | .setEdge o t i => do
    let e ← buildEdge letter parseUuid o t i
    return .create (.createEdge e) .vertexInvalid (.edge e)
  | .setVertexProperty u n v => do
    let q ← buildVertexQuery parseUuid u
    let n ← argIdent letter n
    let v ← argJson J v
    return .quiet (.setProperties q n v)
  | .setEdgeProperty o t i n v => do
    let n ← argIdent letter n
    let v ← argJson J v
    let e ← buildEdge letter parseUuid o t i
    return .quiet (.setProperties (.specificEdge [e]) n v)
  | .countVertex => do
    return .query (← countOfQuery .allVertex) (fun l => (extractCount l).map .count)
  | .countEdge => do
    return .query (← countOfQuery .allEdge) (fun l => (extractCount l).map .count)
  | .getVertex u => do
    return .query (← buildVertexQuery parseUuid u) (fun l => some (.vertices (extractVertices l)))
  | .getEdge o t i => do
    return .query (.specificEdge [← buildEdge letter parseUuid o t i]) (fun l => some (.edges (extractEdges l)))
  | .getVertexProperty u n => do
    let n ← argName letter n
    let q ← propertiesOf (← buildVertexQuery parseUuid u) n
    return .query q (fun l => some (.vertexProperties (extractVertexProperties l)))
  | .getEdgeProperty o t i n => do
    let e ← buildEdge letter parseUuid o t i
    let n ← argName letter n
    let q ← propertiesOf (.specificEdge [e]) n
    return .query q (fun l => some (.edgeProperties (extractEdgeProperties l)))
  | .deleteVertex u => do
    return .quiet (.delete (← buildVertexQuery parseUuid u))
  | .deleteEdge o t i => do
    return .quiet (.delete (.specificEdge [← buildEdge letter parseUuid o t i]))
  | .deleteVertexProperty u n => do
    let n ← argIdent letter n
    let q ← propertiesOf (← buildVertexQuery parseUuid u) (some n)
    return .quiet (.delete q)
  | .deleteEdgeProperty o t i n => do
    let n ← argIdent letter n
    let q ← propertiesOf (.specificEdge [← buildEdge letter parseUuid o t i]) (some n)
    return .quiet (.delete q)

/-- The part of `run` from the call on. `client/src/main.rs:153-258`. -/
def Store.perform (env : S.Env) (s : S.State) : Plan → S.State × Except CliError Printed
  | .ping => (s, .ok .ok)
  | .create op refused done => match S.clientCall letter J env op s with
    | (s', .ok (.bool true)) => (s', .ok done)
    | (s', .ok (.bool false)) => (s', .error refused)
    | (s', .ok _) => (s', .error (.client .badResponse))
    | (s', .error e) => (s', .error (.client e))
  | .quiet op => match S.clientCall letter J env op s with
    | (s', .ok _) => (s', .ok .nothing)
    | (s', .error e) => (s', .error (.client e))
  | .query q print => match S.clientCall letter J env (.get q) s with
    | (s', .ok (.outputs l)) => match print l with
      | some p => (s', .ok p)
      | none => (s', .error .panic)
    | (s', .ok _) => (s', .error (.client .badResponse))
    | (s', .error e) => (s', .error (.client e))

/-- The program: `run` (`client/src/main.rs:150-258`). -/
def Store.cli (env : S.Env) (generated : Uuid) (c : Command) (s : S.State) : S.State × Except CliError Printed :=
  match plan letter J parseUuid generated c with
  | .error e => (s, .error e)
  | .ok p => S.perform letter J env s p

end
end IndraDB
