import Verif.Model.Cli
import Verif.Spec.Server
/-
What the commands of the command line client mean, and what they should report.
-/
namespace IndraDB

/-- The string is the valid identifier `i`: letters, digits, `-` and `_`, at most 255 bytes (by its type). -/
def Names (letter : Char → Bool) (s : String) (i : Identifier) : Prop :=
  i.bytes = strBytes s ∧ ∀ c ∈ s.toList, c = '-' ∨ c = '_' ∨ letter c = true

/-- The three strings are the edge `e`. -/
def NamesEdge (letter : Char → Bool) (parseUuid : String → Option Uuid) (o t i : String) (e : Edge) : Prop :=
  parseUuid o = some e.outboundId ∧ Names letter t e.t ∧ parseUuid i = some e.inboundId

/-- The API call a command with valid arguments stands for. `generated` is the id the client makes up if none is given. -/
inductive Command.Denotes (letter : Char → Bool) (J : JsonText) (parseUuid : String → Option Uuid) (generated : Uuid) :
    Command → Op → Prop
  | setVertex {t id ti u} : Names letter t ti → parseUuid id = some u →
      Denotes letter J parseUuid generated (.setVertex t (some id)) (.createVertex ⟨u, ti⟩)
  | setVertexNew {t ti} : Names letter t ti →
      Denotes letter J parseUuid generated (.setVertex t none) (.createVertex ⟨generated, ti⟩)
  | setEdge {o t i e} : NamesEdge letter parseUuid o t i e →
      Denotes letter J parseUuid generated (.setEdge o t i) (.createEdge e)
  | setVertexProperty {id name value u n v} : parseUuid id = some u → Names letter name n → J.parse value = some v →
      Denotes letter J parseUuid generated (.setVertexProperty id name value) (.setProperties (.specificVertex [u]) n v)
  | setEdgeProperty {o t i name value e n v} : NamesEdge letter parseUuid o t i e → Names letter name n →
      J.parse value = some v →
      Denotes letter J parseUuid generated (.setEdgeProperty o t i name value) (.setProperties (.specificEdge [e]) n v)
  | countVertex : Denotes letter J parseUuid generated .countVertex (.get (.count .allVertex))
  | countEdge : Denotes letter J parseUuid generated .countEdge (.get (.count .allEdge))
  | getVertex {id u} : parseUuid id = some u →
      Denotes letter J parseUuid generated (.getVertex id) (.get (.specificVertex [u]))
  | getEdge {o t i e} : NamesEdge letter parseUuid o t i e →
      Denotes letter J parseUuid generated (.getEdge o t i) (.get (.specificEdge [e]))
  | getVertexProperty {id u name n} : parseUuid id = some u → Names letter name n →
      Denotes letter J parseUuid generated (.getVertexProperty id (some name))
        (.get (.pipeProperty (.specificVertex [u]) (some n)))
  | getVertexProperties {id u} : parseUuid id = some u →
      Denotes letter J parseUuid generated (.getVertexProperty id none)
        (.get (.pipeProperty (.specificVertex [u]) none))
  | getEdgeProperty {o t i e name n} : NamesEdge letter parseUuid o t i e → Names letter name n →
      Denotes letter J parseUuid generated (.getEdgeProperty o t i (some name))
        (.get (.pipeProperty (.specificEdge [e]) (some n)))
  | getEdgeProperties {o t i e} : NamesEdge letter parseUuid o t i e →
      Denotes letter J parseUuid generated (.getEdgeProperty o t i none)
        (.get (.pipeProperty (.specificEdge [e]) none))
  | deleteVertex {id u} : parseUuid id = some u →
      Denotes letter J parseUuid generated (.deleteVertex id) (.delete (.specificVertex [u]))
  | deleteEdge {o t i e} : NamesEdge letter parseUuid o t i e →
      Denotes letter J parseUuid generated (.deleteEdge o t i) (.delete (.specificEdge [e]))
  | deleteVertexProperty {id u name n} : parseUuid id = some u → Names letter name n →
      Denotes letter J parseUuid generated (.deleteVertexProperty id name)
        (.delete (.pipeProperty (.specificVertex [u]) (some n)))
  | deleteEdgeProperty {o t i e name n} : NamesEdge letter parseUuid o t i e → Names letter name n →
      Denotes letter J parseUuid generated (.deleteEdgeProperty o t i name)
        (.delete (.pipeProperty (.specificEdge [e]) (some n)))

/-- What a command should report when its call succeeds: created elements and query results are printed; a vertex whose
id is taken and an edge without endpoints are failures. -/
def reported : Op → Reply → Except CliError Printed
  | .createVertex v, .bool b => if b then .ok (.vertex v) else .error .uuidTaken
  | .createEdge e, .bool b => if b then .ok (.edge e) else .error .vertexInvalid
  | _, .outputs [.vertices l] => .ok (.vertices (some l))
  | _, .outputs [.edges l] => .ok (.edges (some l))
  | _, .outputs [.count k] => .ok (.count k)
  | _, .outputs [.vertexProperties l] => .ok (.vertexProperties (some l))
  | _, .outputs [.edgeProperties l] => .ok (.edgeProperties (some l))
  | _, _ => .ok .nothing

/-- The value the call writes is within bounds: it survives being sent, it is one the histories may write, and it is at
most 4000000 bytes long. -/
def Op.ValueFits (S : Store) (J : JsonText) (op : Op) : Prop :=
  ∀ q n v, op = .setProperties q n v → J.Faithful v ∧ S.okValue v ∧ (strBytes (J.print v)).length ≤ 4000000

/-- C54: after any history of calls, a command whose arguments are valid has exactly the effect of the call it stands for,
and reports what the call returned (or its error, or that the reply was too long; if the call panicked, that is reported
too, except for queries); a command with an invalid argument fails and changes nothing; `ping` changes nothing. -/
def Store.CommandsExact (S : Store) (letter : Char → Bool) (J : JsonText) (parseUuid : String → Option Uuid) : Prop :=
  ∀ hist, S.OkHist hist → (∀ p ∈ hist, p.2.All (·.Valid letter) J.Faithful) → ∀ env generated c,
  let s := S.run hist S.init
  let done := S.cli letter J parseUuid env generated c s
  (∀ op, c.Denotes letter J parseUuid generated op → op.ValueFits S J →
    done.1 = (S.step env op s).1 ∧
    (∀ r, (S.step env op s).2 = .ok r → r.Fits J → done.2 = reported op r) ∧
    (∀ r, (S.step env op s).2 = .ok r → ¬ r.Fits J → done.2 = .error (.client (.grpc .undecodable))) ∧
    (∀ e, (S.step env op s).2 = .error (.err e) → done.2 = .error (.client (.grpc (.internal (.err e))))) ∧
    ((S.step env op s).2 = .error .panic → (∀ q, op ≠ .get q) →
      done.2 = .error (.client (.grpc (.internal .panic))))) ∧
  ((¬ ∃ op, c.Denotes letter J parseUuid generated op) → c ≠ .ping → ∃ e, done = (s, .error e)) ∧
  S.cli letter J parseUuid env generated .ping s = (s, .ok .ok)

end IndraDB
