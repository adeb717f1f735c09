import Verif.Model.Session
import Verif.Spec.Cli
import Verif.Spec.UuidText
import Verif.Spec.JsonGrammar
import Verif.Spec.Wire
/-
What sessions of the command line client should do.
-/
namespace IndraDB

/-- The string is a JSON text (RFC 8259) for the value, nested at most 127 levels deep. -/
def SpellsJson (F : Floats) (s : String) (v : Json) : Prop := JsonGrammar.Text (fun _ => true) F 127 (strBytes s) v

/-- The three strings are texts of the edge. -/
def SpellsEdge (letter : Char → Bool) (o t i : String) (e : Edge) : Prop :=
  Spells o e.outboundId ∧ Names letter t e.t ∧ Spells i e.inboundId

/-- The API call a command with valid arguments stands for. `generated` is the id the client makes up if none is given. -/
inductive Command.Means (letter : Char → Bool) (F : Floats) (generated : Uuid) : Command → Op → Prop
  | setVertex {t id ti u} : Names letter t ti → Spells id u →
      Means letter F generated (.setVertex t (some id)) (.createVertex ⟨u, ti⟩)
  | setVertexNew {t ti} : Names letter t ti → Means letter F generated (.setVertex t none) (.createVertex ⟨generated, ti⟩)
  | setEdge {o t i e} : SpellsEdge letter o t i e → Means letter F generated (.setEdge o t i) (.createEdge e)
  | setVertexProperty {id name value u n v} : Spells id u → Names letter name n → SpellsJson F value v →
      Means letter F generated (.setVertexProperty id name value) (.setProperties (.specificVertex [u]) n v)
  | setEdgeProperty {o t i name value e n v} : SpellsEdge letter o t i e → Names letter name n → SpellsJson F value v →
      Means letter F generated (.setEdgeProperty o t i name value) (.setProperties (.specificEdge [e]) n v)
  | countVertex : Means letter F generated .countVertex (.get (.count .allVertex))
  | countEdge : Means letter F generated .countEdge (.get (.count .allEdge))
  | getVertex {id u} : Spells id u → Means letter F generated (.getVertex id) (.get (.specificVertex [u]))
  | getEdge {o t i e} : SpellsEdge letter o t i e → Means letter F generated (.getEdge o t i) (.get (.specificEdge [e]))
  | getVertexProperty {id u name n} : Spells id u → Names letter name n →
      Means letter F generated (.getVertexProperty id (some name)) (.get (.pipeProperty (.specificVertex [u]) (some n)))
  | getVertexProperties {id u} : Spells id u →
      Means letter F generated (.getVertexProperty id none) (.get (.pipeProperty (.specificVertex [u]) none))
  | getEdgeProperty {o t i e name n} : SpellsEdge letter o t i e → Names letter name n →
      Means letter F generated (.getEdgeProperty o t i (some name)) (.get (.pipeProperty (.specificEdge [e]) (some n)))
  | getEdgeProperties {o t i e} : SpellsEdge letter o t i e →
      Means letter F generated (.getEdgeProperty o t i none) (.get (.pipeProperty (.specificEdge [e]) none))
  | deleteVertex {id u} : Spells id u → Means letter F generated (.deleteVertex id) (.delete (.specificVertex [u]))
  | deleteEdge {o t i e} : SpellsEdge letter o t i e →
      Means letter F generated (.deleteEdge o t i) (.delete (.specificEdge [e]))
  | deleteVertexProperty {id u name n} : Spells id u → Names letter name n →
      Means letter F generated (.deleteVertexProperty id name) (.delete (.pipeProperty (.specificVertex [u]) (some n)))
  | deleteEdgeProperty {o t i e name n} : SpellsEdge letter o t i e → Names letter name n →
      Means letter F generated (.deleteEdgeProperty o t i name) (.delete (.pipeProperty (.specificEdge [e]) (some n)))

/-- An argument is not what it should be. -/
def CliError.Refusal : CliError → Prop
  | .uuid | .json | .validation _ => True
  | _ => False

/-- What a command with a query reports if there is no result. -/
def Command.noResult : Command → Except CliError Printed
  | .getVertex _ => .ok (.vertices none)
  | .getEdge _ _ _ => .ok (.edges none)
  | .getVertexProperty _ _ => .ok (.vertexProperties none)
  | .getEdgeProperty _ _ _ _ => .ok (.edgeProperties none)
  | _ => .error .panic

section
variable (S : Store) (letter : Char → Bool) (F : Floats)

/-- One run of the program: the state after it, and what it printed or how it failed. -/
inductive Store.Outcome (env : S.Env) (generated : Uuid) (c : Command) (s : S.State) : S.State → Except CliError Printed → Prop
  | ping : c = .ping → Outcome env generated c s s (.ok .ok)
  /-- An argument is invalid: nothing happens. -/
  | refused {e} : c ≠ .ping → (¬ ∃ op, c.Means letter F generated op) → e.Refusal → Outcome env generated c s s (.error e)
  /-- The call is made and its reply printed. -/
  | done {op s' r} : c.Means letter F generated op → S.step env op s = (s', .ok r) → r.Fits (serdeText F) →
      Outcome env generated c s s' (reported op r)
  /-- A part of the reply is longer than 4 MiB. -/
  | long {op s' r} : c.Means letter F generated op → S.step env op s = (s', .ok r) → ¬ r.Fits (serdeText F) →
      Outcome env generated c s s' (.error (.client (.grpc .undecodable)))
  /-- The call fails. -/
  | failed {op s' e} : c.Means letter F generated op → S.step env op s = (s', .error (.err e)) →
      Outcome env generated c s s' (.error (.client (.grpc (.internal (.err e)))))
  /-- The call panics. -/
  | panicked {op s'} : c.Means letter F generated op → S.step env op s = (s', .error .panic) → (∀ q, op ≠ .get q) →
      Outcome env generated c s s' (.error (.client (.grpc (.internal .panic))))
  /-- A query panics: this looks like a query without a result. -/
  | lost {q s'} : c.Means letter F generated (.get q) → S.step env (.get q) s = (s', .error .panic) →
      Outcome env generated c s s' c.noResult

/-- One run of the program after another. -/
inductive Store.Session : List (S.Env × Uuid × Command) → S.State → S.State → List (Except CliError Printed) → Prop
  | nil {s} : Session [] s s []
  | cons {env generated c r s s' s'' x l} : S.Outcome letter F env generated c s s' x → Session r s' s'' l →
      Session ((env, generated, c) :: r) s s'' (x :: l)

/-- If the command writes a value, its floats are written such that they are read as the same floats (see C91, C93), and its text
is at most 4000000 bytes long. -/
def Command.Modest (generated : Uuid) (c : Command) : Prop := ∀ q n v, c.Means letter F generated (.setProperties q n v) →
  v.FloatsAre (fun f => F.back f = some f) ∧ (strBytes ((serdeText F).print v)).length ≤ 4000000

/-- The numbers of vertices and edges counted on the way are 64 bit numbers. (They count things in the memory of a computer.) -/
def Store.CountsSmall : List (S.Env × Uuid × Command) → S.State → Prop
  | [], _ => True
  | (env, generated, c) :: r, s =>
    (∀ op x, c.Means letter F generated op → (S.step env op s).2 = .ok x → x.SmallCounts) ∧
    ∀ s' x, S.Outcome letter F env generated c s s' x → Store.CountsSmall r s'

/-- There are fewer than 2^64 runs, or what is counted on the way are 64 bit numbers. -/
def Store.Countable (cmds : List (S.Env × Uuid × Command)) : Prop :=
  cmds.length < 2 ^ 64 ∨ S.CountsSmall letter F cmds S.init

/-- C96: sessions do what the commands say. -/
def Store.SessionsExact : Prop := ∀ cmds, (∀ x ∈ cmds, x.2.2.Modest letter F x.2.1) → S.Countable letter F cmds →
  S.Session letter F cmds S.init (S.cliRun letter F cmds S.init).1 (S.cliRun letter F cmds S.init).2

/-- C96: a vertex that `get vertex` prints, a value that `set vertex-property` is given for it and that is accepted: this value
is what `get vertex-property` then prints for the vertex, however the id is written in each of the commands. -/
def Store.ReadsBack : Prop := ∀ cmds x y z name text u v e1 e2 e3 g1 g2 g3,
  let all := cmds ++ [(e1, g1, .getVertex x), (e2, g2, .setVertexProperty y name text), (e3, g3, .getVertexProperty z (some name))]
  (∀ x ∈ all, x.2.2.Modest letter F x.2.1) → S.Countable letter F all →
  Spells x u → Spells y u → Spells z u → SpellsJson F text v →
  ∀ l vertex last, l.length = cmds.length →
    (S.cliRun letter F all S.init).2 = l ++ [.ok (.vertices (some [vertex])), .ok .nothing, last] →
    ∃ n, Names letter name n ∧ last = .ok (.vertexProperties (some [⟨vertex, [⟨n, v⟩]⟩]))

/-- C96: the same for an edge. -/
def Store.ReadsBackEdge : Prop := ∀ cmds o1 t1 i1 o2 t2 i2 o3 t3 i3 name text e v e1 e2 e3 g1 g2 g3,
  let all := cmds ++ [(e1, g1, .getEdge o1 t1 i1), (e2, g2, .setEdgeProperty o2 t2 i2 name text),
    (e3, g3, .getEdgeProperty o3 t3 i3 (some name))]
  (∀ x ∈ all, x.2.2.Modest letter F x.2.1) → S.Countable letter F all →
  SpellsEdge letter o1 t1 i1 e → SpellsEdge letter o2 t2 i2 e → SpellsEdge letter o3 t3 i3 e → SpellsJson F text v →
  ∀ l edge last, l.length = cmds.length →
    (S.cliRun letter F all S.init).2 = l ++ [.ok (.edges (some [edge])), .ok .nothing, last] →
    edge = e ∧ ∃ n, Names letter name n ∧ last = .ok (.edgeProperties (some [⟨e, [⟨n, v⟩]⟩]))

end
end IndraDB
