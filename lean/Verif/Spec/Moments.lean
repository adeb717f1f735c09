import Verif.Spec.Graph
import Verif.Model.RocksConc
/-
What a query may report that is evaluated while the database changes: every lookup it makes sees the database at some
moment while the query is being evaluated.
-/
namespace IndraDB

/-- The database at one moment: its contents, and what its index lists (for vertices, whether or not they exist). -/
structure Moment where
  graph : Graph
  vLists : Identifier → Uuid → Bool
  vListsValue : Identifier → Json → Uuid → Bool
  eLists : Identifier → Edge → Bool
  eListsValue : Identifier → Json → Edge → Bool

/-- `l` consists of what `P` gives for the elements of the list, in order. -/
inductive Gathers {α β : Type} (P : α → List β → Prop) : List α → List β → Prop
  | nil : Gathers P [] []
  | cons {a : α} {as : List α} {l ls : List β} : P a l → Gathers P as ls → Gathers P (a :: as) (l ++ ls)

namespace Moment
variable (M : Moment → Prop)

/-- Each of the vertices is looked up at some moment. -/
def LooksUp : List Uuid → List Vertex → Prop := Gathers (fun i l => ∃ m, M m ∧ l = m.graph.lookup [i])

/-- The ids the index lists (`lists`) at one moment, and of those the ones that exist, each looked at at some moment. -/
def FromIndex (lists : Moment → Uuid → Bool) (ids : List Uuid) : Prop := ∃ m, M m ∧
  (∀ i ∈ ids, lists m i = true ∧ ∃ m', M m' ∧ m'.graph.vertex i ≠ none) ∧
  ∀ i, lists m i = true → (∀ m', M m' → m'.graph.vertex i ≠ none) → i ∈ ids

variable (edgeLt : Edge → Edge → Bool)

/-- The order in which the edges at one vertex are listed. -/
def dirLt : EdgeDirection → Edge → Edge → Bool
  | .outbound, a, b => edgeLt a b
  | .inbound, a, b => edgeLt a.reversed b.reversed

/-- Traversal from `v` to `w`. The edges at one vertex are those of one moment. -/
def Pipes (d : EdgeDirection) (limit : Nat) (t : Option Identifier) (v w : Output) : Prop :=
  match v with
  | .edges es => ∃ l, LooksUp M (es.map d.endpoint) l ∧
      w = .vertices ((l.filter (fun x => decide (∀ t', t = some t' → x.t = t'))).take limit)
  | .vertices vs => ∃ l, Gathers (fun (x : Vertex) l => ∃ m, M m ∧
        Enumerates (dirLt edgeLt d) l
          (fun e => m.graph.edge e = true ∧ d.endpoint e = x.id ∧ TypeOk t e.t)) vs l ∧
      w = .edges (l.take limit)
  | _ => False

/-- The properties of one vertex or edge are those of one moment. -/
def Properties (name : Option Identifier) (v w : Output) : Prop :=
  match v with
  | .vertices vs => ∃ l, Gathers (fun (x : Vertex) l => ∃ m ps, M m ∧ PropList (m.graph.vprop x.id) name ps ∧
      l = if ps = [] then [] else [⟨x, ps⟩]) vs l ∧ w = .vertexProperties l
  | .edges es => ∃ l, Gathers (fun (e : Edge) l => ∃ m ps, M m ∧ PropList (m.graph.eprop e) name ps ∧
      l = if ps = [] then [] else [⟨e, ps⟩]) es l ∧ w = .edgeProperties l
  | _ => False

/-- Keeping those the index lists, or those it does not list. -/
def Filters (vl : Moment → Uuid → Bool) (el : Moment → Edge → Bool) (keep : Bool) (v w : Output) : Prop :=
  match v with
  | .vertices vs => ∃ ids, FromIndex M vl ids ∧ w = .vertices (vs.filter (fun x => decide (x.id ∈ ids) == keep))
  | .edges es => ∃ m, M m ∧ w = .edges (es.filter (fun e => el m e == keep))
  | _ => False

/-- The size of a result. -/
def size : Output → Option Nat
  | .vertices l => some l.length
  | .edges l => some l.length
  | .vertexProperties l => some l.length
  | .edgeProperties l => some l.length
  | .count _ => none

/-- `Observed M edgeLt q inc v`: evaluated while the database goes through moments in `M`, query `q` may give `v`, with
the intermediate results `inc` of its includes. -/
def Observed : Query → List Output → Output → Prop
  | .allVertex, inc, v => inc = [] ∧ ∃ m, M m ∧ ∃ l, Enumerates vertexLt l (fun x => m.graph.vertex x.id = some x.t) ∧ v = .vertices l
  | .rangeVertex limit t start, inc, v => inc = [] ∧ ∃ m, M m ∧ ∃ l,
      Enumerates vertexLt l (fun x => m.graph.vertex x.id = some x.t ∧ TypeOk t x.t ∧
        ∀ s, start = some s → Order.lt x.id s = false) ∧ v = .vertices (l.take limit.toNat)
  | .specificVertex ids, inc, v => inc = [] ∧ ∃ l, LooksUp M ids l ∧ v = .vertices l
  | .vertexWithPropertyPresence n, inc, v => inc = [] ∧ ∃ ids l, FromIndex M (·.vLists n) ids ∧ LooksUp M ids l ∧ v = .vertices l
  | .vertexWithPropertyValue n x, inc, v =>
      inc = [] ∧ ∃ ids l, FromIndex M (·.vListsValue n x) ids ∧ LooksUp M ids l ∧ v = .vertices l
  | .allEdge, inc, v => inc = [] ∧ ∃ m, M m ∧ ∃ l, Enumerates edgeLt l (fun e => m.graph.edge e = true) ∧ v = .edges l
  | .specificEdge es, inc, v => inc = [] ∧ ∃ l, Gathers (fun e l => ∃ m, M m ∧ l = [e].filter m.graph.edge) es l ∧ v = .edges l
  | .edgeWithPropertyPresence n, inc, v => inc = [] ∧ ∃ m, M m ∧ ∃ l, (∀ e, e ∈ l ↔ m.eLists n e = true) ∧ v = .edges l
  | .edgeWithPropertyValue n x, inc, v => inc = [] ∧ ∃ m, M m ∧ ∃ l, (∀ e, e ∈ l ↔ m.eListsValue n x e = true) ∧ v = .edges l
  | .pipe i d limit t, inc, v => ∃ inc' w, Observed i inc' w ∧ Pipes M edgeLt d limit.toNat t w v ∧
      inc = inc' ++ if i.isInclude then [w] else []
  | .pipeProperty i name, inc, v => ∃ inc' w, Observed i inc' w ∧ Properties M name w v ∧ inc = inc' ++ if i.isInclude then [w] else []
  | .pipeWithPropertyPresence i n keep, inc, v => ∃ inc' w, Observed i inc' w ∧ Filters M (·.vLists n) (·.eLists n) keep w v ∧
      inc = inc' ++ if i.isInclude then [w] else []
  | .pipeWithPropertyValue i n x keep, inc, v => ∃ inc' w, Observed i inc' w ∧
      Filters M (·.vListsValue n x) (·.eListsValue n x) keep w v ∧ inc = inc' ++ if i.isInclude then [w] else []
  | .incl i, inc, v => Observed i inc v
  | .count i, inc, v => ∃ inc' w k, Observed i inc' w ∧ size w = some k ∧ v = .count k ∧ inc = inc' ++ if i.isInclude then [w] else []

/-- The edge existed, or an index listed it. -/
def Known (m : Moment) (e : Edge) : Prop :=
  m.graph.edge e = true ∨ ∃ n, m.eLists n e = true ∨ ∃ x, m.eListsValue n x e = true

end Moment

/-- `Rocks.Conc.Watch X s c h l S`: an execution from `s` with history `h` leads to `S`; the states of the database while
call `c` was under way are `l`, in order. -/
inductive Rocks.Conc.Watch (X : Cfg) (s : Rocks) (c : Nat) : List Ev → List Rocks → Rocks.Conc → Prop
  | start : Watch X s c [] [] (.init s)
  | during {h : List Ev} {l : List Rocks} {S S' : Rocks.Conc} {e : List Ev} : Watch X s c h l S → Rocks.Conc.Step X S e S' →
      (∃ p, S'.calls c = .running p) → Watch X s c (h ++ e) (l ++ [S'.db]) S'
  | before_or_after {h : List Ev} {l : List Rocks} {S S' : Rocks.Conc} {e : List Ev} : Watch X s c h l S → Rocks.Conc.Step X S e S' →
      (∀ p, S'.calls c ≠ .running p) → Watch X s c (h ++ e) l S'

end IndraDB
