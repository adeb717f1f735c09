import Verif.Model.PluginTxn
import Verif.Proofs.Query
import Verif.Spec.Kind
import Verif.Model.Util
/-
Databases on which plugins run, and what a plugin does to the abstract graph.
-/
namespace IndraDB

/-- What the method does to the graph. `Sm`: where the datastores differ (`Spec/Step.lean`). -/
def TxnCall.effect (Sm : Sem) (g : Graph) : TxnCall → Graph
  | .deleteVertices vs => Sm.dropVertices g (vs.map (·.id))
  | .deleteEdges es => Sm.dropEdges g es
  | .deleteVertexProperties ps => g.dropVProps ps
  | .deleteEdgeProperties ps => g.dropEProps ps
  | .sync => g
  | .createVertex v => g.createVertex v
  | .createEdge e => g.createEdge e
  | .bulkInsert items => items.foldl Sm.bulkItem g
  | .indexProperty n => g.addIndex n
  | .setVertexProperties ids n v => g.putVProps ids n (Sm.stored v)
  | .setEdgeProperties es n v => g.putEProps es n (Sm.stored v)

/-- What the method returns: creating says whether something was created. -/
def TxnCall.reply (g : Graph) : TxnCall → TxnReply
  | .createVertex v => .bool (g.vertex v.id == none)
  | .createEdge e => .bool (g.hasEndpoints e)
  | _ => .unit

/-- All values the method writes satisfy `V`. -/
def TxnCall.ValuesOk (V : Json → Prop) : TxnCall → Prop
  | .setVertexProperties _ _ v => V v
  | .setEdgeProperties _ _ v => V v
  | .bulkInsert items => ∀ i ∈ items, i.Values V
  | _ => True

/-- Whatever it sees, the plugin only writes values satisfying `V`. -/
def PluginProg.ValuesOk (V : Json → Prop) : PluginProg → Prop
  | .ret _ => True
  | .panic => True
  | .read k => ∀ R, (k R).ValuesOk V
  | .write c k => c.ValuesOk V ∧ ∀ r, (k r).ValuesOk V

/-- Whatever it sees, the plugin never writes. -/
def PluginProg.ReadOnly : PluginProg → Prop
  | .ret _ => True
  | .panic => True
  | .read k => ∀ R, (k R).ReadOnly
  | .write _ _ => False

/-- `PluginRun Sm C g p g' r`: the plugin `p`, started on graph `g`, can leave `g'` and end with `r` (a result, or a panic of
its own code). What it reads is the graph (`Faithful` says this method by method), every method it calls does to the
graph what it should, succeeds and returns what it should. -/
inductive PluginRun (Sm : Sem) (C : Conv) : Graph → PluginProg → Graph → Res (Except PluginError Json) → Prop
  | ret (g : Graph) (r : Except PluginError Json) : PluginRun Sm C g (.ret r) g (.ok r)
  | panic (g : Graph) : PluginRun Sm C g .panic g (.error .panic)
  | read {g g' : Graph} {k : Reads → PluginProg} {r : Res (Except PluginError Json)} (R : Reads) (I : IndexView) :
      Faithful R g I C → PluginRun Sm C g (k R) g' r → PluginRun Sm C g (.read k) g' r
  | write {g g' : Graph} {c : TxnCall} {k : Except Error TxnReply → PluginProg} {r : Res (Except PluginError Json)} :
      PluginRun Sm C (c.effect Sm g) (k (.ok (c.reply g))) g' r → PluginRun Sm C g (.write c k) g' r

/-- A database with plugins. -/
structure PluginStore extends Store where
  /-- the environment's choices while a plugin runs -/
  PEnv : Type
  plugin : PEnv → PluginProg → State → State × Res (Except PluginError Json)

/-- The same database, already in state `s`. -/
def Store.From (S : Store) (s : S.State) : Store := { S with init := s }

namespace PluginStore
variable (S : PluginStore)

/-- What may happen: a call, or the execution of a plugin. -/
inductive Act where
  | call (env : S.Env) (op : Op)
  | plugin (env : S.PEnv) (p : PluginProg)

/-- Its effect. -/
def act (s : S.State) : S.Act → S.State
  | .call env op => (S.step env op s).1
  | .plugin env p => (S.plugin env p s).1

/-- It only writes values the histories considered may write. -/
def Act.Ok {S : PluginStore} : S.Act → Prop
  | .call _ op => op.ValuesOk S.okValue
  | .plugin _ p => p.ValuesOk S.okValue

/-- The usable states that calls and plugins lead to. -/
def Reach (s : S.State) : Prop := ∃ hist : List S.Act, s = hist.foldl S.act S.init ∧ S.alive s = true ∧ ∀ a ∈ hist, a.Ok

end PluginStore

/-- The properties of reads and writes (C01, C02, C04, C07-C09, C14-C25, C38, C50, C55) that all states of a database should
have; here for a database in a given state and all that follow by calls. -/
structure Store.Sane (S : Store) (Sm : Sem) (edgeLt : Edge → Edge → Bool) (bad : Uuid → Prop) : Prop where
  createVertex : ∀ s, S.Reach s → ∀ env v,
    (S.step env (.createVertex v) s).2 = .ok (.bool ((S.graph s).vertex v.id == none)) ∧
    S.graph (S.step env (.createVertex v) s).1 = (S.graph s).createVertex v
  createVertexFromType : S.CreateVertexFromTypeExact
  createEdge : S.CreateEdgeExact
  traversal : S.TraversalSymmetric
  deleteVertices : S.DeleteVerticesIs Sm.dropVertices
  deleteEdges : S.DeleteEdgesIs Sm.dropEdges
  setProperties : S.SetPropertiesExact Sm.stored
  wrongValues : S.WrongValuesRejected
  deleteProperties : S.DeletePropertiesExact
  vertexQueries : S.VertexQueriesExact
  edgeQueries : S.EdgeQueriesExact edgeLt
  pipeVertices : S.PipeVerticesExact (fun d a b => match d with
    | .outbound => edgeLt a b
    | .inbound => edgeLt a.reversed b.reversed)
  pipeEdges : S.PipeEdgesExact
  pipeProperties : S.PipePropertiesExact bad
  filters : S.FiltersPartition
  count : S.CountExact
  includes : S.IncludeExact
  built : S.BuiltQueriesWork
  limits : S.LimitsMonotone
  kinds : S.KindsExact
  paging : S.PagingExact (fun u => (nextUuid u).toOption)
  indexProperty : ∀ s, S.Reach s → ∀ env n, (S.step env (.indexProperty n) s).2 = .ok .unit ∧
    S.graph (S.step env (.indexProperty n) s).1 = (S.graph s).addIndex n
  bulkInsert : ∀ s, S.Reach s → ∀ env items, (∀ i ∈ items, i.Values S.okValue) →
    (S.step env (.bulkInsert items) s).2 ≠ .error .panic → (S.step env (.bulkInsert items) s).2 = .ok .unit ∧
    S.graph (S.step env (.bulkInsert items) s).1 = items.foldl Sm.bulkItem (S.graph s)

/-- C66, first half: whatever calls and plugins have done, everything works as it should. -/
def PluginStore.StaysSane (S : PluginStore) (Sm : Sem) (edgeLt : Edge → Edge → Bool) (bad : Uuid → Prop) : Prop :=
  ∀ s, S.Reach s → (S.toStore.From s).Sane Sm edgeLt bad

/-- C66, second half: plugins do what their code says. -/
def PluginStore.PluginsExact (S : PluginStore) (Sm : Sem) (C : Conv) : Prop :=
  ∀ s, S.Reach s → ∀ env p, p.ValuesOk S.okValue → S.alive (S.plugin env p s).1 = true →
    PluginRun Sm C (S.graph s) p (S.graph (S.plugin env p s).1) (S.plugin env p s).2

end IndraDB
