import Verif.Model.RocksConc
import Verif.Proofs.RocksCall
import Verif.Proofs.MutexConc
/-
Concurrent executions on the RocksDB datastore: invariants.
-/
set_option linter.unusedSimpArgs false
namespace IndraDB
namespace Prog
variable {α β : Type}

/-- Whatever it reads, the program writes at most one batch, and afterwards does nothing but succeed. -/
def Single : Prog α → Prop
  | .done _ => True
  | .get _ _ n => ∀ r, (n r).Single
  | .scan _ _ n => ∀ r, (n r).Single
  | .write _ n => ∃ a, n () = .done (.ok a)
  | .readLock _ n => ∀ r, (n r).Single
  | .writeLock n => ∀ r, (n r).Single
  | .setIndexed _ n => (n ()).Single

theorem Reading.single {p : Prog α} {f : α → Prog β} (h : p.Reading) (hf : ∀ a, (f a).Single) : (p >>= f).Single := by
  show (p.bind f).Single
  induction p with
  | done r => cases r with
    | ok a => exact hf a
    | error e => trivial
  | get cf k n ih => exact fun r => ih r (h r)
  | scan cf k n ih => exact fun r => ih r (h r)
  | write b n ih => exact h.elim
  | readLock _ n ih => exact fun r => ih r (h r)
  | writeLock n ih => exact h.elim
  | setIndexed ix n ih => exact h.elim

theorem Once.single {p : Prog α} (h : p.Once) : p.Single := by
  induction p with
  | done r => trivial
  | get cf k n ih => exact fun r => ih r (h r)
  | scan cf k n ih => exact fun r => ih r (h r)
  | write b n ih => exact h
  | readLock _ n ih => exact fun r => ih r (h r)
  | writeLock n ih => exact h.elim
  | setIndexed ix n ih => exact h.elim

theorem Reading.toSingle {p : Prog α} (h : p.Reading) : p.Single := by
  induction p with
  | done r => trivial
  | get cf k n ih => exact fun r => ih r (h r)
  | scan cf k n ih => exact fun r => ih r (h r)
  | write b n ih => exact h.elim
  | readLock _ n ih => exact fun r => ih r (h r)
  | writeLock n ih => exact h.elim
  | setIndexed ix n ih => exact h.elim

theorem Single.map {p : Prog α} (h : p.Single) (f : α → β) : (p >>= fun a => (pure (f a) : Prog β)).Single := by
  show (p.bind _).Single
  induction p with
  | done r => cases r <;> trivial
  | get cf k n ih => exact fun r => ih r (h r)
  | scan cf k n ih => exact fun r => ih r (h r)
  | write b n ih =>
    obtain ⟨a, ha⟩ := h
    exact ⟨f a, by show (n ()).bind _ = _; rw [ha]; rfl⟩
  | readLock _ n ih => exact fun r => ih r (h r)
  | writeLock n ih => exact fun r => ih r (h r)
  | setIndexed ix n ih => exact ih () h

end Prog

namespace Rocks
open Prog
variable {X : Cfg}

/-! ### Queries only read -/

theorem rd_ownerProps {one : Identifier → Prog (Option Json)} {all : Prog (DynIter (Identifier × Json))}
    (h1 : ∀ n, (one n).Reading) (h2 : all.Reading) (name : Option Identifier) : (ownerPropsP one all name).Reading := by
  cases name with
  | none => exact h2.bind (fun _ => (Reading.lift _).bind (fun _ => trivial))
  | some n => exact (h1 n).bind (fun r => by cases r <;> trivial)

theorem rd_pipeEdgeProps (name : Option Identifier) (es : List Edge) : (pipeEdgePropsP X name es).Reading := by
  induction es with
  | nil => trivial
  | cons e es ih =>
    exact (rd_ownerProps (fun n => rd_epGet e n) (rd_propItems (rd_epIterate e)) name).bind (fun _ => ih.bind (fun _ => trivial))

theorem rd_pipeVertexProps (name : Option Identifier) (vs : List Vertex) : (pipeVertexPropsP X name vs).Reading := by
  induction vs with
  | nil => trivial
  | cons v vs ih =>
    exact (rd_ownerProps (fun n => rd_vpGet v.id n) (rd_propItems (rd_vpIterate v.id)) name).bind
      (fun _ => ih.bind (fun _ => trivial))

theorem rd_pipeVertices (d : EdgeDirection) (limit : UInt32) (t : Option Identifier) (vs : List Vertex) :
    ∀ es, (pipeVerticesP X d limit t vs es).Reading := by
  induction vs with
  | nil => intro es; trivial
  | cons v vs ih =>
    intro es
    refine Reading.bind ?_ (fun iter => (Reading.lift _).bind (fun es' => ?_))
    · cases d <;> exact (rd_edgeIterateRange _ _).bind (fun _ => trivial)
    · show Prog.Reading (if _ then _ else _)
      split
      · trivial
      · exact ih _

theorem rd_indexed {α : Type} {p : Prog (Option (DynIter α))} (h : p.Reading) : (indexedP p).Reading :=
  h.bind (fun _ => trivial)

theorem rd_stagePipe (d : EdgeDirection) (limit : UInt32) (t : Option Identifier) (o : Output) :
    (stagePipeP X d limit t o).Reading := by
  cases o with
  | edges es => exact (rd_specificVertices _).bind (fun _ => (Reading.lift _).bind (fun _ => trivial))
  | vertices vs => exact (rd_pipeVertices d limit t vs []).bind (fun _ => trivial)
  | _ => trivial

theorem rd_stageProperty (name : Option Identifier) (o : Output) : (stagePropertyP X name o).Reading := by
  cases o with
  | edges es => exact (rd_pipeEdgeProps name es).bind (fun _ => trivial)
  | vertices vs => exact (rd_pipeVertexProps name vs).bind (fun _ => trivial)
  | _ => trivial

theorem rd_stageFilter {es : Prog (Option (DynIter Edge))} {vs : Prog (Option (DynIter Uuid))} (he : es.Reading)
    (hv : vs.Reading) (keep : Bool) (o : Output) : (stageFilterP es vs keep o).Reading := by
  cases o with
  | edges es => exact (rd_indexed he).bind (fun _ => trivial)
  | vertices vs => exact (rd_indexed hv).bind (fun _ => trivial)
  | _ => trivial

theorem rd_runStage (inner : Query) {p : Prog (List Output)} {f : Output → Prog Output} (h : p.Reading)
    (hf : ∀ o, (f o).Reading) : (runStageP inner p f).Reading := by
  refine h.bind (fun output => ?_)
  cases vecPop output with
  | none => trivial
  | some x => exact (hf _).bind (fun _ => trivial)

theorem rd_query (q : Query) : ∀ out, (queryP X q out).Reading := by
  induction q with
  | allVertex => exact fun out => (rd_vertexIterate _).bind (fun _ => (Reading.lift _).bind (fun _ => trivial))
  | rangeVertex limit t st =>
    intro out
    cases st <;> exact (rd_vertexIterate _).bind (fun _ => (Reading.lift _).bind (fun _ => trivial))
  | specificVertex ids => exact fun out => (rd_specificVertices _).bind (fun _ => (Reading.lift _).bind (fun _ => trivial))
  | pipe inner d l t ih => exact fun out => rd_runStage inner (ih out) (rd_stagePipe d l t)
  | pipeProperty inner n ih => exact fun out => rd_runStage inner (ih out) (rd_stageProperty n)
  | vertexWithPropertyPresence n =>
    exact fun out => (rd_indexed (rd_vertexIdsWithProperty n)).bind (fun _ =>
      (rd_specificVertices _).bind (fun _ => (Reading.lift _).bind (fun _ => trivial)))
  | vertexWithPropertyValue n v =>
    exact fun out => (rd_indexed (rd_vertexIdsWithPropertyValue n v)).bind (fun _ =>
      (rd_specificVertices _).bind (fun _ => (Reading.lift _).bind (fun _ => trivial)))
  | edgeWithPropertyPresence n => exact fun out => (rd_indexed (rd_edgesWithProperty n)).bind (fun _ => trivial)
  | edgeWithPropertyValue n v => exact fun out => (rd_indexed (rd_edgesWithPropertyValue n v)).bind (fun _ => trivial)
  | pipeWithPropertyPresence inner n k ih =>
    exact fun out => rd_runStage inner (ih out) (rd_stageFilter (rd_edgesWithProperty n) (rd_vertexIdsWithProperty n) k)
  | pipeWithPropertyValue inner n v k ih =>
    exact fun out => rd_runStage inner (ih out)
      (rd_stageFilter (rd_edgesWithPropertyValue n v) (rd_vertexIdsWithPropertyValue n v) k)
  | allEdge => exact fun out => (rd_edgeIterateAll _).bind (fun _ => (Reading.lift _).bind (fun _ => trivial))
  | specificEdge es => exact fun out => (rd_specificEdges _).bind (fun _ => (Reading.lift _).bind (fun _ => trivial))
  | incl inner ih =>
    intro out
    refine (ih out).bind (fun output => ?_)
    cases vecPop output <;> trivial
  | count inner ih =>
    intro out
    cases inner with
    | allVertex => exact fun _ => trivial
    | allEdge => exact fun _ => trivial
    | _ => exact rd_runStage _ (ih out) (fun o => trivial)

theorem rd_lastOutput (q : Query) : (lastOutputP X q).Reading := by
  refine (rd_query q []).bind (fun output => ?_)
  cases vecPop output <;> trivial

theorem Quiet.of_reading {α : Type} {p : Prog α} (h : p.Reading) : Quiet p := by
  intro P
  induction p with
  | done r => cases r <;> trivial
  | get cf k n ih => exact fun r => ih r (h r)
  | scan cf k n ih => exact fun r => ih r (h r)
  | write b n ih => exact h.elim
  | readLock _ n ih => exact fun r => ih r (h r)
  | writeLock n ih => exact h.elim
  | setIndexed ix n ih => exact h.elim

/-! ### Calls -/

theorem reading_get (O : IdentOrder) (q : Query) : (callProg X O (.get q)).Reading := (rd_query q []).bind (fun _ => trivial)

theorem single_indexProperty (O : IdentOrder) (n : Identifier) : (indexProperty X O n).Single := by
  obtain ⟨f, hf, he⟩ := indexProperty_shape (X := X) O n
  rw [he]
  intro ix
  show Prog.Single (if _ then _ else _)
  split
  · trivial
  · exact (hf ix).single

/-- **A call writes at most one batch, whatever happens meanwhile.** -/
theorem single_call (O : IdentOrder) (op : Op) : (callProg X O op).Single := by
  cases op with
  | sync => trivial
  | createVertex v => exact (once_createVertex v).single.map _
  | createVertexFromType id t =>
    intro r
    cases r
    · exact ⟨_, rfl⟩
    · trivial
  | createEdge e => exact (once_createEdge e).single.map _
  | get q => exact (reading_get O q).toSingle
  | delete q =>
    refine Single.map ((rd_lastOutput q).single (fun v => ?_)) _
    cases v with
    | vertices vs => exact (once_deleteVertices vs).single
    | edges es => exact (once_deleteEdges es).single
    | vertexProperties l => exact (once_deleteVertexProperties _).single
    | edgeProperties l => exact (once_deleteEdgeProperties _).single
    | count n => trivial
  | setProperties q n x =>
    refine Single.map ((rd_lastOutput q).single (fun v => ?_)) _
    cases v with
    | vertices vs => exact (once_setVertexProperties _ n x).single
    | edges es => exact (once_setEdgeProperties _ n x).single
    | _ => trivial
  | bulkInsert items => exact (once_bulkInsert items).single.map _
  | indexProperty n => exact (single_indexProperty O n).map _

/-- **All batches a call may write are well formed, whatever happens meanwhile.** -/
theorem all_call {V : Json → Prop} (O : IdentOrder) (op : Op) (hv : op.ValuesOk V) :
    (callProg X O op).All (BatchOk X V) (fun _ => True) := by
  have map : ∀ {α : Type} {p : Prog α} (f : α → Reply), p.All (BatchOk X V) (fun _ => True) →
      (p >>= fun a => (pure (f a) : Prog Reply)).All (BatchOk X V) (fun _ => True) :=
    fun f h => h.bind (fun _ _ => trivial)
  cases op with
  | sync => trivial
  | createVertex v => exact map _ (all_createVertex v)
  | createVertexFromType id t =>
    refine map _ ((all_createVertex _).bind (fun b _ => ?_))
    cases b <;> trivial
  | createEdge e => exact map _ (all_createEdge e)
  | get q => exact Quiet.of_reading (reading_get O q) _
  | delete q =>
    refine map _ ((Quiet.of_reading (rd_lastOutput q)).then (fun v => ?_))
    cases v with
    | vertices vs => exact all_deleteVertices vs
    | edges es => exact all_deleteEdges es
    | vertexProperties l => exact all_deleteVertexProperties _
    | edgeProperties l => exact all_deleteEdgeProperties _
    | count n => trivial
  | setProperties q n x =>
    refine map _ ((Quiet.of_reading (rd_lastOutput q)).then (fun v => ?_))
    cases v with
    | vertices vs => exact all_setVertexProperties _ n x hv
    | edges es => exact all_setEdgeProperties _ n x hv
    | _ => trivial
  | bulkInsert items => exact map _ (all_bulkInsert items hv)
  | indexProperty n => exact map _ (all_indexProperty O n)

end Rocks
end IndraDB
