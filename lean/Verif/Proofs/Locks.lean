import Verif.Proofs.RocksCrash
/-
Which locks a call takes, and when: first, any number of times, it takes the read lock for a look; then it may take the
read lock or the write lock, once, and keeps it until its end.
-/
set_option linter.unusedSimpArgs false
namespace IndraDB
namespace Prog
variable {α β : Type} {k : Bool}

/-- The program takes no lock, except possibly (`k`) the read lock for the time of a look. -/
def Takes (k : Bool) : Prog α → Prop
  | .done _ => True
  | .get _ _ n => ∀ r, (n r).Takes k
  | .scan _ _ n => ∀ r, (n r).Takes k
  | .write _ n => (n ()).Takes k
  | .readLock held n => (held = false ∧ k = true) ∧ ∀ r, (n r).Takes k
  | .writeLock _ => False
  | .setIndexed _ n => (n ()).Takes k

/-- The program takes looks, then at most one lock that it keeps, and then no lock. -/
def LockOnce : Prog α → Prop
  | .done _ => True
  | .get _ _ n => ∀ r, (n r).LockOnce
  | .scan _ _ n => ∀ r, (n r).LockOnce
  | .write _ n => (n ()).LockOnce
  | .readLock false n => ∀ r, (n r).LockOnce
  | .readLock true n => ∀ r, (n r).Takes false
  | .writeLock n => ∀ r, (n r).Takes false
  | .setIndexed _ n => (n ()).LockOnce

theorem Takes.bind {p : Prog α} {f : α → Prog β} (h : p.Takes k) (hf : ∀ a, (f a).Takes k) : (p >>= f).Takes k := by
  show (p.bind f).Takes k
  induction p with
  | done r => cases r with
    | ok a => exact hf a
    | error e => trivial
  | get cf k n ih => exact fun r => ih r (h r)
  | scan cf k n ih => exact fun r => ih r (h r)
  | write b n ih => exact ih () h
  | readLock _ n ih => exact ⟨h.1, fun r => ih r (h.2 r)⟩
  | writeLock n ih => exact h.elim
  | setIndexed ix n ih => exact ih () h

theorem Takes.lockOnce {p : Prog α} {f : α → Prog β} (h : p.Takes k) (hf : ∀ a, (f a).LockOnce) : (p >>= f).LockOnce := by
  show (p.bind f).LockOnce
  induction p with
  | done r => cases r with
    | ok a => exact hf a
    | error e => trivial
  | get cf k n ih => exact fun r => ih r (h r)
  | scan cf k n ih => exact fun r => ih r (h r)
  | write b n ih => exact ih () h
  | readLock held n ih =>
    obtain ⟨⟨rfl, _⟩, h⟩ := h
    exact fun r => ih r (h r)
  | writeLock n ih => exact h.elim
  | setIndexed ix n ih => exact ih () h

theorem Takes.toLockOnce {p : Prog α} (h : p.Takes k) : p.LockOnce := by
  induction p with
  | done r => trivial
  | get cf k n ih => exact fun r => ih r (h r)
  | scan cf k n ih => exact fun r => ih r (h r)
  | write b n ih => exact ih () h
  | readLock held n ih =>
    obtain ⟨⟨rfl, _⟩, h⟩ := h
    exact fun r => ih r (h r)
  | writeLock n ih => exact h.elim
  | setIndexed ix n ih => exact ih () h

theorem LockOnce.map {p : Prog α} (h : p.LockOnce) (f : α → β) : (p >>= fun a => (pure (f a) : Prog β)).LockOnce := by
  show (p.bind _).LockOnce
  induction p with
  | done r => cases r <;> trivial
  | get cf k n ih => exact fun r => ih r (h r)
  | scan cf k n ih => exact fun r => ih r (h r)
  | write b n ih => exact ih () h
  | readLock held n ih =>
    cases held with
    | false => exact fun r => ih r (h r)
    | true => exact fun r => Takes.bind (h r) (fun _ => trivial)
  | writeLock n ih => exact fun r => Takes.bind (h r) (fun _ => trivial)
  | setIndexed ix n ih => exact ih () h

theorem Takes.pure (a : α) : (Pure.pure a : Prog α).Takes k := trivial
theorem Takes.lift (r : Res α) : (Prog.lift r).Takes k := trivial
theorem Takes.getCf (cf : CF) (x : Bytes) : (Prog.getCf cf x).Takes k := fun _ => trivial
theorem Takes.iteratorCf (cf : CF) (x : Bytes) : (Prog.iteratorCf cf x).Takes k := fun _ => trivial

theorem Takes.forAll {f : α → Prog Batch} {l : List α} (h : ∀ a, (f a).Takes k) : (Prog.forAll f l).Takes k := by
  induction l with
  | nil => trivial
  | cons a r ih => exact (h a).bind (fun _ => ih.bind (fun _ => trivial))

theorem Takes.forItems {f : α → Prog Batch} {l : DynIter α} (h : ∀ a, (f a).Takes k) : (Prog.forItems f l).Takes k := by
  induction l with
  | nil => trivial
  | cons a r ih =>
    cases a with
    | ok a => exact (h a).bind (fun _ => ih.bind (fun _ => trivial))
    | error e => trivial

theorem Takes.filterMapItems {f : α → Prog (Option β)} {l : DynIter α} (h : ∀ a, (f a).Takes k) :
    (Prog.filterMapItems f l).Takes k := by
  induction l with
  | nil => trivial
  | cons a r ih =>
    cases a with
    | ok a => exact (h a).bind (fun _ => ih.bind (fun _ => trivial))
    | error e => exact ih.bind (fun _ => trivial)

end Prog

namespace Rocks
open Prog Conc LockConc
variable {X : Cfg} {k : Bool}

theorem tk_vertexExists (id : Uuid) : (vertexExists X id).Takes k := (Takes.getCf _ _).bind (fun _ => trivial)
theorem tk_vertexGet (id : Uuid) : (vertexGet X id).Takes k := (Takes.getCf _ _).bind (fun r => by
  cases r with
  | none => trivial
  | some b => exact (Takes.lift _).bind (fun _ => trivial))
theorem tk_vertexIterate (id : Uuid) : (vertexIterate X id).Takes k := (Takes.iteratorCf _ _).bind (fun _ => trivial)
theorem tk_edgeContains (cf : CF) (e : Edge) : (edgeContains X cf e).Takes k := (Takes.getCf _ _).bind (fun _ => trivial)
theorem tk_edgeIterateRoot (cf : CF) (id : Uuid) : (edgeIterateRoot X cf id).Takes k :=
  (Takes.iteratorCf _ _).bind (fun _ => trivial)
theorem tk_edgeIterateAll (cf : CF) : (edgeIterateAll cf).Takes k := (Takes.iteratorCf _ _).bind (fun _ => trivial)
theorem tk_vpGet (id : Uuid) (n : Identifier) : (vpGet X id n).Takes k := (Takes.getCf _ _).bind (fun r => by
  cases r with
  | none => trivial
  | some b => exact (Takes.lift _).bind (fun _ => trivial))
theorem tk_epGet (e : Edge) (n : Identifier) : (epGet X e n).Takes k := (Takes.getCf _ _).bind (fun r => by
  cases r with
  | none => trivial
  | some b => exact (Takes.lift _).bind (fun _ => trivial))
theorem tk_vpIterate (id : Uuid) : (vpIterate X id).Takes k := (Takes.iteratorCf _ _).bind (fun _ => trivial)
theorem tk_epIterate (e : Edge) : (epIterate X e).Takes k := (Takes.iteratorCf _ _).bind (fun _ => trivial)

theorem tk_vpDelete (ix : SSet Identifier) (id : Uuid) (n : Identifier) : (vpDelete X ix id n).Takes k := by
  unfold vpDelete
  refine Takes.bind ?_ (fun _ => trivial)
  split
  · refine (tk_vpGet _ _).bind (fun r => ?_)
    cases r <;> trivial
  · trivial

theorem tk_vpSet (ix : SSet Identifier) (id : Uuid) (n : Identifier) (v : Json) : (vpSet X ix id n v).Takes k := by
  unfold vpSet
  refine Takes.bind ?_ (fun _ => trivial)
  split
  · exact tk_vpDelete _ _ _
  · trivial

theorem tk_epDelete (ix : SSet Identifier) (e : Edge) (n : Identifier) : (epDelete X ix e n).Takes k := by
  unfold epDelete
  refine Takes.bind ?_ (fun _ => trivial)
  split
  · refine (tk_epGet _ _).bind (fun r => ?_)
    cases r <;> trivial
  · trivial

theorem tk_epSet (ix : SSet Identifier) (e : Edge) (n : Identifier) (v : Json) : (epSet X ix e n v).Takes k := by
  unfold epSet
  refine Takes.bind ?_ (fun _ => trivial)
  split
  · exact tk_epDelete _ _ _
  · trivial

theorem tk_edgeSet (e : Edge) : (edgeSet X e).Takes k := (tk_edgeContains _ _).bind (fun _ => trivial)

theorem tk_edgeDelete (ix : SSet Identifier) (e : Edge) : (edgeDelete X ix e).Takes k := by
  unfold edgeDelete
  exact (tk_epIterate _).bind (fun _ => (Takes.forItems (fun _ => tk_epDelete _ _ _)).bind (fun _ => trivial))

theorem tk_vertexDelete (ix : SSet Identifier) (id : Uuid) : (vertexDelete X ix id).Takes k := by
  unfold vertexDelete
  refine (tk_vpIterate _).bind (fun _ => (Takes.forItems (fun _ => tk_vpDelete _ _ _)).bind (fun _ => ?_))
  refine (tk_edgeIterateRoot _ _).bind (fun _ => Takes.bind (Takes.forItems
    (fun _ => (Takes.lift _).bind (fun _ => tk_edgeDelete _ _))) (fun _ => ?_))
  exact (tk_edgeIterateRoot _ _).bind (fun _ => Takes.bind (Takes.forItems
    (fun _ => (Takes.lift _).bind (fun _ => tk_edgeDelete _ _))) (fun _ => trivial))

theorem tk_bulkItem (ix : SSet Identifier) (item : BulkInsertItem) : (bulkItem X ix item).Takes k := by
  cases item with
  | vertex v => trivial
  | edge e => exact tk_edgeSet e
  | vertexProperty id n v => exact tk_vpSet _ _ _ _
  | edgeProperty e n v => exact tk_epSet _ _ _ _


theorem tk_lookupItems {α β : Type} {f : α → Prog (Option β)} {l : List α} (h : ∀ a, (f a).Takes true) :
    (lookupItems f l).Takes true := .filterMapItems h
theorem tk_specificVertices (ids : List Uuid) : (specificVerticesP X ids).Takes true :=
  tk_lookupItems (fun _ => (tk_vertexGet _).bind (fun _ => trivial))
theorem tk_specificEdges (es : List Edge) : (specificEdgesP X es).Takes true :=
  tk_lookupItems (fun _ => (tk_edgeContains _ _).bind (fun _ => trivial))
theorem tk_existingIds (l : DynIter Uuid) : (existingIds X l).Takes true :=
  .filterMapItems (fun _ => (tk_vertexExists _).bind (fun _ => trivial))
theorem tk_ifIndexed {α : Type} (n : Identifier) {p : Prog (DynIter α)} (h : p.Takes true) : (ifIndexed n p).Takes true := by
  refine ⟨⟨rfl, rfl⟩, fun ix => ?_⟩
  show Prog.Takes true (if _ then _ else _)
  split
  · exact h.bind (fun _ => trivial)
  · trivial
theorem tk_vpvIterate (p : List Component) : (vpvIterate X p).Takes true := (Takes.iteratorCf _ _).bind (fun _ => trivial)
theorem tk_epvIterate (p : List Component) : (epvIterate X p).Takes true := (Takes.iteratorCf _ _).bind (fun _ => trivial)
theorem tk_edgeIterateRange (cf : CF) (lo : Edge) : (edgeIterateRange X cf lo).Takes true :=
  (Takes.iteratorCf _ _).bind (fun _ => trivial)
theorem tk_propItems {ω : Type} {p : Prog (DynIter (ω × Identifier × Json))} (h : p.Takes true) : (propItems p).Takes true :=
  h.bind (fun _ => (Takes.lift _).bind (fun _ => trivial))
theorem tk_vertexIdsWithProperty (n : Identifier) : (vertexIdsWithPropertyP X n).Takes true :=
  tk_ifIndexed n ((tk_vpvIterate _).bind (fun _ => tk_existingIds _))
theorem tk_vertexIdsWithPropertyValue (n : Identifier) (v : Json) : (vertexIdsWithPropertyValueP X n v).Takes true :=
  tk_ifIndexed n ((tk_vpvIterate _).bind (fun _ => tk_existingIds _))
theorem tk_edgesWithProperty (n : Identifier) : (edgesWithPropertyP X n).Takes true := tk_ifIndexed n (tk_epvIterate _)
theorem tk_edgesWithPropertyValue (n : Identifier) (v : Json) : (edgesWithPropertyValueP X n v).Takes true :=
  tk_ifIndexed n (tk_epvIterate _)


theorem tk_ownerProps {one : Identifier → Prog (Option Json)} {all : Prog (DynIter (Identifier × Json))}
    (h1 : ∀ n, (one n).Takes true) (h2 : all.Takes true) (name : Option Identifier) : (ownerPropsP one all name).Takes true := by
  cases name with
  | none => exact h2.bind (fun _ => (Takes.lift _).bind (fun _ => trivial))
  | some n => exact (h1 n).bind (fun r => by cases r <;> trivial)

theorem tk_pipeEdgeProps (name : Option Identifier) (es : List Edge) : (pipeEdgePropsP X name es).Takes true := by
  induction es with
  | nil => trivial
  | cons e es ih =>
    exact (tk_ownerProps (fun n => tk_epGet e n) (tk_propItems (tk_epIterate e)) name).bind (fun _ => ih.bind (fun _ => trivial))

theorem tk_pipeVertexProps (name : Option Identifier) (vs : List Vertex) : (pipeVertexPropsP X name vs).Takes true := by
  induction vs with
  | nil => trivial
  | cons v vs ih =>
    exact (tk_ownerProps (fun n => tk_vpGet v.id n) (tk_propItems (tk_vpIterate v.id)) name).bind
      (fun _ => ih.bind (fun _ => trivial))

theorem tk_pipeVertices (d : EdgeDirection) (limit : UInt32) (t : Option Identifier) (vs : List Vertex) :
    ∀ es, (pipeVerticesP X d limit t vs es).Takes true := by
  induction vs with
  | nil => intro es; trivial
  | cons v vs ih =>
    intro es
    refine Takes.bind ?_ (fun iter => (Takes.lift _).bind (fun es' => ?_))
    · cases d <;> exact (tk_edgeIterateRange _ _).bind (fun _ => trivial)
    · show Prog.Takes true (if _ then _ else _)
      split
      · trivial
      · exact ih _

theorem tk_indexed {α : Type} {p : Prog (Option (DynIter α))} (h : p.Takes true) : (indexedP p).Takes true :=
  h.bind (fun _ => trivial)

theorem tk_stagePipe (d : EdgeDirection) (limit : UInt32) (t : Option Identifier) (o : Output) :
    (stagePipeP X d limit t o).Takes true := by
  cases o with
  | edges es => exact (tk_specificVertices _).bind (fun _ => (Takes.lift _).bind (fun _ => trivial))
  | vertices vs => exact (tk_pipeVertices d limit t vs []).bind (fun _ => trivial)
  | _ => trivial

theorem tk_stageProperty (name : Option Identifier) (o : Output) : (stagePropertyP X name o).Takes true := by
  cases o with
  | edges es => exact (tk_pipeEdgeProps name es).bind (fun _ => trivial)
  | vertices vs => exact (tk_pipeVertexProps name vs).bind (fun _ => trivial)
  | _ => trivial

theorem tk_stageFilter {es : Prog (Option (DynIter Edge))} {vs : Prog (Option (DynIter Uuid))} (he : es.Takes true)
    (hv : vs.Takes true) (keep : Bool) (o : Output) : (stageFilterP es vs keep o).Takes true := by
  cases o with
  | edges es => exact (tk_indexed he).bind (fun _ => trivial)
  | vertices vs => exact (tk_indexed hv).bind (fun _ => trivial)
  | _ => trivial

theorem tk_runStage (inner : Query) {p : Prog (List Output)} {f : Output → Prog Output} (h : p.Takes true)
    (hf : ∀ o, (f o).Takes true) : (runStageP inner p f).Takes true := by
  refine h.bind (fun output => ?_)
  cases vecPop output with
  | none => trivial
  | some x => exact (hf _).bind (fun _ => trivial)

theorem tk_query (q : Query) : ∀ out, (queryP X q out).Takes true := by
  induction q with
  | allVertex => exact fun out => (tk_vertexIterate _).bind (fun _ => (Takes.lift _).bind (fun _ => trivial))
  | rangeVertex limit t st =>
    intro out
    cases st <;> exact (tk_vertexIterate _).bind (fun _ => (Takes.lift _).bind (fun _ => trivial))
  | specificVertex ids => exact fun out => (tk_specificVertices _).bind (fun _ => (Takes.lift _).bind (fun _ => trivial))
  | pipe inner d l t ih => exact fun out => tk_runStage inner (ih out) (tk_stagePipe d l t)
  | pipeProperty inner n ih => exact fun out => tk_runStage inner (ih out) (tk_stageProperty n)
  | vertexWithPropertyPresence n =>
    exact fun out => (tk_indexed (tk_vertexIdsWithProperty n)).bind (fun _ =>
      (tk_specificVertices _).bind (fun _ => (Takes.lift _).bind (fun _ => trivial)))
  | vertexWithPropertyValue n v =>
    exact fun out => (tk_indexed (tk_vertexIdsWithPropertyValue n v)).bind (fun _ =>
      (tk_specificVertices _).bind (fun _ => (Takes.lift _).bind (fun _ => trivial)))
  | edgeWithPropertyPresence n => exact fun out => (tk_indexed (tk_edgesWithProperty n)).bind (fun _ => trivial)
  | edgeWithPropertyValue n v => exact fun out => (tk_indexed (tk_edgesWithPropertyValue n v)).bind (fun _ => trivial)
  | pipeWithPropertyPresence inner n k ih =>
    exact fun out => tk_runStage inner (ih out) (tk_stageFilter (tk_edgesWithProperty n) (tk_vertexIdsWithProperty n) k)
  | pipeWithPropertyValue inner n v k ih =>
    exact fun out => tk_runStage inner (ih out)
      (tk_stageFilter (tk_edgesWithPropertyValue n v) (tk_vertexIdsWithPropertyValue n v) k)
  | allEdge => exact fun out => (tk_edgeIterateAll _).bind (fun _ => (Takes.lift _).bind (fun _ => trivial))
  | specificEdge es => exact fun out => (tk_specificEdges _).bind (fun _ => (Takes.lift _).bind (fun _ => trivial))
  | incl inner ih =>
    intro out
    refine (ih out).bind (fun output => ?_)
    cases vecPop output <;> trivial
  | count inner ih =>
    intro out
    cases inner with
    | allVertex => exact fun _ => trivial
    | allEdge => exact fun _ => trivial
    | _ => exact tk_runStage _ (ih out) (fun o => trivial)

theorem tk_lastOutput (q : Query) : (lastOutputP X q).Takes true := by
  refine (tk_query q []).bind (fun output => ?_)
  cases vecPop output <;> trivial


theorem tk_writeBatch (b : Batch) : (Prog.writeBatch b).Takes k := trivial

theorem lo_locked {f : SSet Identifier → Prog Batch} (h : ∀ ix, (f ix).Takes false) : (locked f).LockOnce :=
  fun ix => (h ix).bind (fun b => tk_writeBatch b)

theorem lo_deleteEdges (es : List Edge) : (deleteEdges X es).LockOnce := by
  refine lo_locked (fun ix => .forAll (fun e => (tk_vertexGet _).bind (fun r => ?_)))
  cases r with
  | none => trivial
  | some t => exact tk_edgeDelete _ _

theorem tk_createVertex (v : Vertex) : (createVertex X v).Takes false := by
  unfold createVertex
  refine (tk_vertexExists _).bind (fun r => ?_)
  split <;> trivial

theorem tk_createEdge (e : Edge) : (createEdge X e).Takes false := by
  unfold createEdge
  refine (tk_vertexExists _).bind (fun r => ?_)
  split
  · trivial
  · refine (tk_vertexExists _).bind (fun r => ?_)
    split
    · trivial
    · exact (tk_edgeSet e).bind (fun b => trivial)

theorem lo_indexProperty (O : IdentOrder) (n : Identifier) : (indexProperty X O n).LockOnce := by
  intro ix
  show Prog.Takes false (if _ then _ else _)
  split
  · trivial
  · show Prog.Takes false (vertexIterate X Uuid.nil >>= _)
    refine (tk_vertexIterate _).bind (fun l => ?_)
    refine Takes.bind (Takes.forItems (fun v => (tk_vpGet _ _).bind (fun r => by cases r <;> trivial))) (fun b => ?_)
    refine (tk_edgeIterateAll _).bind (fun l => ?_)
    refine Takes.bind (Takes.forItems (fun v => (tk_epGet _ _).bind (fun r => by cases r <;> trivial))) (fun b => ?_)
    exact tk_writeBatch _

/-- **A call never takes a lock while it holds one.** -/
theorem lo_call (O : IdentOrder) (op : Op) : (callProg X O op).LockOnce := by
  cases op with
  | sync => trivial
  | createVertex v => exact (tk_createVertex v).toLockOnce.map _
  | createVertexFromType id t =>
    refine LockOnce.map (Takes.toLockOnce (k := false) ((tk_createVertex _).bind (fun b => ?_))) _
    cases b <;> trivial
  | createEdge e => exact (tk_createEdge e).toLockOnce.map _
  | get q => exact Takes.lockOnce (tk_query q []) (fun _ => trivial)
  | delete q =>
    refine LockOnce.map ((tk_lastOutput q).lockOnce (fun v => ?_)) _
    cases v with
    | vertices vs => exact lo_locked (fun _ => .forAll (fun _ => tk_vertexDelete _ _))
    | edges es => exact lo_deleteEdges es
    | vertexProperties l => exact lo_locked (fun _ => .forAll (fun _ => tk_vpDelete _ _ _))
    | edgeProperties l => exact lo_locked (fun _ => .forAll (fun _ => tk_epDelete _ _ _))
    | count n => trivial
  | setProperties q n x =>
    refine LockOnce.map ((tk_lastOutput q).lockOnce (fun v => ?_)) _
    cases v with
    | vertices vs => exact lo_locked (fun _ => .forAll (fun _ => tk_vpSet _ _ _ _))
    | edges es => exact lo_locked (fun _ => .forAll (fun _ => tk_epSet _ _ _ _))
    | _ => trivial
  | bulkInsert items => exact LockOnce.map (lo_locked (fun _ => .forAll (fun _ => tk_bulkItem _ _))) _
  | indexProperty n => exact (lo_indexProperty O n).map _

end Rocks
end IndraDB
