import Verif.Model.RocksCall
import Verif.Proofs.RocksOnce
import Verif.Proofs.RocksStore
/-
API calls as programs: without interference they are the calls of `Model/Database.lean`, and whatever they read they write
at most one, well-formed, batch.
-/
set_option linter.unusedSimpArgs false
namespace IndraDB
namespace Prog
variable {α β : Type}

/-- Run in `s`, the program changes nothing and returns `r`. -/
def Sees (p : Prog α) (s : Rocks) (r : Res α) : Prop := p.run s = (s, r)

theorem Reading.sees {p : Prog α} (h : p.Reading) (s : Rocks) : p.Sees s (p.eval s) := by
  exact Prod.ext (h.run s) rfl

theorem Sees.bind {p : Prog α} {f : α → Prog β} {s : Rocks} {r : Res α} {g : α → Res β} (h : p.Sees s r)
    (hf : ∀ a, (f a).Sees s (g a)) : (p >>= f).Sees s (r >>= g) := by
  show (p >>= f).run s = _
  rw [run_bind, h]
  cases r with
  | error e => rfl
  | ok a => exact hf a

theorem Sees.lift (r : Res α) (s : Rocks) : (Prog.lift r).Sees s r := rfl
theorem Sees.pure (a : α) (s : Rocks) : (Pure.pure a : Prog α).Sees s (Pure.pure a) := rfl

end Prog

namespace Rocks
open Prog
variable {X : Cfg}

/-! ### Reading programs -/

theorem rd_lookupItems {α β : Type} {f : α → Prog (Option β)} {l : List α} (h : ∀ a, (f a).Reading) :
    (lookupItems f l).Reading := .filterMapItems h
theorem rd_specificVertices (ids : List Uuid) : (specificVerticesP X ids).Reading :=
  rd_lookupItems (fun _ => (rd_vertexGet _).bind (fun _ => trivial))
theorem rd_specificEdges (es : List Edge) : (specificEdgesP X es).Reading :=
  rd_lookupItems (fun _ => (rd_edgeContains _ _).bind (fun _ => trivial))
theorem rd_existingIds (l : DynIter Uuid) : (existingIds X l).Reading :=
  .filterMapItems (fun _ => (rd_vertexExists _).bind (fun _ => trivial))
theorem rd_ifIndexed {α : Type} (n : Identifier) {p : Prog (DynIter α)} (h : p.Reading) : (ifIndexed n p).Reading := by
  intro ix
  show Prog.Reading (if _ then _ else _)
  split
  · exact h.bind (fun _ => trivial)
  · trivial
theorem rd_vpvIterate (p : List Component) : (vpvIterate X p).Reading := (Reading.iteratorCf _ _).bind (fun _ => trivial)
theorem rd_epvIterate (p : List Component) : (epvIterate X p).Reading := (Reading.iteratorCf _ _).bind (fun _ => trivial)
theorem rd_edgeIterateRange (cf : CF) (lo : Edge) : (edgeIterateRange X cf lo).Reading :=
  (Reading.iteratorCf _ _).bind (fun _ => trivial)
theorem rd_propItems {ω : Type} {p : Prog (DynIter (ω × Identifier × Json))} (h : p.Reading) : (propItems p).Reading :=
  h.bind (fun _ => (Reading.lift _).bind (fun _ => trivial))
theorem rd_vertexIdsWithProperty (n : Identifier) : (vertexIdsWithPropertyP X n).Reading :=
  rd_ifIndexed n ((rd_vpvIterate _).bind (fun _ => rd_existingIds _))
theorem rd_vertexIdsWithPropertyValue (n : Identifier) (v : Json) : (vertexIdsWithPropertyValueP X n v).Reading :=
  rd_ifIndexed n ((rd_vpvIterate _).bind (fun _ => rd_existingIds _))
theorem rd_edgesWithProperty (n : Identifier) : (edgesWithPropertyP X n).Reading := rd_ifIndexed n (rd_epvIterate _)
theorem rd_edgesWithPropertyValue (n : Identifier) (v : Json) : (edgesWithPropertyValueP X n v).Reading :=
  rd_ifIndexed n (rd_epvIterate _)

/-! ### Without interference, a query program returns what the query returns -/

variable (X) (s : Rocks)

theorem sees_pipeEdges (d : EdgeDirection) (limit : UInt32) (t : Option Identifier) (es : List Edge) :
    (pipeEdgesP X d limit t es).Sees s (pipeEdges (reads X s) d limit t es) :=
  ((rd_specificVertices _).sees s).bind (fun _ => (Sees.lift _ s).bind (fun _ => .pure _ s))

theorem sees_pipeVertexIter (d : EdgeDirection) (t : Option Identifier) (v : Vertex) :
    (pipeVertexIterP X d t v).Sees s (pipeVertexIter (reads X s) d t v) := by
  cases d
  · exact ((rd_edgeIterateRange _ _).sees s).bind (fun _ => .pure _ s)
  · exact ((rd_edgeIterateRange _ _).sees s).bind (fun _ => .pure _ s)

theorem sees_pipeVertices (d : EdgeDirection) (limit : UInt32) (t : Option Identifier) (vs : List Vertex) :
    ∀ es, (pipeVerticesP X d limit t vs es).Sees s (pipeVertices (reads X s) d limit t vs es) := by
  induction vs with
  | nil => intro es; rfl
  | cons v vs ih =>
    intro es
    rw [pipeVerticesP, pipeVertices]
    refine (sees_pipeVertexIter X s d t v).bind (fun iter => ?_)
    show (Prog.lift _ >>= _).run s = _
    by_cases h : limit.toNat < es.length
    · simp only [h, if_true]; rfl
    · simp only [h, if_false]
      cases hc : collect (iter.take (limit.toNat - es.length)) with
      | error e => rfl
      | ok new =>
        show (if _ then _ else _ : Prog (List Edge)).run s = (s, if _ then _ else _)
        by_cases hl : (es ++ new).length ≥ limit.toNat
        · rw [if_pos hl, if_pos hl]; rfl
        · rw [if_neg hl, if_neg hl]; exact ih _

theorem sees_ownerProps {one : Identifier → Prog (Option Json)} {all : Prog (DynIter (Identifier × Json))}
    {one' : Identifier → Res (Option Json)} {all' : Res (DynIter (Identifier × Json))} (h1 : ∀ n, (one n).Sees s (one' n))
    (h2 : all.Sees s all') (name : Option Identifier) : (ownerPropsP one all name).Sees s (ownerProps one' all' name) := by
  cases name with
  | none => exact h2.bind (fun _ => (Sees.lift _ s).bind (fun _ => .pure _ s))
  | some n =>
    refine (h1 n).bind (fun r => ?_)
    cases r <;> rfl

theorem sees_pipeEdgeProps (name : Option Identifier) (es : List Edge) :
    (pipeEdgePropsP X name es).Sees s (pipeEdgeProps (reads X s) name es) := by
  induction es with
  | nil => rfl
  | cons e es ih =>
    exact (sees_ownerProps s (fun n => (rd_epGet e n).sees s) ((rd_propItems (rd_epIterate e)).sees s) name).bind
      (fun _ => ih.bind (fun _ => .pure _ s))

theorem sees_pipeVertexProps (name : Option Identifier) (vs : List Vertex) :
    (pipeVertexPropsP X name vs).Sees s (pipeVertexProps (reads X s) name vs) := by
  induction vs with
  | nil => rfl
  | cons v vs ih =>
    exact (sees_ownerProps s (fun n => (rd_vpGet v.id n).sees s) ((rd_propItems (rd_vpIterate v.id)).sees s) name).bind
      (fun _ => ih.bind (fun _ => .pure _ s))

theorem sees_indexed {α : Type} {p : Prog (Option (DynIter α))} {r : Res (Option (DynIter α))} (h : p.Sees s r) :
    (indexedP p).Sees s (IndraDB.indexed r) := by
  have := h.bind (f := fun o => Prog.lift (IndraDB.indexed (.ok o))) (fun o => Sees.lift _ s)
  cases r <;> exact this

theorem sees_stagePipe (d : EdgeDirection) (limit : UInt32) (t : Option Identifier) (o : Output) :
    (stagePipeP X d limit t o).Sees s (stagePipe (reads X s) d limit t o) := by
  cases o with
  | edges es => exact sees_pipeEdges X s d limit t es
  | vertices vs => exact (sees_pipeVertices X s d limit t vs []).bind (fun _ => .pure _ s)
  | _ => rfl

theorem sees_stageProperty (name : Option Identifier) (o : Output) :
    (stagePropertyP X name o).Sees s (stageProperty (reads X s) name o) := by
  cases o with
  | edges es => exact (sees_pipeEdgeProps X s name es).bind (fun _ => .pure _ s)
  | vertices vs => exact (sees_pipeVertexProps X s name vs).bind (fun _ => .pure _ s)
  | _ => rfl

theorem sees_stageFilter {es : Prog (Option (DynIter Edge))} {vs : Prog (Option (DynIter Uuid))}
    {es' : Res (Option (DynIter Edge))} {vs' : Res (Option (DynIter Uuid))} (he : es.Sees s es') (hv : vs.Sees s vs')
    (keep : Bool) (o : Output) : (stageFilterP es vs keep o).Sees s (stageFilter es' vs' keep o) := by
  cases o with
  | edges es => exact (sees_indexed s he).bind (fun _ => .pure _ s)
  | vertices vs => exact (sees_indexed s hv).bind (fun _ => .pure _ s)
  | _ => rfl

theorem sees_runStage (inner : Query) {p : Prog (List Output)} {r : Res (List Output)} {f : Output → Prog Output}
    {g : Output → Res Output} (h : p.Sees s r) (hf : ∀ o, (f o).Sees s (g o)) :
    (runStageP inner p f).Sees s (runStage inner r g) := by
  refine h.bind (fun output => ?_)
  cases vecPop output with
  | none => rfl
  | some x => exact (hf _).bind (fun _ => .pure _ s)

theorem sees_query (q : Query) : ∀ out, (queryP X q out).Sees s (query (reads X s) q out) := by
  induction q with
  | allVertex => exact fun out => ((rd_vertexIterate _).sees s).bind (fun _ => (Sees.lift _ s).bind (fun _ => .pure _ s))
  | rangeVertex limit t st =>
    intro out
    cases st <;> exact ((rd_vertexIterate _).sees s).bind (fun _ => (Sees.lift _ s).bind (fun _ => .pure _ s))
  | specificVertex ids =>
    exact fun out => ((rd_specificVertices _).sees s).bind (fun _ => (Sees.lift _ s).bind (fun _ => .pure _ s))
  | pipe inner d l t ih => exact fun out => sees_runStage s inner (ih out) (sees_stagePipe X s d l t)
  | pipeProperty inner n ih => exact fun out => sees_runStage s inner (ih out) (sees_stageProperty X s n)
  | vertexWithPropertyPresence n =>
    exact fun out => (sees_indexed s ((rd_vertexIdsWithProperty n).sees s)).bind (fun _ =>
      ((rd_specificVertices _).sees s).bind (fun _ => (Sees.lift _ s).bind (fun _ => .pure _ s)))
  | vertexWithPropertyValue n v =>
    exact fun out => (sees_indexed s ((rd_vertexIdsWithPropertyValue n v).sees s)).bind (fun _ =>
      ((rd_specificVertices _).sees s).bind (fun _ => (Sees.lift _ s).bind (fun _ => .pure _ s)))
  | edgeWithPropertyPresence n =>
    exact fun out => (sees_indexed s ((rd_edgesWithProperty n).sees s)).bind (fun _ => .pure _ s)
  | edgeWithPropertyValue n v =>
    exact fun out => (sees_indexed s ((rd_edgesWithPropertyValue n v).sees s)).bind (fun _ => .pure _ s)
  | pipeWithPropertyPresence inner n k ih =>
    exact fun out => sees_runStage s inner (ih out)
      (sees_stageFilter s ((rd_edgesWithProperty n).sees s) ((rd_vertexIdsWithProperty n).sees s) k)
  | pipeWithPropertyValue inner n v k ih =>
    exact fun out => sees_runStage s inner (ih out)
      (sees_stageFilter s ((rd_edgesWithPropertyValue n v).sees s) ((rd_vertexIdsWithPropertyValue n v).sees s) k)
  | allEdge => exact fun out => ((rd_edgeIterateAll _).sees s).bind (fun _ => (Sees.lift _ s).bind (fun _ => .pure _ s))
  | specificEdge es =>
    exact fun out => ((rd_specificEdges _).sees s).bind (fun _ => (Sees.lift _ s).bind (fun _ => .pure _ s))
  | incl inner ih =>
    intro out
    refine (ih out).bind (fun output => ?_)
    cases vecPop output <;> rfl
  | count inner ih =>
    intro out
    cases inner with
    | allVertex => rfl
    | allEdge => rfl
    | _ => exact sees_runStage s _ (ih out) (fun o => Sees.lift _ s)

theorem sees_lastOutput (q : Query) : (lastOutputP X q).Sees s (lastOutput (reads X s) q) := by
  refine (sees_query X s q []).bind (fun output => ?_)
  cases vecPop output <;> rfl

variable {s}

theorem run_unit {p : Prog Unit} : (p >>= fun _ => (pure Reply.unit : Prog Reply)).run s = Upd.map (fun _ => Reply.unit) (p.run s) :=
  run_map p _ s

/-- **Without interference, the program of a call is the call.** -/
theorem callProg_run (O : IdentOrder) (op : Op) : (callProg X O op).run s = step X O op s := by
  cases op with
  | sync => rfl
  | createVertex v => exact run_map (createVertex X v) _ s
  | createVertexFromType id t =>
    refine (run_map (createVertexFromTypeP X id t) _ s).trans ?_
    show Upd.map _ ((createVertexFromTypeP X id t).run s) = Upd.map _ (dbCreateVertexFromType (txn X O) id t s)
    congr 1
    unfold createVertexFromTypeP dbCreateVertexFromType
    rw [run_bind]
    have hT : (txn X O).createVertex ⟨id, t⟩ s = (createVertex X ⟨id, t⟩).run s := rfl
    rw [hT]
    generalize (createVertex X ⟨id, t⟩).run s = u
    obtain ⟨s', r⟩ := u
    cases r with
    | error e => rfl
    | ok b => cases b <;> rfl
  | createEdge e => exact run_map (createEdge X e) _ s
  | get q =>
    refine (run_map (queryP X q []) _ s).trans ?_
    rw [sees_query X s q []]; rfl
  | delete q =>
    refine run_unit.trans ?_
    show _ = Upd.map _ (dbDelete (txn X O) q s)
    congr 1
    unfold deleteP dbDelete
    rw [run_bind, sees_lastOutput X s q]
    have hT : (txn X O).reads s = reads X s := rfl
    rw [hT]
    generalize lastOutput (reads X s) q = a
    cases a with
    | error e => rfl
    | ok v => cases v <;> rfl
  | setProperties q n v =>
    refine run_unit.trans ?_
    show _ = Upd.map _ (dbSetProperties (txn X O) q n v s)
    congr 1
    unfold setPropertiesP dbSetProperties
    rw [run_bind, sees_lastOutput X s q]
    have hT : (txn X O).reads s = reads X s := rfl
    rw [hT]
    generalize lastOutput (reads X s) q = a
    cases a with
    | error e => rfl
    | ok v => cases v <;> rfl
  | bulkInsert items => exact run_unit
  | indexProperty n => exact run_unit

end Rocks
end IndraDB
