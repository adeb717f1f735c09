import Verif.Proofs.RocksFaults
import Verif.Proofs.Moments
/-
Reading programs that meet I/O errors while other calls change the database: what they do is what they do without errors, up to
an error.
-/
set_option linter.unusedSimpArgs false
namespace IndraDB

/-- The reading program `p'`, given iterators that may end early, mimics `p`: it makes the same reads (`p` may make more), and ends with an
I/O error, or with the same error, or with results related by `R`. -/
inductive Mim {α : Type} (R : α → α → Prop) : Prog α → Prog α → Prop
  | fault (p : Prog α) : Mim R (.done (.error ioFault)) p
  | fail (e : Fault) : Mim R (.done (.error e)) (.done (.error e))
  | ok {a' a : α} : R a' a → Mim R (.done (.ok a')) (.done (.ok a))
  | get {cf : CF} {k : Bytes} {n' n : Option Bytes → Prog α} : (∀ v, Mim R (n' v) (n v)) → Mim R (.get cf k n') (.get cf k n)
  | scan {cf : CF} {lo : Bytes} {n' n : DynIter (Bytes × Bytes) → Prog α} : (∀ l' l, Upto l' l → Mim R (n' l') (n l)) →
      Mim R (.scan cf lo n') (.scan cf lo n)
  | readLock {held : Bool} {n' n : SSet Identifier → Prog α} : (∀ ix, Mim R (n' ix) (n ix)) →
      Mim R (.readLock held n') (.readLock held n)
  | more {p' : Prog α} {cf : CF} {k : Bytes} {n : Option Bytes → Prog α} : (∀ v, Mim R p' (n v)) → Mim R p' (.get cf k n)

namespace Prog
variable {α : Type}

/-- As `Saw`; the iterators may end early with an error, and all reads may fail. -/
def SawF (M : Rocks → Prop) (P : α → Prop) : Prog α → Prop
  | .done (.ok a) => P a
  | .done (.error _) => True
  | .get cf k n => ∀ s, M s → (n ((s.kv cf).get k)).SawF M P
  | .scan cf lo n => ∀ s, M s → ∀ l, Upto l (((s.kv cf).rangeFrom lo).map .ok) → (n l).SawF M P
  | .readLock _ n => ∀ s, M s → (n s.indexed).SawF M P
  | .write _ _ => False
  | .writeLock _ => False
  | .setIndexed _ _ => False

theorem SawF.mono {M : Rocks → Prop} {P Q : α → Prop} {p : Prog α} (h : p.SawF M P) (hp : ∀ a, P a → Q a) : p.SawF M Q := by
  induction p with
  | done r => cases r with
    | ok a => exact hp a h
    | error e => trivial
  | get cf k n ih => exact fun s hs => ih _ (h s hs)
  | scan cf k n ih => exact fun s hs l hl => ih _ (h s hs l hl)
  | write b n ih => exact h.elim
  | readLock _ n ih => exact fun s hs => ih _ (h s hs)
  | writeLock n ih => exact h.elim
  | setIndexed ix n ih => exact h.elim

end Prog

theorem prog_bind_assoc {α β γ : Type} (p : Prog α) (f : α → Prog β) (g : β → Prog γ) :
    (p >>= f) >>= g = p >>= fun a => f a >>= g := Prog.bind_assoc' p f g

theorem prog_bind_pure {α : Type} (p : Prog α) : (p >>= fun a => (Pure.pure a : Prog α)) = p := by
  show p.bind _ = p
  induction p with
  | done r => cases r <;> rfl
  | get cf k n ih => exact congrArg (Prog.get cf k) (funext ih)
  | scan cf k n ih => exact congrArg (Prog.scan cf k) (funext ih)
  | write b n ih => exact congrArg (Prog.write b) (funext ih)
  | readLock h n ih => exact congrArg (Prog.readLock h) (funext ih)
  | writeLock n ih => exact congrArg Prog.writeLock (funext ih)
  | setIndexed ix n ih => exact congrArg (Prog.setIndexed ix) (funext ih)

namespace Mim
variable {α β : Type} {R : α → α → Prop} {Q : β → β → Prop}

/-- What holds of all outcomes without errors holds of all outcomes, up to an error. -/
theorem saw {M : Rocks → Prop} {P : α → Prop} {p' p : Prog α} (h : Mim R p' p) (hne : ∃ s, M s) (hp : p.Saw M P) :
    p'.SawF M (fun a' => ∃ a, R a' a ∧ P a) := by
  induction h with
  | fault p => trivial
  | fail e => trivial
  | ok hR => exact ⟨_, hR, hp⟩
  | get _ ih => exact fun s hs => ih _ (hp s hs)
  | scan _ ih => exact fun s hs l hl => ih _ _ hl (hp s hs)
  | readLock _ ih => exact fun s hs => ih _ (hp s hs)
  | more _ ih =>
    obtain ⟨s, hs⟩ := hne
    exact ih _ (hp s hs)

theorem lift (r : Res α) : Mim Eq (Prog.lift r) (Prog.lift r) := by
  cases r with
  | ok a => exact .ok rfl
  | error e => exact .fail e

theorem pure {a' a : α} (hR : R a' a) : Mim R (Pure.pure a' : Prog α) (Pure.pure a) := .ok hR

theorem collect {l' l : DynIter α} (h : Upto l' l) :
    Mim Eq (Prog.lift (IndraDB.collect l')) (Prog.lift (IndraDB.collect l)) := by
  rcases h.collect with h | h
  · rw [h]; exact lift _
  · rw [h]; exact .fault _

theorem bind {p' p : Prog α} {f' f : α → Prog β} (h : Mim R p' p) (hf : ∀ a' a, R a' a → Mim Q (f' a') (f a)) :
    Mim Q (p' >>= f') (p >>= f) := by
  show Mim Q (p'.bind f') (p.bind f)
  induction h with
  | fault p => exact .fault _
  | fail e => exact .fail e
  | ok hR => exact hf _ _ hR
  | get _ ih => exact .get ih
  | scan _ ih => exact .scan ih
  | readLock _ ih => exact .readLock ih
  | more _ ih => exact .more ih

theorem bindEq {p' p : Prog α} {f' f : α → Prog β} (h : Mim Eq p' p) (hf : ∀ a, Mim Q (f' a) (f a)) :
    Mim Q (p' >>= f') (p >>= f) := h.bind (fun a' a e => by subst e; exact hf a')

theorem getCf (cf : CF) (k : Bytes) : Mim Eq (Prog.getCf cf k) (Prog.getCf cf k) := .get (fun _ => .ok rfl)

theorem iteratorCf (cf : CF) (k : Bytes) : Mim Upto (Prog.iteratorCf cf k) (Prog.iteratorCf cf k) := .scan (fun _ _ h => .ok h)

/-- Lookups for a list. -/
theorem lookupItems {f : α → Prog (Option β)} (h : ∀ a, Mim Eq (f a) (f a)) (l : List α) :
    Mim Eq (Rocks.lookupItems f l) (Rocks.lookupItems f l) := by
  unfold Rocks.lookupItems
  induction l with
  | nil => exact pure rfl
  | cons a l ih => exact (h a).bindEq (fun _ => ih.bindEq (fun _ => pure rfl))

end Mim

namespace Rocks
variable {X : Cfg}
open Mim

theorem mi_vertexExists (id : Uuid) : Mim Eq (vertexExists X id) (vertexExists X id) := (getCf _ _).bindEq (fun _ => pure rfl)
theorem mi_vertexGet (id : Uuid) : Mim Eq (vertexGet X id) (vertexGet X id) := (getCf _ _).bindEq (fun r => by
  cases r with
  | none => exact pure rfl
  | some b => exact (lift _).bindEq (fun _ => pure rfl))
theorem mi_edgeContains (cf : CF) (e : Edge) : Mim Eq (edgeContains X cf e) (edgeContains X cf e) :=
  (getCf _ _).bindEq (fun _ => pure rfl)
theorem mi_vpGet (id : Uuid) (n : Identifier) : Mim Eq (vpGet X id n) (vpGet X id n) := (getCf _ _).bindEq (fun r => by
  cases r with
  | none => exact pure rfl
  | some b => exact (lift _).bindEq (fun _ => pure rfl))
theorem mi_epGet (e : Edge) (n : Identifier) : Mim Eq (epGet X e n) (epGet X e n) := (getCf _ _).bindEq (fun r => by
  cases r with
  | none => exact pure rfl
  | some b => exact (lift _).bindEq (fun _ => pure rfl))

theorem mi_vertexIterate (id : Uuid) : Mim Upto (vertexIterate X id) (vertexIterate X id) :=
  (iteratorCf _ _).bind (fun _ _ h => pure (upto_mapItems _ h))
theorem mi_edgeIterateRoot (cf : CF) (id : Uuid) : Mim Upto (edgeIterateRoot X cf id) (edgeIterateRoot X cf id) :=
  (iteratorCf _ _).bind (fun _ _ h => pure (upto_mapItems _ (upto_takeWithPrefix h _)))
theorem mi_edgeIterateRange (cf : CF) (e : Edge) : Mim Upto (edgeIterateRange X cf e) (edgeIterateRange X cf e) :=
  (iteratorCf _ _).bind (fun _ _ h => pure (upto_mapItems _ h))
theorem mi_edgeIterateAll (cf : CF) : Mim Upto (edgeIterateAll cf) (edgeIterateAll cf) :=
  (iteratorCf _ _).bind (fun _ _ h => pure (upto_mapItems _ h))
theorem mi_vpvIterate (p : List Component) : Mim Upto (vpvIterate X p) (vpvIterate X p) :=
  (iteratorCf _ _).bind (fun _ _ h => pure (upto_mapItems _ (upto_takeWithPrefix h _)))
theorem mi_epvIterate (p : List Component) : Mim Upto (epvIterate X p) (epvIterate X p) :=
  (iteratorCf _ _).bind (fun _ _ h => pure (upto_mapItems _ (upto_takeWithPrefix h _)))
theorem mi_vpIterate (id : Uuid) : Mim Upto (vpIterate X id) (vpIterate X id) :=
  (iteratorCf _ _).bind (fun _ _ h => pure (upto_mapItems _ (upto_takeWithPrefix h _)))
theorem mi_epIterate (e : Edge) : Mim Upto (epIterate X e) (epIterate X e) :=
  (iteratorCf _ _).bind (fun _ _ h => pure (upto_mapItems _ (upto_takeWithPrefix h _)))

/-! ### Queries -/

/-- Lookups that ask whether vertices exist, in an iterator that may fail. -/
theorem mi_existingIds {l' l : DynIter Uuid} (h : Upto l' l) : Mim Upto (existingIds X l') (existingIds X l) := by
  unfold existingIds
  induction h with
  | nil => exact pure .nil
  | cons x _ ih =>
    cases x with
    | ok a =>
      refine ((mi_vertexExists a).bindEq (fun _ => pure rfl)).bindEq (fun b => ih.bind (fun _ _ e => pure ?_))
      cases b with
      | some b => exact .cons _ e
      | none => exact e
    | error e => exact ih.bind (fun _ _ e => pure (.cons _ e))
  | cut l =>
    have total : ∀ (l : DynIter Uuid) (k : DynIter Uuid → Prog (DynIter Uuid)), (∀ x, Mim Upto (.done (.ok [.error ioFault])) (k x)) →
        Mim Upto (.done (.ok [.error ioFault])) (existingIds X l >>= k) := by
      intro l
      induction l with
      | nil => exact fun k hk => hk []
      | cons x l ih =>
        intro k hk
        cases x with
        | ok a =>
          refine .more (fun v => ?_)
          cases v with
          | none =>
            show Mim Upto _ ((existingIds X l >>= fun y => (Pure.pure y : Prog (DynIter Uuid))) >>= k)
            rw [prog_bind_assoc]; exact ih k hk
          | some b =>
            show Mim Upto _ ((existingIds X l >>= fun y => (Pure.pure (.ok a :: y) : Prog (DynIter Uuid))) >>= k)
            rw [prog_bind_assoc]; exact ih (fun y => k (.ok a :: y)) (fun y => hk _)
        | error e =>
          have := ih (fun y => k (.error e :: y)) (fun y => hk _)
          have h : (existingIds X (.error e :: l) >>= k) = (existingIds X l >>= fun y => k (.error e :: y)) := by
            show ((existingIds X l >>= fun y => (Pure.pure (.error e :: y) : Prog (DynIter Uuid))) >>= k) = _
            rw [prog_bind_assoc]; rfl
          rw [h]; exact this
    have := total l Pure.pure (fun x => .ok (.cut x))
    rw [prog_bind_pure] at this
    exact this

theorem mi_specificVertices (ids : List Uuid) : Mim Eq (specificVerticesP X ids) (specificVerticesP X ids) :=
  Mim.lookupItems (fun _ => (mi_vertexGet _).bindEq (fun _ => pure rfl)) _
theorem mi_specificEdges (es : List Edge) : Mim Eq (specificEdgesP X es) (specificEdgesP X es) :=
  Mim.lookupItems (fun _ => (mi_edgeContains _ _).bindEq (fun _ => pure rfl)) _

theorem mi_ifIndexed {α : Type} (n : Identifier) {p : Prog (DynIter α)} (h : Mim Upto p p) :
    Mim UptoOpt (ifIndexed n p) (ifIndexed n p) := by
  refine Mim.readLock (fun ix => ?_)
  show Mim UptoOpt (if _ then _ else _) (if _ then _ else _)
  split
  · exact h.bind (fun _ _ h => pure (Or.inr ⟨_, _, rfl, rfl, h⟩))
  · exact pure (Or.inl ⟨rfl, rfl⟩)

theorem mi_indexed {α : Type} {p : Prog (Option (DynIter α))} (h : Mim UptoOpt p p) : Mim Eq (indexedP p) (indexedP p) := by
  refine h.bind (fun o' o h => ?_)
  rcases h with ⟨rfl, rfl⟩ | ⟨l', l, rfl, rfl, h⟩
  · exact lift _
  · exact Mim.collect h

theorem mi_vertexIdsWithProperty (n : Identifier) : Mim UptoOpt (vertexIdsWithPropertyP X n) (vertexIdsWithPropertyP X n) :=
  mi_ifIndexed n ((mi_vpvIterate _).bind (fun _ _ h => mi_existingIds h))
theorem mi_vertexIdsWithPropertyValue (n : Identifier) (v : Json) :
    Mim UptoOpt (vertexIdsWithPropertyValueP X n v) (vertexIdsWithPropertyValueP X n v) :=
  mi_ifIndexed n ((mi_vpvIterate _).bind (fun _ _ h => mi_existingIds h))
theorem mi_edgesWithProperty (n : Identifier) : Mim UptoOpt (edgesWithPropertyP X n) (edgesWithPropertyP X n) :=
  mi_ifIndexed n (mi_epvIterate _)
theorem mi_edgesWithPropertyValue (n : Identifier) (v : Json) :
    Mim UptoOpt (edgesWithPropertyValueP X n v) (edgesWithPropertyValueP X n v) := mi_ifIndexed n (mi_epvIterate _)

theorem mi_pipeVertexIter (d : EdgeDirection) (t : Option Identifier) (v : Vertex) :
    Mim Upto (pipeVertexIterP X d t v) (pipeVertexIterP X d t v) := by
  cases d with
  | outbound => exact (mi_edgeIterateRange _ _).bind (fun _ _ h => pure (upto_filterT _ _ (h.takeWhile rfl)))
  | inbound => exact (mi_edgeIterateRange _ _).bind (fun _ _ h => pure ((upto_filterT _ _ (h.takeWhile rfl)).map rfl))

theorem mi_pipeVertices (d : EdgeDirection) (limit : UInt32) (t : Option Identifier) (vs : List Vertex) :
    ∀ es, Mim Eq (pipeVerticesP X d limit t vs es) (pipeVerticesP X d limit t vs es) := by
  induction vs with
  | nil => exact fun es => pure rfl
  | cons v vs ih =>
    intro es
    refine (mi_pipeVertexIter d t v).bind (fun l' l h => bindEq ?_ (fun es' => ?_))
    · by_cases hl : limit.toNat < es.length
      · simp only [if_pos hl]; exact lift _
      · simp only [if_neg hl]
        rcases (h.take (limit.toNat - es.length)).collect with e | e
        · rw [e]; exact lift _
        · rw [e]; exact .fault _
    · show Mim Eq (if _ then _ else _) (if _ then _ else _)
      split
      · exact pure rfl
      · exact ih _

theorem mi_ownerProps {one : Identifier → Prog (Option Json)} {all : Prog (DynIter (Identifier × Json))}
    (h1 : ∀ n, Mim Eq (one n) (one n)) (h2 : Mim Eq all all) (name : Option Identifier) :
    Mim Eq (ownerPropsP one all name) (ownerPropsP one all name) := by
  cases name with
  | none => exact h2.bindEq (fun _ => (lift _).bindEq (fun _ => pure rfl))
  | some n => exact (h1 n).bindEq (fun r => by cases r <;> exact pure rfl)

theorem mi_propItems {ω : Type} {p : Prog (DynIter (ω × Identifier × Json))} (h : Mim Upto p p) :
    Mim Eq (propItems p) (propItems p) :=
  h.bind (fun _ _ h => (Mim.collect h).bindEq (fun _ => pure rfl))

theorem mi_pipeEdgeProps (name : Option Identifier) (es : List Edge) : Mim Eq (pipeEdgePropsP X name es) (pipeEdgePropsP X name es) := by
  induction es with
  | nil => exact pure rfl
  | cons e es ih =>
    exact (mi_ownerProps (fun n => mi_epGet e n) (mi_propItems (mi_epIterate e)) name).bindEq
      (fun _ => ih.bindEq (fun _ => pure rfl))

theorem mi_pipeVertexProps (name : Option Identifier) (vs : List Vertex) :
    Mim Eq (pipeVertexPropsP X name vs) (pipeVertexPropsP X name vs) := by
  induction vs with
  | nil => exact pure rfl
  | cons v vs ih =>
    exact (mi_ownerProps (fun n => mi_vpGet v.id n) (mi_propItems (mi_vpIterate v.id)) name).bindEq
      (fun _ => ih.bindEq (fun _ => pure rfl))

theorem mi_stagePipe (d : EdgeDirection) (limit : UInt32) (t : Option Identifier) (o : Output) :
    Mim Eq (stagePipeP X d limit t o) (stagePipeP X d limit t o) := by
  cases o with
  | edges es => exact (mi_specificVertices _).bindEq (fun _ => (lift _).bindEq (fun _ => pure rfl))
  | vertices vs => exact (mi_pipeVertices d limit t vs []).bindEq (fun _ => pure rfl)
  | _ => exact lift _

theorem mi_stageProperty (name : Option Identifier) (o : Output) : Mim Eq (stagePropertyP X name o) (stagePropertyP X name o) := by
  cases o with
  | edges es => exact (mi_pipeEdgeProps name es).bindEq (fun _ => pure rfl)
  | vertices vs => exact (mi_pipeVertexProps name vs).bindEq (fun _ => pure rfl)
  | _ => exact lift _

theorem mi_stageFilter {es : Prog (Option (DynIter Edge))} {vs : Prog (Option (DynIter Uuid))} (he : Mim UptoOpt es es)
    (hv : Mim UptoOpt vs vs) (keep : Bool) (o : Output) : Mim Eq (stageFilterP es vs keep o) (stageFilterP es vs keep o) := by
  cases o with
  | edges es => exact (mi_indexed he).bindEq (fun _ => pure rfl)
  | vertices vs => exact (mi_indexed hv).bindEq (fun _ => pure rfl)
  | _ => exact lift _

theorem mi_runStage (inner : Query) {p : Prog (List Output)} {f : Output → Prog Output} (h : Mim Eq p p)
    (hf : ∀ o, Mim Eq (f o) (f o)) : Mim Eq (runStageP inner p f) (runStageP inner p f) := by
  refine h.bindEq (fun output => ?_)
  cases vecPop output with
  | none => exact lift _
  | some x => exact (hf _).bindEq (fun _ => pure rfl)

theorem mi_query (q : Query) : q.countsAll = false → ∀ out, Mim Eq (queryP X q out) (queryP X q out) := by
  induction q with
  | allVertex => exact fun _ out => (mi_vertexIterate _).bind (fun _ _ h => (Mim.collect h).bindEq (fun _ => pure rfl))
  | rangeVertex limit t st =>
    intro _ out
    cases st <;>
      exact (mi_vertexIterate _).bind (fun _ _ h => (Mim.collect ((upto_filterT _ _ h).take _)).bindEq (fun _ => pure rfl))
  | specificVertex ids => exact fun _ out => (mi_specificVertices _).bindEq (fun _ => (lift _).bindEq (fun _ => pure rfl))
  | pipe inner d l t ih => exact fun hq out => mi_runStage inner (ih hq out) (mi_stagePipe d l t)
  | pipeProperty inner n ih => exact fun hq out => mi_runStage inner (ih hq out) (mi_stageProperty n)
  | vertexWithPropertyPresence n =>
    exact fun _ out => (mi_indexed (mi_vertexIdsWithProperty n)).bindEq (fun _ =>
      (mi_specificVertices _).bindEq (fun _ => (lift _).bindEq (fun _ => pure rfl)))
  | vertexWithPropertyValue n v =>
    exact fun _ out => (mi_indexed (mi_vertexIdsWithPropertyValue n v)).bindEq (fun _ =>
      (mi_specificVertices _).bindEq (fun _ => (lift _).bindEq (fun _ => pure rfl)))
  | edgeWithPropertyPresence n => exact fun _ out => (mi_indexed (mi_edgesWithProperty n)).bindEq (fun _ => pure rfl)
  | edgeWithPropertyValue n v => exact fun _ out => (mi_indexed (mi_edgesWithPropertyValue n v)).bindEq (fun _ => pure rfl)
  | pipeWithPropertyPresence inner n k ih =>
    exact fun hq out => mi_runStage inner (ih hq out) (mi_stageFilter (mi_edgesWithProperty n) (mi_vertexIdsWithProperty n) k)
  | pipeWithPropertyValue inner n v k ih =>
    exact fun hq out => mi_runStage inner (ih hq out)
      (mi_stageFilter (mi_edgesWithPropertyValue n v) (mi_vertexIdsWithPropertyValue n v) k)
  | allEdge => exact fun _ out => (mi_edgeIterateAll _).bind (fun _ _ h => (Mim.collect h).bindEq (fun _ => pure rfl))
  | specificEdge es => exact fun _ out => (mi_specificEdges _).bindEq (fun _ => (lift _).bindEq (fun _ => pure rfl))
  | incl inner ih =>
    intro hq out
    refine (ih hq out).bindEq (fun output => ?_)
    cases vecPop output
    · exact lift _
    · exact pure rfl
  | count inner ih =>
    intro hq out
    have hi : inner.countsAll = false := by
      simp only [Query.countsAll, Bool.or_eq_false_iff] at hq; exact hq.2
    cases inner with
    | allVertex => simp [Query.countsAll] at hq
    | allEdge => simp [Query.countsAll] at hq
    | _ => exact mi_runStage _ (ih hi out) (fun o => lift _)

end Rocks
end IndraDB
