import Verif.Spec.Unread
import Verif.Model.RocksApp
/-
Programs that differ in how stored values are read. `Cut st p q`: `p` does what `q` does until it perhaps ends with an error
of the datastore. If `st`, the error comes at a place where `q` accesses the database and could fail with the same error.
-/
namespace IndraDB
namespace Prog

/-- The error of the datastore. -/
local notation "dsErr" => (Except.error ioFault)

inductive Cut (st : Bool) {α : Type} : Prog α → Prog α → Prop
  | fail (q : Prog α) : st = false → Cut st (.done dsErr) q
  | done (r : Res α) : Cut st (.done r) (.done r)
  | get {cf : CF} {k : Bytes} {n n' : Option Bytes → Prog α} (P : Option Bytes → Prop) : (∀ r, P r → n r = .done dsErr) →
      (∀ r, ¬ P r → Cut st (n r) (n' r)) → Cut st (.get cf k n) (.get cf k n')
  | scan {cf : CF} {lo : Bytes} {n n' : DynIter (Bytes × Bytes) → Prog α} (g : DynIter (Bytes × Bytes) → DynIter (Bytes × Bytes)) :
      (∀ l, g l = l ∨ (st = true ∧ ∃ i, i < l.length ∧ g l = l.take i ++ [dsErr])) →
      (∀ l, Cut st (n l) (n' (g l))) → Cut st (.scan cf lo n) (.scan cf lo n')
  | write {b : Batch} {n n' : Unit → Prog α} : Cut st (n ()) (n' ()) → Cut st (.write b n) (.write b n')
  | readLock {held : Bool} {n n' : SSet Identifier → Prog α} : (∀ ix, Cut st (n ix) (n' ix)) →
      Cut st (.readLock held n) (.readLock held n')
  | writeLock {n n' : SSet Identifier → Prog α} : (∀ ix, Cut st (n ix) (n' ix)) → Cut st (.writeLock n) (.writeLock n')
  | setIndexed {ix : SSet Identifier} {n n' : Unit → Prog α} : Cut st (n ()) (n' ()) → Cut st (.setIndexed ix n) (.setIndexed ix n')

namespace Cut
variable {st : Bool} {α β : Type}

theorem refl : ∀ p : Prog α, Cut st p p
  | .done r => .done r
  | .get cf k n => .get (fun _ => False) (fun _ h => h.elim) (fun r _ => refl (n r))
  | .scan cf lo n => .scan id (fun _ => .inl rfl) (fun l => refl (n l))
  | .write b n => .write (refl (n ()))
  | .readLock h n => .readLock (fun ix => refl (n ix))
  | .writeLock n => .writeLock (fun ix => refl (n ix))
  | .setIndexed ix n => .setIndexed (refl (n ()))

theorem of_eq {p q : Prog α} (h : p = q) : Cut st p q := h ▸ refl p

theorem bind {p q : Prog α} (h : Cut st p q) {f f' : α → Prog β} (hf : ∀ a, Cut st (f a) (f' a)) :
    Cut st (p.bind f) (q.bind f') := by
  induction h with
  | fail q h => exact .fail _ h
  | done r =>
    cases r with
    | ok a => exact hf a
    | error e => exact .done _
  | get P h1 _ ih => exact .get P (fun r hr => by rw [h1 r hr]; rfl) (fun r hr => ih r hr)
  | scan g h1 _ ih => exact .scan g h1 ih
  | write _ ih => exact .write ih
  | readLock _ ih => exact .readLock ih
  | writeLock _ ih => exact .writeLock ih
  | setIndexed _ ih => exact .setIndexed ih

theorem bind' (p : Prog α) {f f' : α → Prog β} (hf : ∀ a, Cut st (f a) (f' a)) : Cut st (p.bind f) (p.bind f') :=
  (refl p).bind hf

theorem map {p q : Prog α} (h : Cut st p q) (f : α → Prog β) : Cut st (p.bind f) (q.bind f) := h.bind (fun _ => refl _)

/-- Run alone, both do the same, or the first returns an error. -/
theorem run {p q : Prog α} (h : Cut false p q) : ∀ s, p.run s = q.run s ∨ (p.run s).2 = .error ioFault := by
  induction h with
  | fail q h => exact fun s => .inr rfl
  | done r => exact fun s => .inl rfl
  | get P h1 _ ih =>
    rename_i cf k n n' h2
    intro s
    by_cases hP : P ((s.kv cf).get k)
    · right; show ((n _).run s).2 = _; rw [h1 _ hP]; rfl
    · exact ih _ hP s
  | scan g h1 _ ih =>
    rename_i cf lo n n' h2
    intro s
    rcases h1 (((s.kv cf).rangeFrom lo).map .ok) with h | ⟨h, _⟩
    · have := ih (((s.kv cf).rangeFrom lo).map .ok) s
      rw [h] at this
      exact this
    · cases h
  | write _ ih => exact fun s => ih _
  | readLock _ ih => exact fun s => ih _ _
  | writeLock _ ih => exact fun s => ih _ _
  | setIndexed _ ih => exact fun s => ih _

end Cut

/-- `k` and `k'` go through the items one by one and stop at an error. -/
structure Strict (st : Bool) {α β : Type} (k k' : DynIter β → Prog α) : Prop where
  all : ∀ l, Cut st (k l) (k' l)
  cut : ∀ A rest, k (A ++ dsErr :: rest) = k (A ++ [dsErr])
  stop : st = false → ∀ A rest, Cut st (k (A ++ [dsErr])) (k' (A ++ rest))

namespace Strict
variable {st : Bool} {α β γ : Type}

theorem bind {k k' : DynIter β → Prog α} (h : Strict st k k') {f f' : α → Prog γ} (hf : ∀ a, Cut st (f a) (f' a)) :
    Strict st (fun l => (k l).bind f) (fun l => (k' l).bind f') where
  all l := (h.all l).bind hf
  cut A rest := by simp only [h.cut A rest]
  stop hs A rest := (h.stop hs A rest).bind hf

theorem cut_forItems {f f' : β → Prog Batch} (hf : ∀ a, Cut st (f a) (f' a)) : ∀ l, Cut st (forItems f l) (forItems f' l)
  | [] => .done _
  | .ok a :: r => (hf a).bind (fun _ => (cut_forItems hf r).map _)
  | .error e :: _ => .done _

theorem cut_forAll {f f' : β → Prog Batch} (hf : ∀ a, Cut st (f a) (f' a)) : ∀ l, Cut st (forAll f l) (forAll f' l)
  | [] => .done _
  | a :: r => (hf a).bind (fun _ => (cut_forAll hf r).map _)

theorem forItems {f f' : β → Prog Batch} (hf : ∀ a, Cut st (f a) (f' a)) : Strict st (Prog.forItems f) (Prog.forItems f') where
  all := cut_forItems hf
  cut A rest := by
    induction A with
    | nil => rfl
    | cons a A ih =>
      cases a with
      | error e => rfl
      | ok a =>
        show Prog.bind (f a) (fun b => Prog.bind (Prog.forItems f (A ++ dsErr :: rest)) _) = _
        rw [ih]; rfl
  stop hs A rest := by
    induction A with
    | nil => exact .fail _ hs
    | cons a A ih =>
      cases a with
      | error e => exact .done _
      | ok a => exact (hf a).bind (fun _ => ih.map _)

theorem lift_collect_cons (a : β) (l : DynIter β) :
    lift (IndraDB.collect (.ok a :: l)) = (lift (IndraDB.collect l)).bind (fun l => .done (.ok (a :: l))) := by
  simp only [IndraDB.collect, lift]
  cases IndraDB.collect l <;> rfl

theorem collect : Strict st (fun l : DynIter β => lift (IndraDB.collect l)) (fun l => lift (IndraDB.collect l)) where
  all l := .done _
  cut A rest := by
    induction A with
    | nil => rfl
    | cons a A ih =>
      cases a with
      | error e => rfl
      | ok a =>
        simp only [List.cons_append, lift_collect_cons] at ih ⊢
        rw [ih]
  stop hs A rest := by
    induction A with
    | nil => exact .fail _ hs
    | cons a A ih =>
      cases a with
      | error e => exact .done _
      | ok a =>
        simp only [List.cons_append, lift_collect_cons] at ih ⊢
        exact ih.map _

end Strict
end Prog

/-! ### The code of the datastore, reading values with `X` and with `X.reading d` -/
namespace Rocks
open Prog
variable {st : Bool} {α β : Type}

/-- The error of the datastore. -/
local notation "dsErr" => (Except.error ioFault)

theorem mapItems_split {f f' : Bytes × Bytes → Res β} (hf : ∀ e, f e = f' e ∨ f e = dsErr) :
    ∀ t : DynIter (Bytes × Bytes), mapItems f t = mapItems f' t ∨
      ∃ A x R, t = A ++ .ok x :: R ∧ mapItems f A = mapItems f' A ∧ f x = dsErr
  | [] => .inl rfl
  | .error e :: r => by
    rcases mapItems_split hf r with h | ⟨A, x, R, rfl, h, h'⟩
    · left
      simp only [mapItems, List.map_cons] at h ⊢
      rw [h]; rfl
    · refine .inr ⟨.error e :: A, x, R, rfl, ?_, h'⟩
      simp only [mapItems, List.map_cons] at h ⊢
      rw [h]; rfl
  | .ok a :: r => by
    rcases hf a with ha | ha
    · rcases mapItems_split hf r with h | ⟨A, x, R, rfl, h, h'⟩
      · left
        simp only [mapItems, List.map_cons] at h ⊢
        rw [h]
        show f a :: _ = f' a :: _
        rw [ha]
      · refine .inr ⟨.ok a :: A, x, R, rfl, ?_, h'⟩
        simp only [mapItems, List.map_cons] at h ⊢
        rw [h]
        show f a :: _ = f' a :: _
        rw [ha]
    · exact .inr ⟨[], a, r, rfl, rfl, ha⟩

theorem mapItems_append (f : Bytes × Bytes → Res β) (A B : DynIter (Bytes × Bytes)) :
    mapItems f (A ++ B) = mapItems f A ++ mapItems f B := List.map_append

theorem takeWhile_append_self {γ : Type} {q : γ → Bool} : ∀ {A R : List γ} {l : List γ}, l.takeWhile q = A ++ R → ∀ x, q x = true →
    (A ++ [x]).takeWhile q = A ++ [x]
  | [], _, _, _, x, hx => by simp [List.takeWhile, hx]
  | a :: A, R, [], h, _, _ => by cases h
  | a :: A, R, b :: l, h, x, hx => by
    simp only [List.takeWhile] at h
    split at h
    · rename_i hb
      simp only [List.cons_append, List.cons.injEq] at h
      obtain ⟨rfl, h⟩ := h
      have := takeWhile_append_self h x hx
      simp only [List.cons_append, List.takeWhile, hb, this]
    · cases h

open Classical in
/-- Going through the entries with a prefix. -/
theorem cut_items {f f' : Bytes × Bytes → Res β} (hf : ∀ e, f e = f' e ∨ f e = dsErr) {k k' : DynIter β → Prog α}
    (h : Strict st k k') (cf : CF) (lo p : Bytes) :
    Cut st (.scan cf lo (fun l => k (mapItems f (takeWithPrefix l p))))
      (.scan cf lo (fun l => k' (mapItems f' (takeWithPrefix l p)))) := by
  have key : ∀ l : DynIter (Bytes × Bytes), ∃ g : DynIter (Bytes × Bytes),
      (g = l ∨ (st = true ∧ ∃ i, i < l.length ∧ g = l.take i ++ [dsErr])) ∧
      Cut st (k (mapItems f (takeWithPrefix l p))) (k' (mapItems f' (takeWithPrefix g p))) := by
    intro l
    rcases mapItems_split hf (takeWithPrefix l p) with e | ⟨A, x, R, e, hA, hx⟩
    · exact ⟨l, .inl rfl, by rw [e]; exact h.all _⟩
    · have e1 : mapItems f (takeWithPrefix l p) = mapItems f' A ++ dsErr :: mapItems f R := by
        rw [e, mapItems_append, hA]
        congr 1
        show f x :: _ = _
        rw [hx]; rfl
      cases hst : st with
      | false =>
        subst hst
        refine ⟨l, .inl rfl, ?_⟩
        rw [e1, h.cut, e, mapItems_append]
        exact h.stop rfl _ _
      | true =>
        subst hst
        have hl : l = A ++ (.ok x :: R ++ l.dropWhile (fun item => match item with
            | .ok e => p.isPrefixOf e.1
            | .error _ => true)) := by
          rw [← List.append_assoc, ← e]
          exact List.takeWhile_append_dropWhile.symm
        have ht : l.take A.length = A := by
          rw [hl]; simp
        refine ⟨l.take A.length ++ [dsErr], .inr ⟨rfl, A.length, ?_, rfl⟩, ?_⟩
        · rw [hl]; simp
        · have : takeWithPrefix (l.take A.length ++ [dsErr]) p = A ++ [dsErr] := by
            rw [ht]
            exact takeWhile_append_self e _ rfl
          rw [e1, h.cut, this, mapItems_append]
          exact h.all _
  exact .scan (fun l => choose (key l)) (fun l => (choose_spec (key l)).1) (fun l => (choose_spec (key l)).2)

variable {X : Cfg} {d : Bytes → Option Json}

section
variable (hd : X.Reader d)
include hd

theorem fromSlice_cut (b : Bytes) : fromSlice X b = fromSlice (X.reading d) b ∨ fromSlice X b = dsErr := by
  unfold fromSlice
  cases h : X.codec.dec b with
  | none => exact .inr rfl
  | some v =>
    left
    show _ = match d b with
      | some v => _
      | none => _
    rw [hd.same b v h]

theorem vpGet_cut (id : Uuid) (n : Identifier) : Cut st (vpGet X id n) (vpGet (X.reading d) id n) := by
  refine .get (fun r => ∃ b, r = some b ∧ fromSlice X b = dsErr) ?_ ?_
  · rintro r ⟨b, rfl, h⟩
    show (lift (fromSlice X b)).bind _ = _
    rw [h]; rfl
  · intro r hr
    cases r with
    | none => exact .refl _
    | some b =>
      rcases fromSlice_cut hd b with h | h
      · show Cut st ((lift (fromSlice X b)).bind _) ((lift (fromSlice (X.reading d) b)).bind _)
        rw [h]; exact .refl _
      · exact absurd ⟨b, rfl, h⟩ hr

theorem epGet_cut (e : Edge) (n : Identifier) : Cut st (epGet X e n) (epGet (X.reading d) e n) := by
  refine .get (fun r => ∃ b, r = some b ∧ fromSlice X b = dsErr) ?_ ?_
  · rintro r ⟨b, rfl, h⟩
    show (lift (fromSlice X b)).bind _ = _
    rw [h]; rfl
  · intro r hr
    cases r with
    | none => exact .refl _
    | some b =>
      rcases fromSlice_cut hd b with h | h
      · show Cut st ((lift (fromSlice X b)).bind _) ((lift (fromSlice (X.reading d) b)).bind _)
        rw [h]; exact .refl _
      · exact absurd ⟨b, rfl, h⟩ hr

omit hd in
theorem res_bind_cut {γ δ : Type} (r : Res γ) {f f' : γ → Res δ} (h : ∀ a, f a = f' a ∨ f a = dsErr) :
    (r >>= f) = (r >>= f') ∨ (r >>= f) = dsErr := by
  cases r with
  | ok a => exact h a
  | error e => exact .inl rfl

theorem vpItem_cut (o : Uuid) (e : Bytes × Bytes) : vpItem X o e = vpItem (X.reading d) o e ∨ vpItem X o e = dsErr := by
  refine res_bind_cut _ (fun a => res_bind_cut _ (fun _ => res_bind_cut _ (fun n => ?_)))
  rcases fromSlice_cut hd e.2 with h | h
  · left; rw [h]
  · right; rw [h]; rfl

theorem epItem_cut (o : Edge) (e : Bytes × Bytes) : epItem X o e = epItem (X.reading d) o e ∨ epItem X o e = dsErr := by
  refine res_bind_cut _ (fun a => res_bind_cut _ (fun _ => res_bind_cut _ (fun n => res_bind_cut _ (fun _ =>
    res_bind_cut _ (fun _ => res_bind_cut _ (fun _ => res_bind_cut _ (fun _ => ?_)))))))
  rcases fromSlice_cut hd e.2 with h | h
  · left; rw [h]
  · right; rw [h]; rfl

theorem vpIterate_cut (o : Uuid) {k k' : DynIter (Uuid × Identifier × Json) → Prog α} (h : Strict st k k') :
    Cut st ((vpIterate X o).bind k) ((vpIterate (X.reading d) o).bind k') :=
  cut_items (vpItem_cut hd o) h _ _ _

theorem epIterate_cut (o : Edge) {k k' : DynIter (Edge × Identifier × Json) → Prog α} (h : Strict st k k') :
    Cut st ((epIterate X o).bind k) ((epIterate (X.reading d) o).bind k') :=
  cut_items (epItem_cut hd o) h _ _ _

theorem vpDelete_cut (ix : SSet Identifier) (id : Uuid) (n : Identifier) :
    Cut st (vpDelete X ix id n) (vpDelete (X.reading d) ix id n) := by
  refine Cut.bind ?_ (fun _ => .refl _)
  split
  · exact (vpGet_cut hd id n).bind (fun _ => .refl _)
  · exact .refl _

theorem epDelete_cut (ix : SSet Identifier) (e : Edge) (n : Identifier) :
    Cut st (epDelete X ix e n) (epDelete (X.reading d) ix e n) := by
  refine Cut.bind ?_ (fun _ => .refl _)
  split
  · exact (epGet_cut hd e n).bind (fun _ => .refl _)
  · exact .refl _

theorem vpSet_cut (ix : SSet Identifier) (id : Uuid) (n : Identifier) (v : Json) :
    Cut st (vpSet X ix id n v) (vpSet (X.reading d) ix id n v) := by
  refine Cut.bind ?_ (fun _ => .refl _)
  split
  · exact vpDelete_cut hd ix id n
  · exact .refl _

theorem epSet_cut (ix : SSet Identifier) (e : Edge) (n : Identifier) (v : Json) :
    Cut st (epSet X ix e n v) (epSet (X.reading d) ix e n v) := by
  refine Cut.bind ?_ (fun _ => .refl _)
  split
  · exact epDelete_cut hd ix e n
  · exact .refl _

theorem edgeDelete_cut (ix : SSet Identifier) (e : Edge) : Cut st (edgeDelete X ix e) (edgeDelete (X.reading d) ix e) :=
  epIterate_cut hd e ((Strict.forItems (fun p : Edge × Identifier × Json => epDelete_cut hd ix p.1 p.2.1)).bind (fun _ => .refl _))

theorem vertexDelete_cut (ix : SSet Identifier) (id : Uuid) :
    Cut st (vertexDelete X ix id) (vertexDelete (X.reading d) ix id) :=
  vpIterate_cut hd id ((Strict.forItems (fun p : Uuid × Identifier × Json => vpDelete_cut hd ix p.1 p.2.1)).bind (fun _ =>
    .bind' _ (fun _ => (Strict.cut_forItems (fun e => .bind' _ (fun _ => edgeDelete_cut hd ix e)) _).bind (fun _ =>
    .bind' _ (fun _ => (Strict.cut_forItems (fun e => .bind' _ (fun _ => edgeDelete_cut hd ix e)) _).bind (fun _ => .refl _))))))

omit hd in
theorem locked_cut {f f' : SSet Identifier → Prog Batch} (h : ∀ ix, Cut st (f ix) (f' ix)) : Cut st (locked f) (locked f') :=
  .readLock (fun ix => (h ix).bind (fun _ => .refl _))

theorem deleteVertices_cut (vs : List Vertex) : Cut st (deleteVertices X vs) (deleteVertices (X.reading d) vs) :=
  locked_cut (fun ix => Strict.cut_forAll (fun v : Vertex => vertexDelete_cut hd ix v.id) _)

theorem deleteEdges_cut (es : List Edge) : Cut st (deleteEdges X es) (deleteEdges (X.reading d) es) :=
  locked_cut (fun ix => Strict.cut_forAll (fun e => .bind' _ (fun o => by
    cases o with
    | none => exact .refl _
    | some _ => exact edgeDelete_cut hd ix e)) _)

theorem deleteVertexProperties_cut (ps : List (Uuid × Identifier)) :
    Cut st (deleteVertexProperties X ps) (deleteVertexProperties (X.reading d) ps) :=
  locked_cut (fun ix => Strict.cut_forAll (fun p : Uuid × Identifier => vpDelete_cut hd ix p.1 p.2) _)

theorem deleteEdgeProperties_cut (ps : List (Edge × Identifier)) :
    Cut st (deleteEdgeProperties X ps) (deleteEdgeProperties (X.reading d) ps) :=
  locked_cut (fun ix => Strict.cut_forAll (fun p : Edge × Identifier => epDelete_cut hd ix p.1 p.2) _)

theorem bulkInsert_cut (items : List BulkInsertItem) : Cut st (bulkInsert X items) (bulkInsert (X.reading d) items) :=
  locked_cut (fun ix => Strict.cut_forAll (fun i => by
    cases i with
    | vertex v => exact .refl _
    | edge e => exact .refl _
    | vertexProperty id n v => exact vpSet_cut hd ix id n v
    | edgeProperty e n v => exact epSet_cut hd ix e n v) _)

theorem setVertexProperties_cut (ids : List Uuid) (n : Identifier) (v : Json) :
    Cut st (setVertexProperties X ids n v) (setVertexProperties (X.reading d) ids n v) :=
  locked_cut (fun ix => Strict.cut_forAll (fun id => vpSet_cut hd ix id n v) _)

theorem setEdgeProperties_cut (es : List Edge) (n : Identifier) (v : Json) :
    Cut st (setEdgeProperties X es n v) (setEdgeProperties (X.reading d) es n v) :=
  locked_cut (fun ix => Strict.cut_forAll (fun e => epSet_cut hd ix e n v) _)

theorem indexProperty_cut (O : IdentOrder) (n : Identifier) :
    Cut st (indexProperty X O n) (indexProperty (X.reading d) O n) := by
  refine .writeLock (fun ix => ?_)
  split
  · exact .refl _
  · exact .setIndexed (.bind' (vertexIterate X Uuid.nil) (fun _ => (Strict.cut_forItems (fun v : Vertex => (vpGet_cut hd v.id n).map _) _).bind
      (fun _ => .bind' (edgeIterateAll .edgeRanges) (fun _ => (Strict.cut_forItems (fun e => (epGet_cut hd e n).map _) _).bind
      (fun _ => .refl _)))))

theorem vpAll_cut (id : Uuid) : Cut st (propItems (vpIterate X id)) (propItems (vpIterate (X.reading d) id)) :=
  vpIterate_cut hd id (Strict.collect.bind (fun _ => .refl _))

theorem epAll_cut (e : Edge) : Cut st (propItems (epIterate X e)) (propItems (epIterate (X.reading d) e)) :=
  epIterate_cut hd e (Strict.collect.bind (fun _ => .refl _))

omit hd in
theorem ownerPropsP_cut {one one' : Identifier → Prog (Option Json)} {all all' : Prog (DynIter (Identifier × Json))}
    (h1 : ∀ n, Cut st (one n) (one' n)) (h2 : Cut st all all') (name : Option Identifier) :
    Cut st (ownerPropsP one all name) (ownerPropsP one' all' name) := by
  cases name with
  | none => exact h2.map _
  | some n => exact (h1 n).map _

theorem pipeEdgePropsP_cut (name : Option Identifier) :
    ∀ es, Cut st (pipeEdgePropsP X name es) (pipeEdgePropsP (X.reading d) name es)
  | [] => .refl _
  | e :: es => (ownerPropsP_cut (epGet_cut hd e) (epAll_cut hd e) name).bind (fun _ => (pipeEdgePropsP_cut name es).map _)

theorem pipeVertexPropsP_cut (name : Option Identifier) :
    ∀ vs, Cut st (pipeVertexPropsP X name vs) (pipeVertexPropsP (X.reading d) name vs)
  | [] => .refl _
  | v :: vs => (ownerPropsP_cut (vpGet_cut hd v.id) (vpAll_cut hd v.id) name).bind (fun _ => (pipeVertexPropsP_cut name vs).map _)

theorem stagePropertyP_cut (name : Option Identifier) (o : Output) :
    Cut st (stagePropertyP X name o) (stagePropertyP (X.reading d) name o) := by
  cases o with
  | edges es => exact (pipeEdgePropsP_cut hd name es).map _
  | vertices vs => exact (pipeVertexPropsP_cut hd name vs).map _
  | _ => exact .refl _

omit hd in
theorem runStageP_cut (inner : Query) {r r' : Prog (List Output)} (h : Cut st r r') {f f' : Output → Prog Output}
    (hf : ∀ o, Cut st (f o) (f' o)) : Cut st (runStageP inner r f) (runStageP inner r' f') := by
  refine h.bind (fun o => ?_)
  split
  · exact .refl _
  · exact (hf _).map _

omit hd in
theorem pipeVerticesP_reading (X : Cfg) (d : Bytes → Option Json) (dir : EdgeDirection) (l : UInt32) (t : Option Identifier) :
    ∀ vs es, pipeVerticesP X dir l t vs es = pipeVerticesP (X.reading d) dir l t vs es
  | [], _ => rfl
  | v :: vs, es => by
    unfold pipeVerticesP
    simp only [pipeVerticesP_reading X d dir l t vs]
    rfl

omit hd in
theorem stagePipeP_reading (X : Cfg) (d : Bytes → Option Json) (dir : EdgeDirection) (l : UInt32) (t : Option Identifier) (o : Output) :
    stagePipeP X dir l t o = stagePipeP (X.reading d) dir l t o := by
  cases o with
  | vertices vs => simp only [stagePipeP, pipeVerticesP_reading X d]
  | _ => rfl

theorem queryP_cut : ∀ (q : Query) (out : List Output), Cut st (queryP X q out) (queryP (X.reading d) q out) := by
  intro q
  induction q with
  | pipe inner dir l t ih => exact fun out => runStageP_cut _ (ih out) (fun _ => .of_eq (stagePipeP_reading X d dir l t _))
  | pipeProperty inner n ih => exact fun out => runStageP_cut _ (ih out) (fun _ => stagePropertyP_cut hd n _)
  | pipeWithPropertyPresence inner n ex ih => exact fun out => runStageP_cut _ (ih out) (fun _ => .of_eq rfl)
  | pipeWithPropertyValue inner n v ex ih => exact fun out => runStageP_cut _ (ih out) (fun _ => .of_eq rfl)
  | incl inner ih => exact fun out => (ih out).map _
  | count inner ih =>
    intro out
    cases inner with
    | allVertex => exact .of_eq rfl
    | allEdge => exact .of_eq rfl
    | _ => exact runStageP_cut _ (ih out) (fun _ => .refl _)
  | _ => exact fun out => .of_eq rfl

theorem lastOutputP_cut (q : Query) : Cut st (lastOutputP X q) (lastOutputP (X.reading d) q) := (queryP_cut hd q []).map _

theorem deleteP_cut (q : Query) : Cut st (deleteP X q) (deleteP (X.reading d) q) := by
  refine (lastOutputP_cut hd q).bind (fun o => ?_)
  cases o with
  | vertices vs => exact deleteVertices_cut hd vs
  | edges es => exact deleteEdges_cut hd es
  | vertexProperties l => exact deleteVertexProperties_cut hd _
  | edgeProperties l => exact deleteEdgeProperties_cut hd _
  | count n => exact .refl _

theorem setPropertiesP_cut (q : Query) (n : Identifier) (v : Json) :
    Cut st (setPropertiesP X q n v) (setPropertiesP (X.reading d) q n v) := by
  refine (lastOutputP_cut hd q).bind (fun o => ?_)
  cases o with
  | vertices vs => exact setVertexProperties_cut hd _ _ _
  | edges es => exact setEdgeProperties_cut hd _ _ _
  | _ => exact .refl _

/-- Calls of the library. -/
theorem callProg_cut (O : IdentOrder) (op : Op) : Cut st (callProg X O op) (callProg (X.reading d) O op) := by
  cases op with
  | get q => exact (queryP_cut hd q []).map _
  | delete q => exact (deleteP_cut hd q).map _
  | setProperties q n v => exact (setPropertiesP_cut hd q n v).map _
  | bulkInsert items => exact (bulkInsert_cut hd items).map _
  | indexProperty n => exact (indexProperty_cut hd O n).map _
  | _ => exact .of_eq rfl

theorem txnProg_cut (O : IdentOrder) (w : TxnCall) : Cut st (txnProg X O w) (txnProg (X.reading d) O w) := by
  cases w with
  | deleteVertices vs => exact (deleteVertices_cut hd vs).map _
  | deleteEdges es => exact (deleteEdges_cut hd es).map _
  | deleteVertexProperties ps => exact (deleteVertexProperties_cut hd ps).map _
  | deleteEdgeProperties ps => exact (deleteEdgeProperties_cut hd ps).map _
  | bulkInsert items => exact (bulkInsert_cut hd items).map _
  | indexProperty n => exact (indexProperty_cut hd O n).map _
  | setVertexProperties ids n v => exact (setVertexProperties_cut hd ids n v).map _
  | setEdgeProperties es n v => exact (setEdgeProperties_cut hd es n v).map _
  | _ => exact .of_eq rfl

/-- All calls. -/
theorem accessProg_cut (O : IdentOrder) (a : Access) : Cut st (accessProg X O a) (accessProg (X.reading d) O a) := by
  cases a with
  | lib op => exact (callProg_cut hd O op).map _
  | vertexProperty v n => exact (vpGet_cut hd v.id n).map _
  | vertexProperties v => exact (vpAll_cut hd v.id).map _
  | edgeProperty e n => exact (epGet_cut hd e n).map _
  | edgeProperties e => exact (epAll_cut hd e).map _
  | write w => exact (txnProg_cut hd O w).map _
  | _ => exact .of_eq rfl

end
end Rocks
end IndraDB
