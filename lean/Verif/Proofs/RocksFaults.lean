import Verif.Model.RocksFaults
import Verif.Spec.Faults
import Verif.Proofs.RocksConc
/-
What I/O errors do to the calls: a relation between the outcomes with and without.
-/
set_option linter.unusedSimpArgs false
namespace IndraDB

/-- `l'` is `l`, or agrees with it up to an I/O error. -/
inductive Upto {α : Type} : DynIter α → DynIter α → Prop
  | nil : Upto [] []
  | cons (x : Res α) {l' l : DynIter α} : Upto l' l → Upto (x :: l') (x :: l)
  | cut (l : DynIter α) : Upto [.error ioFault] l

namespace Upto
variable {α β : Type}

theorem refl : ∀ l : DynIter α, Upto l l
  | [] => .nil
  | x :: l => .cons x (refl l)

theorem fails (i : Nat) (l : List α) : Upto ((l.take i).map .ok ++ [.error ioFault]) (l.map .ok) := by
  induction l generalizing i with
  | nil => simp; exact .cut _
  | cons a l ih =>
    cases i with
    | zero => simp; exact .cut _
    | succ i => simp only [List.take_succ_cons, List.map_cons, List.cons_append]; exact .cons _ (ih i)

theorem map {f : Res α → Res β} (hf : f (.error ioFault) = .error ioFault) {l' l : DynIter α} (h : Upto l' l) :
    Upto (l'.map f) (l.map f) := by
  induction h with
  | nil => exact .nil
  | cons x _ ih => exact .cons _ ih
  | cut l => simp only [List.map_cons, List.map_nil, hf]; exact .cut _

theorem takeWhile {f : Res α → Bool} (hf : f (.error ioFault) = true) {l' l : DynIter α} (h : Upto l' l) :
    Upto (l'.takeWhile f) (l.takeWhile f) := by
  induction h with
  | nil => exact .nil
  | cons x _ ih =>
    rw [List.takeWhile_cons, List.takeWhile_cons]
    split
    · exact .cons _ ih
    · exact .nil
  | cut l => rw [List.takeWhile_cons, if_pos hf]; exact .cut _

theorem filter {f : Res α → Bool} (hf : f (.error ioFault) = true) {l' l : DynIter α} (h : Upto l' l) :
    Upto (l'.filter f) (l.filter f) := by
  induction h with
  | nil => exact .nil
  | cons x _ ih =>
    rw [List.filter_cons, List.filter_cons]
    split
    · exact .cons _ ih
    · exact ih
  | cut l => rw [List.filter_cons, if_pos hf]; exact .cut _

theorem take {l' l : DynIter α} (h : Upto l' l) (n : Nat) : Upto (l'.take n) (l.take n) := by
  induction h generalizing n with
  | nil => simp; exact .nil
  | cons x _ ih =>
    cases n with
    | zero => simp; exact .nil
    | succ n => simp; exact .cons _ (ih n)
  | cut l =>
    cases n with
    | zero => simp; exact .nil
    | succ n => simp; exact .cut _

theorem collect {l' l : DynIter α} (h : Upto l' l) : IndraDB.collect l' = IndraDB.collect l ∨ IndraDB.collect l' = .error ioFault := by
  induction h with
  | nil => exact Or.inl rfl
  | cons x _ ih =>
    cases x with
    | ok a =>
      rcases ih with ih | ih
      · left; simp only [IndraDB.collect, ih]
      · right; simp only [IndraDB.collect, ih]
    | error f => left; rfl
  | cut l => right; rfl

end Upto

/-- The reading program `p'`, with I/O errors, does nothing, and it fails with an I/O error or has an outcome like `p`
without. -/
def Rel {α : Type} (R : α → α → Prop) (p' p : Prog α) : Prop :=
  ∀ s s' r', p'.Runs s s' r' → s' = s ∧ (r' = .error ioFault ∨ (∃ f, r' = .error f ∧ p.run s = (s, .error f)) ∨
    ∃ a' a, r' = .ok a' ∧ p.run s = (s, .ok a) ∧ R a' a)

/-- The program with I/O errors does what it does without, or fails and does nothing. -/
def SafeRel {α : Type} (p' p : Prog α) : Prop :=
  ∀ s s' r', p'.Runs s s' r' → (s', r') = p.run s ∨ (s' = s ∧ r' = .error ioFault)

/-- The same for one program. -/
def Safe {α : Type} (p : Prog α) : Prop := SafeRel p p

namespace Prog
variable {α β : Type}

theorem Runs.of_bind {p : Prog α} {f : α → Prog β} {s s' : Rocks} {r : Res β} (h : (p >>= f).Runs s s' r) :
    (∃ s1 a, p.Runs s s1 (.ok a) ∧ (f a).Runs s1 s' r) ∨ ∃ e, r = .error e ∧ p.Runs s s' (.error e) := by
  replace h : (p.bind f).Runs s s' r := h
  induction p generalizing s with
  | done x =>
    cases x with
    | ok a => exact Or.inl ⟨s, a, .done _ _, h⟩
    | error e =>
      have h : (Prog.done (.error e) : Prog β).Runs s s' r := h
      cases h
      exact Or.inr ⟨e, rfl, .done _ _⟩
  | get cf k n ih =>
    cases h with
    | get h =>
      rcases ih _ h with ⟨s1, a, h1, h2⟩ | ⟨e, h1, h2⟩
      · exact Or.inl ⟨s1, a, .get h1, h2⟩
      · exact Or.inr ⟨e, h1, .get h2⟩
    | getFails => exact Or.inr ⟨_, rfl, .getFails _ _ _ _⟩
  | scan cf k n ih =>
    cases h with
    | scan h =>
      rcases ih _ h with ⟨s1, a, h1, h2⟩ | ⟨e, h1, h2⟩
      · exact Or.inl ⟨s1, a, .scan h1, h2⟩
      · exact Or.inr ⟨e, h1, .scan h2⟩
    | scanFails i h =>
      rcases ih _ h with ⟨s1, a, h1, h2⟩ | ⟨e, h1, h2⟩
      · exact Or.inl ⟨s1, a, .scanFails i h1, h2⟩
      · exact Or.inr ⟨e, h1, .scanFails i h2⟩
  | write b n ih =>
    cases h with
    | write h =>
      rcases ih _ h with ⟨s1, a, h1, h2⟩ | ⟨e, h1, h2⟩
      · exact Or.inl ⟨s1, a, .write h1, h2⟩
      · exact Or.inr ⟨e, h1, .write h2⟩
    | writeFails => exact Or.inr ⟨_, rfl, .writeFails _ _ _⟩
  | readLock held n ih =>
    cases h with
    | readLock h =>
      rcases ih _ h with ⟨s1, a, h1, h2⟩ | ⟨e, h1, h2⟩
      · exact Or.inl ⟨s1, a, .readLock h1, h2⟩
      · exact Or.inr ⟨e, h1, .readLock h2⟩
  | writeLock n ih =>
    cases h with
    | writeLock h =>
      rcases ih _ h with ⟨s1, a, h1, h2⟩ | ⟨e, h1, h2⟩
      · exact Or.inl ⟨s1, a, .writeLock h1, h2⟩
      · exact Or.inr ⟨e, h1, .writeLock h2⟩
  | setIndexed ix n ih =>
    cases h with
    | setIndexed h =>
      rcases ih _ h with ⟨s1, a, h1, h2⟩ | ⟨e, h1, h2⟩
      · exact Or.inl ⟨s1, a, .setIndexed h1, h2⟩
      · exact Or.inr ⟨e, h1, .setIndexed h2⟩

end Prog

namespace Rel
variable {α β : Type} {R : α → α → Prop} {Q : β → β → Prop}

theorem lift (r : Res α) : Rel Eq (Prog.lift r) (Prog.lift r) := by
  intro s s' r' h
  cases h
  refine ⟨rfl, ?_⟩
  cases r with
  | ok a => exact Or.inr (Or.inr ⟨a, a, rfl, rfl, rfl⟩)
  | error e => exact Or.inr (Or.inl ⟨e, rfl, rfl⟩)

theorem pure {a' a : α} (hR : R a' a) : Rel R (Pure.pure a' : Prog α) (Pure.pure a) := by
  intro s s' r' h
  cases h
  exact ⟨rfl, Or.inr (Or.inr ⟨a', a, rfl, rfl, hR⟩)⟩

theorem fault (p : Prog α) : Rel R (Prog.lift (.error ioFault)) p := by
  intro s s' r' h
  cases h
  exact ⟨rfl, Or.inl rfl⟩

theorem collect {l' l : DynIter α} (h : Upto l' l) :
    Rel Eq (Prog.lift (IndraDB.collect l')) (Prog.lift (IndraDB.collect l)) := by
  rcases h.collect with h | h
  · rw [h]; exact lift _
  · rw [h]; exact fault _

theorem bind {p' p : Prog α} {f' f : α → Prog β} (h : Rel R p' p) (hf : ∀ a' a, R a' a → Rel Q (f' a') (f a)) :
    Rel Q (p' >>= f') (p >>= f) := by
  intro s s' r' hr
  rcases hr.of_bind with ⟨s1, a, h1, h2⟩ | ⟨e, rfl, h1⟩
  · obtain ⟨rfl, hres⟩ := h _ _ _ h1
    rcases hres with hres | ⟨e, hres, _⟩ | ⟨a', b, e1, e2, hR⟩
    · cases hres
    · cases hres
    · cases e1
      have : (p >>= f).run s1 = (f b).run s1 := Prog.run_bind_ok e2
      obtain ⟨rfl, k⟩ := hf _ _ hR _ _ _ h2
      rw [this]
      exact ⟨rfl, k⟩
  · obtain ⟨rfl, hres⟩ := h _ _ _ h1
    rcases hres with hres | ⟨e', hres, he⟩ | ⟨a', b, e1, _⟩
    · cases hres
      exact ⟨rfl, Or.inl rfl⟩
    · cases hres
      exact ⟨rfl, Or.inr (Or.inl ⟨e, rfl, Prog.run_bind_error he⟩)⟩
    · cases e1

theorem bindEq {p' p : Prog α} {f' f : α → Prog β} (h : Rel Eq p' p) (hf : ∀ a, Rel Q (f' a) (f a)) :
    Rel Q (p' >>= f') (p >>= f) := h.bind (fun a' a e => by subst e; exact hf a')

theorem getCf (cf : CF) (k : Bytes) : Rel Eq (Prog.getCf cf k) (Prog.getCf cf k) := by
  intro s s' r' h
  cases h with
  | get h => cases h; exact ⟨rfl, Or.inr (Or.inr ⟨_, _, rfl, rfl, rfl⟩)⟩
  | getFails => exact ⟨rfl, Or.inl rfl⟩

theorem iteratorCf (cf : CF) (k : Bytes) : Rel Upto (Prog.iteratorCf cf k) (Prog.iteratorCf cf k) := by
  intro s s' r' h
  cases h with
  | scan h => cases h; exact ⟨rfl, Or.inr (Or.inr ⟨_, _, rfl, rfl, Upto.refl _⟩)⟩
  | scanFails i h => cases h; exact ⟨rfl, Or.inr (Or.inr ⟨_, _, rfl, rfl, Upto.fails i _⟩)⟩

theorem readLock {b : Bool} {f' f : SSet Identifier → Prog α} (h : ∀ ix, Rel R (f' ix) (f ix)) :
    Rel R (.readLock b f') (.readLock b f) := by
  intro s s' r' hr
  cases hr with
  | readLock hr => exact h _ _ _ _ hr

theorem forAll {f : α → Prog Batch} (h : ∀ a, Rel Eq (f a) (f a)) (l : List α) :
    Rel Eq (Prog.forAll f l) (Prog.forAll f l) := by
  induction l with
  | nil => exact pure rfl
  | cons a l ih => exact (h a).bindEq (fun _ => ih.bindEq (fun _ => pure rfl))

theorem forItems {f : α → Prog Batch} (h : ∀ a, Rel Eq (f a) (f a)) {l' l : DynIter α} (hl : Upto l' l) :
    Rel Eq (Prog.forItems f l') (Prog.forItems f l) := by
  induction hl with
  | nil => exact pure rfl
  | cons x _ ih =>
    cases x with
    | ok a => exact (h a).bindEq (fun _ => ih.bind (fun _ _ e => pure (by rw [e])))
    | error e => exact lift _
  | cut l => exact fault _

/-- Lookups in an iterator that may fail, if the lookups themselves only fail by I/O errors. -/
theorem filterMapItems {f : α → Prog (Option β)} {g : Rocks → α → Option β} (h : ∀ a, Rel Eq (f a) (f a))
    (hg : ∀ a s, (f a).run s = (s, .ok (g s a))) {l' l : DynIter α} (hl : Upto l' l) :
    Rel Upto (Prog.filterMapItems f l') (Prog.filterMapItems f l) := by
  have total : ∀ (l : DynIter α) s, ∃ x, (Prog.filterMapItems f l).run s = (s, .ok x) := by
    intro l
    induction l with
    | nil => exact fun s => ⟨_, rfl⟩
    | cons x l ih =>
      intro s
      obtain ⟨y, hy⟩ := ih s
      cases x with
      | ok a =>
        exact ⟨match g s a with | some b => .ok b :: y | none => y,
          (Prog.run_bind_ok (hg a s)).trans ((Prog.run_bind_ok hy).trans rfl)⟩
      | error e => exact ⟨_, (Prog.run_bind_ok hy).trans rfl⟩
  induction hl with
  | nil => exact pure .nil
  | cons x _ ih =>
    cases x with
    | ok a =>
      refine (h a).bindEq (fun b => ih.bind (fun _ _ e => pure ?_))
      cases b with
      | some b => exact .cons _ e
      | none => exact e
    | error e => exact ih.bind (fun _ _ e => pure (.cons _ e))
  | cut l =>
    intro s s' r' hr
    cases hr
    obtain ⟨x, hx⟩ := total l s
    exact ⟨rfl, Or.inr (Or.inr ⟨_, _, rfl, hx, .cut _⟩)⟩

/-- Lookups for a list. -/
theorem lookupItems {f : α → Prog (Option β)} (h : ∀ a, Rel Eq (f a) (f a)) (l : List α) :
    Rel Eq (Rocks.lookupItems f l) (Rocks.lookupItems f l) := by
  unfold Rocks.lookupItems
  induction l with
  | nil => exact pure rfl
  | cons a l ih => exact (h a).bindEq (fun _ => ih.bindEq (fun _ => pure rfl))

end Rel

namespace Safe
variable {α β : Type}

theorem of_rel {p : Prog α} (h : Rel Eq p p) : Safe p := by
  intro s s' r' hr
  obtain ⟨rfl, hres⟩ := h _ _ _ hr
  rcases hres with rfl | ⟨f, rfl, he⟩ | ⟨a', a, rfl, he, rfl⟩
  · exact Or.inr ⟨rfl, rfl⟩
  · exact Or.inl he.symm
  · exact Or.inl he.symm

theorem bindRel {R : α → α → Prop} {p' p : Prog α} {f' f : α → Prog β} (h : Rel R p' p)
    (hf : ∀ a' a, R a' a → SafeRel (f' a') (f a)) : SafeRel (p' >>= f') (p >>= f) := by
  intro s s' r' hr
  rcases hr.of_bind with ⟨s1, a, h1, h2⟩ | ⟨e, rfl, h1⟩
  · obtain ⟨rfl, hres⟩ := h _ _ _ h1
    rcases hres with hres | ⟨e, hres, _⟩ | ⟨a', b, e1, e2, hR⟩
    · cases hres
    · cases hres
    · cases e1
      rw [Prog.run_bind_ok e2]
      exact hf _ _ hR _ _ _ h2
  · obtain ⟨rfl, hres⟩ := h _ _ _ h1
    rcases hres with hres | ⟨e', hres, he⟩ | ⟨a', b, e1, _⟩
    · cases hres
      exact Or.inr ⟨rfl, rfl⟩
    · cases hres
      exact Or.inl (Prog.run_bind_error he).symm
    · cases e1

theorem bind {p : Prog α} {f : α → Prog β} (h : Rel Eq p p) (hf : ∀ a, Safe (f a)) : Safe (p >>= f) :=
  bindRel h (fun a' a e => by subst e; exact hf a')

theorem map {p : Prog α} (h : Safe p) (f : α → β) : Safe (p >>= fun a => (Pure.pure (f a) : Prog β)) := by
  intro s s' r' hr
  rcases hr.of_bind with ⟨s1, a, h1, h2⟩ | ⟨e, rfl, h1⟩
  · cases h2
    rcases h _ _ _ h1 with h1 | ⟨_, h1⟩
    · exact Or.inl ((Prog.run_bind_ok h1.symm).trans (Prog.run_pure (f a) _)).symm
    · cases h1
  · rcases h _ _ _ h1 with h1 | h1
    · exact Or.inl (Prog.run_bind_error h1.symm).symm
    · exact Or.inr ⟨h1.1, by injection h1.2 with h; rw [h]⟩

theorem writeBatch (b : Batch) : Safe (Prog.writeBatch b) := by
  intro s s' r' h
  cases h with
  | write h => cases h; exact Or.inl rfl
  | writeFails => exact Or.inr ⟨rfl, rfl⟩

theorem readLock {b : Bool} {f : SSet Identifier → Prog α} (h : ∀ ix, Safe (f ix)) : Safe (.readLock b f) := by
  intro s s' r' hr
  cases hr with
  | readLock hr => exact h _ _ _ _ hr

end Safe

/-! ### The programs of the datastore -/

namespace Rocks
variable {X : Cfg}
open Rel

theorem fa_vertexExists (id : Uuid) : Rel Eq (vertexExists X id) (vertexExists X id) := (getCf _ _).bindEq (fun _ => pure rfl)
theorem fa_vertexGet (id : Uuid) : Rel Eq (vertexGet X id) (vertexGet X id) := (getCf _ _).bindEq (fun r => by
  cases r with
  | none => exact pure rfl
  | some b => exact (lift _).bindEq (fun _ => pure rfl))
theorem fa_edgeContains (cf : CF) (e : Edge) : Rel Eq (edgeContains X cf e) (edgeContains X cf e) :=
  (getCf _ _).bindEq (fun _ => pure rfl)
theorem fa_vpGet (id : Uuid) (n : Identifier) : Rel Eq (vpGet X id n) (vpGet X id n) := (getCf _ _).bindEq (fun r => by
  cases r with
  | none => exact pure rfl
  | some b => exact (lift _).bindEq (fun _ => pure rfl))
theorem fa_epGet (e : Edge) (n : Identifier) : Rel Eq (epGet X e n) (epGet X e n) := (getCf _ _).bindEq (fun r => by
  cases r with
  | none => exact pure rfl
  | some b => exact (lift _).bindEq (fun _ => pure rfl))

theorem upto_mapItems {β : Type} (f : Bytes × Bytes → Res β) {l' l : DynIter (Bytes × Bytes)} (h : Upto l' l) :
    Upto (mapItems f l') (mapItems f l) := h.map rfl
theorem upto_takeWithPrefix {l' l : DynIter (Bytes × Bytes)} (h : Upto l' l) (p : Bytes) :
    Upto (takeWithPrefix l' p) (takeWithPrefix l p) := h.takeWhile rfl

theorem fa_vertexIterate (id : Uuid) : Rel Upto (vertexIterate X id) (vertexIterate X id) :=
  (iteratorCf _ _).bind (fun _ _ h => pure (upto_mapItems _ h))
theorem fa_edgeIterateRoot (cf : CF) (id : Uuid) : Rel Upto (edgeIterateRoot X cf id) (edgeIterateRoot X cf id) :=
  (iteratorCf _ _).bind (fun _ _ h => pure (upto_mapItems _ (upto_takeWithPrefix h _)))
theorem fa_edgeIterateRange (cf : CF) (e : Edge) : Rel Upto (edgeIterateRange X cf e) (edgeIterateRange X cf e) :=
  (iteratorCf _ _).bind (fun _ _ h => pure (upto_mapItems _ h))
theorem fa_edgeIterateAll (cf : CF) : Rel Upto (edgeIterateAll cf) (edgeIterateAll cf) :=
  (iteratorCf _ _).bind (fun _ _ h => pure (upto_mapItems _ h))
theorem fa_vpvIterate (p : List Component) : Rel Upto (vpvIterate X p) (vpvIterate X p) :=
  (iteratorCf _ _).bind (fun _ _ h => pure (upto_mapItems _ (upto_takeWithPrefix h _)))
theorem fa_epvIterate (p : List Component) : Rel Upto (epvIterate X p) (epvIterate X p) :=
  (iteratorCf _ _).bind (fun _ _ h => pure (upto_mapItems _ (upto_takeWithPrefix h _)))
theorem fa_vpIterate (id : Uuid) : Rel Upto (vpIterate X id) (vpIterate X id) :=
  (iteratorCf _ _).bind (fun _ _ h => pure (upto_mapItems _ (upto_takeWithPrefix h _)))
theorem fa_epIterate (e : Edge) : Rel Upto (epIterate X e) (epIterate X e) :=
  (iteratorCf _ _).bind (fun _ _ h => pure (upto_mapItems _ (upto_takeWithPrefix h _)))

theorem fa_vpDelete (ix : SSet Identifier) (id : Uuid) (n : Identifier) : Rel Eq (vpDelete X ix id n) (vpDelete X ix id n) := by
  refine bindEq ?_ (fun _ => pure rfl)
  split
  · exact (fa_vpGet _ _).bindEq (fun r => by cases r <;> exact pure rfl)
  · exact pure rfl
theorem fa_vpSet (ix : SSet Identifier) (id : Uuid) (n : Identifier) (v : Json) : Rel Eq (vpSet X ix id n v) (vpSet X ix id n v) := by
  refine bindEq ?_ (fun _ => pure rfl)
  split
  · exact fa_vpDelete _ _ _
  · exact pure rfl
theorem fa_epDelete (ix : SSet Identifier) (e : Edge) (n : Identifier) : Rel Eq (epDelete X ix e n) (epDelete X ix e n) := by
  refine bindEq ?_ (fun _ => pure rfl)
  split
  · exact (fa_epGet _ _).bindEq (fun r => by cases r <;> exact pure rfl)
  · exact pure rfl
theorem fa_epSet (ix : SSet Identifier) (e : Edge) (n : Identifier) (v : Json) : Rel Eq (epSet X ix e n v) (epSet X ix e n v) := by
  refine bindEq ?_ (fun _ => pure rfl)
  split
  · exact fa_epDelete _ _ _
  · exact pure rfl
theorem fa_edgeSet (e : Edge) : Rel Eq (edgeSet X e) (edgeSet X e) := (fa_edgeContains _ _).bindEq (fun _ => pure rfl)
theorem fa_edgeDelete (ix : SSet Identifier) (e : Edge) : Rel Eq (edgeDelete X ix e) (edgeDelete X ix e) :=
  (fa_epIterate _).bind (fun _ _ h => bindEq (forItems (fun _ => fa_epDelete _ _ _) h) (fun _ => pure rfl))
theorem fa_vertexDelete (ix : SSet Identifier) (id : Uuid) : Rel Eq (vertexDelete X ix id) (vertexDelete X ix id) :=
  (fa_vpIterate _).bind (fun _ _ h => bindEq (forItems (fun _ => fa_vpDelete _ _ _) h) (fun _ =>
    (fa_edgeIterateRoot _ _).bind (fun _ _ h =>
      bindEq (forItems (fun _ => (lift _).bindEq (fun _ => fa_edgeDelete _ _)) h) (fun _ =>
    (fa_edgeIterateRoot _ _).bind (fun _ _ h =>
      bindEq (forItems (fun _ => (lift _).bindEq (fun _ => fa_edgeDelete _ _)) h) (fun _ => pure rfl))))))

/-! ### Queries -/

theorem fa_existingIds {l' l : DynIter Uuid} (h : Upto l' l) : Rel Upto (existingIds X l') (existingIds X l) :=
  filterMapItems (g := fun s id => if ((s.kv .vertices).get (vertexKey X id)).isSome then some id else none)
    (fun _ => (fa_vertexExists _).bindEq (fun _ => pure rfl)) (fun _ _ => rfl) h

theorem fa_specificVertices (ids : List Uuid) : Rel Eq (specificVerticesP X ids) (specificVerticesP X ids) :=
  Rel.lookupItems (fun _ => (fa_vertexGet _).bindEq (fun _ => pure rfl)) _
theorem fa_specificEdges (es : List Edge) : Rel Eq (specificEdgesP X es) (specificEdgesP X es) :=
  Rel.lookupItems (fun _ => (fa_edgeContains _ _).bindEq (fun _ => pure rfl)) _

/-- An index listing: both absent, or the same up to an I/O error. -/
def UptoOpt {α : Type} (o' o : Option (DynIter α)) : Prop := (o' = none ∧ o = none) ∨ ∃ l' l, o' = some l' ∧ o = some l ∧ Upto l' l

theorem fa_ifIndexed {α : Type} (n : Identifier) {p : Prog (DynIter α)} (h : Rel Upto p p) :
    Rel UptoOpt (ifIndexed n p) (ifIndexed n p) := by
  refine readLock (fun ix => ?_)
  show Rel UptoOpt (if _ then _ else _) (if _ then _ else _)
  split
  · exact h.bind (fun _ _ h => pure (Or.inr ⟨_, _, rfl, rfl, h⟩))
  · exact pure (Or.inl ⟨rfl, rfl⟩)

theorem fa_indexed {α : Type} {p : Prog (Option (DynIter α))} (h : Rel UptoOpt p p) : Rel Eq (indexedP p) (indexedP p) := by
  refine h.bind (fun o' o h => ?_)
  rcases h with ⟨rfl, rfl⟩ | ⟨l', l, rfl, rfl, h⟩
  · exact lift _
  · exact Rel.collect h

theorem fa_vertexIdsWithProperty (n : Identifier) : Rel UptoOpt (vertexIdsWithPropertyP X n) (vertexIdsWithPropertyP X n) :=
  fa_ifIndexed n ((fa_vpvIterate _).bind (fun _ _ h => fa_existingIds h))
theorem fa_vertexIdsWithPropertyValue (n : Identifier) (v : Json) :
    Rel UptoOpt (vertexIdsWithPropertyValueP X n v) (vertexIdsWithPropertyValueP X n v) :=
  fa_ifIndexed n ((fa_vpvIterate _).bind (fun _ _ h => fa_existingIds h))
theorem fa_edgesWithProperty (n : Identifier) : Rel UptoOpt (edgesWithPropertyP X n) (edgesWithPropertyP X n) :=
  fa_ifIndexed n (fa_epvIterate _)
theorem fa_edgesWithPropertyValue (n : Identifier) (v : Json) :
    Rel UptoOpt (edgesWithPropertyValueP X n v) (edgesWithPropertyValueP X n v) := fa_ifIndexed n (fa_epvIterate _)

theorem upto_filterT {α : Type} (ty : α → Identifier) (t : Option Identifier) {l' l : DynIter α} (h : Upto l' l) :
    Upto (filterT ty t l') (filterT ty t l) := by
  cases t with
  | none => exact h
  | some t => exact h.filter rfl

theorem fa_pipeVertexIter (d : EdgeDirection) (t : Option Identifier) (v : Vertex) :
    Rel Upto (pipeVertexIterP X d t v) (pipeVertexIterP X d t v) := by
  cases d with
  | outbound => exact (fa_edgeIterateRange _ _).bind (fun _ _ h => pure (upto_filterT _ _ (h.takeWhile rfl)))
  | inbound => exact (fa_edgeIterateRange _ _).bind (fun _ _ h => pure ((upto_filterT _ _ (h.takeWhile rfl)).map rfl))

theorem fa_pipeVertices (d : EdgeDirection) (limit : UInt32) (t : Option Identifier) (vs : List Vertex) :
    ∀ es, Rel Eq (pipeVerticesP X d limit t vs es) (pipeVerticesP X d limit t vs es) := by
  induction vs with
  | nil => exact fun es => pure rfl
  | cons v vs ih =>
    intro es
    refine (fa_pipeVertexIter d t v).bind (fun l' l h => bindEq ?_ (fun es' => ?_))
    · by_cases hl : limit.toNat < es.length
      · simp only [if_pos hl]; exact lift _
      · simp only [if_neg hl]
        rcases (h.take (limit.toNat - es.length)).collect with e | e
        · rw [e]; exact lift _
        · rw [e]; exact fault _
    · show Rel Eq (if _ then _ else _) (if _ then _ else _)
      split
      · exact pure rfl
      · exact ih _

theorem fa_ownerProps {one : Identifier → Prog (Option Json)} {all : Prog (DynIter (Identifier × Json))}
    (h1 : ∀ n, Rel Eq (one n) (one n)) (h2 : Rel Eq all all) (name : Option Identifier) :
    Rel Eq (ownerPropsP one all name) (ownerPropsP one all name) := by
  cases name with
  | none => exact h2.bindEq (fun _ => (lift _).bindEq (fun _ => pure rfl))
  | some n => exact (h1 n).bindEq (fun r => by cases r <;> exact pure rfl)

theorem fa_propItems {ω : Type} {p : Prog (DynIter (ω × Identifier × Json))} (h : Rel Upto p p) :
    Rel Eq (propItems p) (propItems p) :=
  h.bind (fun _ _ h => (Rel.collect h).bindEq (fun _ => pure rfl))

theorem fa_pipeEdgeProps (name : Option Identifier) (es : List Edge) : Rel Eq (pipeEdgePropsP X name es) (pipeEdgePropsP X name es) := by
  induction es with
  | nil => exact pure rfl
  | cons e es ih =>
    exact (fa_ownerProps (fun n => fa_epGet e n) (fa_propItems (fa_epIterate e)) name).bindEq
      (fun _ => ih.bindEq (fun _ => pure rfl))

theorem fa_pipeVertexProps (name : Option Identifier) (vs : List Vertex) :
    Rel Eq (pipeVertexPropsP X name vs) (pipeVertexPropsP X name vs) := by
  induction vs with
  | nil => exact pure rfl
  | cons v vs ih =>
    exact (fa_ownerProps (fun n => fa_vpGet v.id n) (fa_propItems (fa_vpIterate v.id)) name).bindEq
      (fun _ => ih.bindEq (fun _ => pure rfl))

theorem fa_stagePipe (d : EdgeDirection) (limit : UInt32) (t : Option Identifier) (o : Output) :
    Rel Eq (stagePipeP X d limit t o) (stagePipeP X d limit t o) := by
  cases o with
  | edges es => exact (fa_specificVertices _).bindEq (fun _ => (lift _).bindEq (fun _ => pure rfl))
  | vertices vs => exact (fa_pipeVertices d limit t vs []).bindEq (fun _ => pure rfl)
  | _ => exact lift _

theorem fa_stageProperty (name : Option Identifier) (o : Output) : Rel Eq (stagePropertyP X name o) (stagePropertyP X name o) := by
  cases o with
  | edges es => exact (fa_pipeEdgeProps name es).bindEq (fun _ => pure rfl)
  | vertices vs => exact (fa_pipeVertexProps name vs).bindEq (fun _ => pure rfl)
  | _ => exact lift _

theorem fa_stageFilter {es : Prog (Option (DynIter Edge))} {vs : Prog (Option (DynIter Uuid))} (he : Rel UptoOpt es es)
    (hv : Rel UptoOpt vs vs) (keep : Bool) (o : Output) : Rel Eq (stageFilterP es vs keep o) (stageFilterP es vs keep o) := by
  cases o with
  | edges es => exact (fa_indexed he).bindEq (fun _ => pure rfl)
  | vertices vs => exact (fa_indexed hv).bindEq (fun _ => pure rfl)
  | _ => exact lift _

theorem fa_runStage (inner : Query) {p : Prog (List Output)} {f : Output → Prog Output} (h : Rel Eq p p)
    (hf : ∀ o, Rel Eq (f o) (f o)) : Rel Eq (runStageP inner p f) (runStageP inner p f) := by
  refine h.bindEq (fun output => ?_)
  cases vecPop output with
  | none => exact lift _
  | some x => exact (hf _).bindEq (fun _ => pure rfl)

theorem fa_query (q : Query) : q.countsAll = false → ∀ out, Rel Eq (queryP X q out) (queryP X q out) := by
  induction q with
  | allVertex => exact fun _ out => (fa_vertexIterate _).bind (fun _ _ h => (Rel.collect h).bindEq (fun _ => pure rfl))
  | rangeVertex limit t st =>
    intro _ out
    cases st <;>
      exact (fa_vertexIterate _).bind (fun _ _ h => (Rel.collect ((upto_filterT _ _ h).take _)).bindEq (fun _ => pure rfl))
  | specificVertex ids => exact fun _ out => (fa_specificVertices _).bindEq (fun _ => (lift _).bindEq (fun _ => pure rfl))
  | pipe inner d l t ih => exact fun hq out => fa_runStage inner (ih hq out) (fa_stagePipe d l t)
  | pipeProperty inner n ih => exact fun hq out => fa_runStage inner (ih hq out) (fa_stageProperty n)
  | vertexWithPropertyPresence n =>
    exact fun _ out => (fa_indexed (fa_vertexIdsWithProperty n)).bindEq (fun _ =>
      (fa_specificVertices _).bindEq (fun _ => (lift _).bindEq (fun _ => pure rfl)))
  | vertexWithPropertyValue n v =>
    exact fun _ out => (fa_indexed (fa_vertexIdsWithPropertyValue n v)).bindEq (fun _ =>
      (fa_specificVertices _).bindEq (fun _ => (lift _).bindEq (fun _ => pure rfl)))
  | edgeWithPropertyPresence n => exact fun _ out => (fa_indexed (fa_edgesWithProperty n)).bindEq (fun _ => pure rfl)
  | edgeWithPropertyValue n v => exact fun _ out => (fa_indexed (fa_edgesWithPropertyValue n v)).bindEq (fun _ => pure rfl)
  | pipeWithPropertyPresence inner n k ih =>
    exact fun hq out => fa_runStage inner (ih hq out) (fa_stageFilter (fa_edgesWithProperty n) (fa_vertexIdsWithProperty n) k)
  | pipeWithPropertyValue inner n v k ih =>
    exact fun hq out => fa_runStage inner (ih hq out)
      (fa_stageFilter (fa_edgesWithPropertyValue n v) (fa_vertexIdsWithPropertyValue n v) k)
  | allEdge => exact fun _ out => (fa_edgeIterateAll _).bind (fun _ _ h => (Rel.collect h).bindEq (fun _ => pure rfl))
  | specificEdge es => exact fun _ out => (fa_specificEdges _).bindEq (fun _ => (lift _).bindEq (fun _ => pure rfl))
  | incl inner ih =>
    intro hq out
    refine (ih hq out).bindEq (fun output => ?_)
    cases vecPop output
    · exact lift _
    · exact pure rfl
  | count inner ih =>
    intro hq out
    have hi : inner.countsAll = false := by
      simp only [Query.countsAll, Bool.or_eq_false_iff] at hq; exact hq.2
    cases inner with
    | allVertex => simp [Query.countsAll] at hq
    | allEdge => simp [Query.countsAll] at hq
    | _ => exact fa_runStage _ (ih hi out) (fun o => lift _)

theorem fa_lastOutput (q : Query) (hq : q.countsAll = false) : Rel Eq (lastOutputP X q) (lastOutputP X q) := by
  refine (fa_query q hq []).bindEq (fun output => ?_)
  cases vecPop output
  · exact lift _
  · exact pure rfl

/-! ### Calls -/

theorem safe_locked {f : SSet Identifier → Prog Batch} (h : ∀ ix, Rel Eq (f ix) (f ix)) : Safe (locked f) :=
  Safe.readLock (fun ix => Safe.bind (h ix) (fun _ => Safe.writeBatch _))

theorem safe_createVertex (v : Vertex) : Safe (createVertex X v) := by
  refine Safe.bind (fa_vertexExists _) (fun b => ?_)
  cases b
  · exact (Safe.writeBatch _).map _
  · exact .of_rel (pure rfl)

theorem safe_createEdge (e : Edge) : Safe (createEdge X e) := by
  refine Safe.bind (fa_vertexExists _) (fun b => ?_)
  cases b
  · exact .of_rel (pure rfl)
  · refine Safe.bind (fa_vertexExists _) (fun b => ?_)
    cases b
    · exact .of_rel (pure rfl)
    · exact Safe.bind (fa_edgeSet _) (fun _ => (Safe.writeBatch _).map _)

/-- **Every call but `index_property` and counting everything: the right outcome, or an error and no effect.** -/
theorem safe_call (O : IdentOrder) (op : Op) (h1 : op.isIndexing = false) (h2 : op.countsAll = false) : Safe (callProg X O op) := by
  cases op with
  | sync => exact .of_rel (pure rfl)
  | createVertex v => exact (safe_createVertex v).map _
  | createVertexFromType id t =>
    refine Safe.map (?_ : Safe (createVertexFromTypeP X id t)) _
    intro s s' r' hr
    rcases hr.of_bind with ⟨s1, b, h1, h2⟩ | ⟨e, rfl, h1⟩
    · rcases safe_createVertex _ _ _ _ h1 with h | ⟨rfl, h⟩
      · left
        refine Eq.trans ?_ (Prog.run_bind_ok h.symm).symm
        cases b <;> cases h2 <;> rfl
      · cases h
    · rcases safe_createVertex _ _ _ _ h1 with h | ⟨h, h'⟩
      · exact Or.inl (Prog.run_bind_error h.symm).symm
      · exact Or.inr ⟨h, by injection h' with h'; rw [h']⟩
  | createEdge e => exact (safe_createEdge e).map _
  | get q => exact .of_rel ((fa_query q h2 []).bindEq (fun _ => pure rfl))
  | delete q =>
    refine Safe.map (Safe.bind (fa_lastOutput q h2) (fun v => ?_)) _
    cases v with
    | vertices vs => exact safe_locked (fun ix => forAll (fun _ => fa_vertexDelete _ _) _)
    | edges es =>
      refine safe_locked (fun ix => forAll (fun e => (fa_vertexGet _).bindEq (fun r => ?_)) _)
      cases r
      · exact pure rfl
      · exact fa_edgeDelete _ _
    | vertexProperties l => exact safe_locked (fun ix => forAll (fun _ => fa_vpDelete _ _ _) _)
    | edgeProperties l => exact safe_locked (fun ix => forAll (fun _ => fa_epDelete _ _ _) _)
    | count n => exact .of_rel (lift _)
  | setProperties q n x =>
    refine Safe.map (Safe.bind (fa_lastOutput q h2) (fun v => ?_)) _
    cases v with
    | vertices vs => exact safe_locked (fun ix => forAll (fun _ => fa_vpSet _ _ _ _) _)
    | edges es => exact safe_locked (fun ix => forAll (fun _ => fa_epSet _ _ _ _) _)
    | _ => exact .of_rel (lift _)
  | bulkInsert items =>
    refine Safe.map (safe_locked (fun ix => forAll (fun i => ?_) _)) _
    cases i with
    | vertex v => exact pure rfl
    | edge e => exact fa_edgeSet _
    | vertexProperty id n v => exact fa_vpSet _ _ _ _
    | edgeProperty e n v => exact fa_epSet _ _ _ _
  | indexProperty n => cases h1

/-- `index_property`: the right outcome; or an error, with no effect on the database, but possibly the name marked in
memory. -/
theorem safe_indexProperty (O : IdentOrder) (n : Identifier) (s s' : Rocks) (r' : Res Unit)
    (h : (indexProperty X O n).Runs s s' r') : (s', r') = (indexProperty X O n).run s ∨
      (r' = .error ioFault ∧ s' = { s with indexed := s.indexed.add n }) := by
  cases h with
  | writeLock h =>
    by_cases hn : s.indexed.contains n = true
    · left
      simp only [if_pos hn] at h
      cases h
      simp only [indexProperty, Prog.run_writeLock, if_pos hn]; rfl
    · simp only [if_neg hn] at h
      cases h with
      | setIndexed h =>
        simp only [indexProperty, Prog.run_writeLock, if_neg hn]
        refine (?_ : (s', r') = _ ∨ s' = { s with indexed := s.indexed.add n } ∧ r' = .error ioFault).imp id (fun h => ⟨h.2, h.1⟩)
        refine (?_ : SafeRel _ _) _ _ _ h
        refine Safe.bindRel (fa_vertexIterate _) (fun _ _ h => Safe.bindRel (forItems (fun v => ?_) h) (fun _ _ e => ?_))
        · exact (fa_vpGet _ _).bindEq (fun r => by cases r <;> exact pure rfl)
        · subst e
          refine Safe.bindRel (fa_edgeIterateAll _) (fun _ _ h => Safe.bindRel (forItems (fun v => ?_) h) (fun _ _ e => ?_))
          · exact (fa_epGet _ _).bindEq (fun r => by cases r <;> exact pure rfl)
          · subst e; exact Safe.writeBatch _

theorem safe_indexCall (O : IdentOrder) (n : Identifier) (s s' : Rocks) (r : Res Reply)
    (h : FaultyCall X O (.indexProperty n) s s' r) : (s', r) = Rocks.step X O (.indexProperty n) s ∨
      (r = .error ioFault ∧ s' = { s with indexed := s.indexed.add n }) := by
  rcases h with h | ⟨h, _⟩
  · rw [← callProg_run]
    have h' : (indexProperty X O n >>= fun _ => (Pure.pure Reply.unit : Prog Reply)).Runs s s' r := h
    show _ = (indexProperty X O n >>= fun _ => (Pure.pure Reply.unit : Prog Reply)).run s ∨ _
    rcases h'.of_bind with ⟨s1, a, h1, h2⟩ | ⟨e, rfl, h1⟩
    · cases h2
      rcases safe_indexProperty _ _ _ _ _ h1 with h3 | ⟨h3, _⟩
      · exact Or.inl ((Prog.run_bind_ok h3.symm).trans (Prog.run_pure Reply.unit _)).symm
      · cases h3
    · rcases safe_indexProperty _ _ _ _ _ h1 with h3 | ⟨h3, h4⟩
      · exact Or.inl (Prog.run_bind_error h3.symm).symm
      · exact Or.inr ⟨by injection h3 with h3; rw [h3], h4⟩
  · cases h

end Rocks
end IndraDB
