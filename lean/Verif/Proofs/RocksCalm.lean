import Verif.Proofs.RocksCrash
import Verif.Proofs.RocksOpen
import Verif.Model.RocksFaults
import Verif.Spec.Errors
/-
The programs of the RocksDB datastore never panic, whatever well-formed entries they read.
-/
set_option linter.unusedSimpArgs false
namespace IndraDB

/-- What a program may meet: the errors it may report, the sets of indexed names it may see, and the bytes it may read as
the value of a property. -/
structure Perms (X : Cfg) where
  err : Error → Prop
  names : SSet Identifier → Prop
  bytes : Bytes → Prop
  unreadable : ∀ b, bytes b → X.codec.dec b = none → err .datastore
  more : ∀ ix n, names ix → names (ix.add n)

variable {X : Cfg} (P : Perms X)

/-- What a program may read from a table. -/
def EntryOk (cf : CF) (k v : Bytes) : Prop :=
  match cf with
  | .vertices => ∃ id t, k = Rocks.vertexKey X id ∧ v = identBytes t
  | .edgeRanges => ∃ e, k = Rocks.edgeKey X e
  | .reversedEdgeRanges => ∃ e, k = Rocks.edgeKey X e
  | .vertexProperties => (∃ id n, k = Rocks.vpKey X id n) ∧ P.bytes v
  | .edgeProperties => (∃ e n, k = Rocks.epKey X e n) ∧ P.bytes v
  | .vertexPropertyValues => ∃ n h id, k = Rocks.vhKey n h id
  | .edgePropertyValues => ∃ n h e, k = Rocks.ehKey X n h e
  | .metadata => True

/-- An error that may be reported; not a panic. -/
def Mild (f : Fault) : Prop := ∃ e, f = .err e ∧ P.err e

/-- Every item is an error that may be reported, or satisfies `Q`. -/
def Items {α : Type} (Q : α → Prop) (l : DynIter α) : Prop :=
  (∀ a, Except.ok a ∈ l → Q a) ∧ ∀ f, Except.error f ∈ l → Mild P f

namespace Items
variable {P} {α β : Type} {Q : α → Prop} {Q' : β → Prop}

theorem mono {Q₂ : α → Prop} {l : DynIter α} (h : Items P Q l) (hQ : ∀ a, Q a → Q₂ a) : Items P Q₂ l :=
  ⟨fun a ha => hQ a (h.1 a ha), h.2⟩

theorem sub {l l' : DynIter α} (h : Items P Q l) (hs : l' ⊆ l) : Items P Q l' := ⟨fun a ha => h.1 a (hs ha), fun f hp => h.2 f (hs hp)⟩

theorem map {f : α → Res β} {l : DynIter α} (h : Items P Q l) (hf : ∀ a, Q a → (∀ e, f a = .error e → Mild P e) ∧ ∀ b, f a = .ok b → Q' b) :
    Items P Q' (l.map (fun i => i >>= f)) := by
  constructor
  · intro b hb
    obtain ⟨i, hi, e⟩ := List.mem_map.1 hb
    cases i with
    | error f => cases e
    | ok a => exact (hf a (h.1 a hi)).2 b e
  · intro g hb
    obtain ⟨i, hi, e⟩ := List.mem_map.1 hb
    cases i with
    | error f =>
      cases e
      exact h.2 _ hi
    | ok a => exact (hf a (h.1 a hi)).1 g e

theorem reverseIter {Q : Edge → Prop} {l : DynIter Edge} (h : Items P Q l) : Items P (fun _ => True) (IndraDB.reverseIter l) := by
  refine ⟨fun _ _ => trivial, fun g hb => ?_⟩
  obtain ⟨i, hi, e⟩ := List.mem_map.1 hb
  cases i with
  | error f =>
    cases e
    exact h.2 _ hi
  | ok a => cases e

theorem ok {l : List α} (h : ∀ a ∈ l, Q a) : Items P Q (l.map .ok) := by
  constructor
  · intro a ha
    obtain ⟨b, hb, e⟩ := List.mem_map.1 ha
    cases e; exact h a hb
  · intro f hp
    obtain ⟨b, hb, e⟩ := List.mem_map.1 hp
    cases e

theorem collect {l : DynIter α} (h : Items P Q l) : (∀ f, IndraDB.collect l = .error f → Mild P f) ∧ ∀ r, IndraDB.collect l = .ok r → ∀ a ∈ r, Q a := by
  induction l with
  | nil => exact ⟨(fun f h => by cases h), fun r hr a ha => by cases hr; cases ha⟩
  | cons i l ih =>
    have ih := ih (h.sub (fun x hx => List.mem_cons_of_mem _ hx))
    cases i with
    | error f =>
      constructor
      · intro g e
        cases e
        exact h.2 _ List.mem_cons_self
      · intro r hr; cases hr
    | ok a =>
      simp only [IndraDB.collect]
      cases hl : IndraDB.collect l with
      | error f =>
        refine ⟨?_, fun r hr => by cases hr⟩
        intro g e
        cases e
        exact ih.1 _ hl
      | ok r' =>
        refine ⟨(by intro g e; cases e), fun r hr b hb => ?_⟩
        cases hr
        rcases List.mem_cons.1 hb with rfl | hb
        · exact h.1 b List.mem_cons_self
        · exact ih.2 r' hl b hb

theorem take {l : DynIter α} (h : Items P Q l) (n : Nat) : Items P Q (l.take n) := h.sub (List.take_subset _ _)

theorem filterT {ty : α → Identifier} {t : Option Identifier} {l : DynIter α} (h : Items P Q l) : Items P Q (IndraDB.filterT ty t l) := by
  cases t with
  | none => exact h
  | some t => exact h.sub (fun x hx => (List.mem_filter.1 hx).1)

theorem takeWhileIter {p : α → Bool} {l : DynIter α} (h : Items P Q l) : Items P Q (IndraDB.takeWhileIter p l) :=
  h.sub (fun x hx => (List.takeWhile_sublist _).subset hx)

end Items

namespace Prog
variable {α β : Type} {X : Cfg} {P : Perms X}

/-- The program fails only as permitted if it reads well-formed entries, or iterators fail as permitted; and if successful satisfies `Q`. -/
def Calm (P : Perms X) (Q : α → Prop) : Prog α → Prop
  | .done r => (∀ f, r = .error f → Mild P f) ∧ ∀ a, r = .ok a → Q a
  | .get cf k n => ∀ r, (∀ v, r = some v → EntryOk P cf k v) → (n r).Calm P Q
  | .scan cf _ n => ∀ it, Items P (fun e => EntryOk P cf e.1 e.2) it → (n it).Calm P Q
  | .write _ n => (n ()).Calm P Q
  | .readLock _ n => ∀ ix, P.names ix → (n ix).Calm P Q
  | .writeLock n => ∀ ix, P.names ix → (n ix).Calm P Q
  | .setIndexed ix n => P.names ix ∧ (n ()).Calm P Q

variable {Q : α → Prop} {Q' : β → Prop}

theorem Calm.bind {p : Prog α} {f : α → Prog β} (h : p.Calm P Q) (hf : ∀ a, Q a → (f a).Calm P Q') : (p >>= f).Calm P Q' := by
  show (p.bind f).Calm P Q'
  induction p with
  | done r => cases r with
    | ok a => exact hf a (h.2 a rfl)
    | error e =>
      refine ⟨?_, fun a h => (nomatch h)⟩
      intro f e'
      cases e'
      exact h.1 _ rfl
  | get cf k n ih => exact fun r hr => ih r (h r hr)
  | scan cf lo n ih => exact fun r hr => ih r (h r hr)
  | write b n ih => exact ih () h
  | readLock _ n ih => exact fun r hr => ih r (h r hr)
  | writeLock n ih => exact fun r hr => ih r (h r hr)
  | setIndexed ix n ih => exact ⟨h.1, ih () h.2⟩

theorem Calm.mono {p : Prog α} {Q₂ : α → Prop} (h : p.Calm P Q) (hQ : ∀ a, Q a → Q₂ a) : p.Calm P Q₂ := by
  induction p with
  | done r => exact ⟨h.1, fun a e => hQ a (h.2 a e)⟩
  | get cf k n ih => exact fun r hr => ih r (h r hr)
  | scan cf lo n ih => exact fun r hr => ih r (h r hr)
  | write b n ih => exact ih () h
  | readLock _ n ih => exact fun r hr => ih r (h r hr)
  | writeLock n ih => exact fun r hr => ih r (h r hr)
  | setIndexed ix n ih => exact ⟨h.1, ih () h.2⟩

theorem Calm.pure {a : α} (h : Q a) : (Pure.pure a : Prog α).Calm P Q := ⟨(fun f e => by cases e), fun b e => by cases e; exact h⟩
theorem Calm.err {e : Error} (h : P.err e) : (Prog.lift (.error (.err e)) : Prog α).Calm P Q :=
  ⟨(fun f e => by cases e; exact ⟨_, rfl, h⟩), fun b e => by cases e⟩
theorem Calm.lift {r : Res α} (h : ∀ f, r = .error f → Mild P f) (h' : ∀ a, r = .ok a → Q a) : (Prog.lift r).Calm P Q := ⟨h, h'⟩
theorem Calm.any {p : Prog α} (h : p.Calm P Q) : p.Calm P (fun _ => True) := h.mono (fun _ _ => trivial)

theorem Calm.getCf {cf : CF} {k : Bytes} : (Prog.getCf cf k).Calm P (fun r => ∀ v, r = some v → EntryOk P cf k v) :=
  fun r hr => ⟨(fun f e => by cases e), fun a e => by cases e; exact hr⟩

theorem Calm.iteratorCf {cf : CF} {k : Bytes} : (Prog.iteratorCf cf k).Calm P (Items P (fun e => EntryOk P cf e.1 e.2)) :=
  fun r hr => ⟨(fun f e => by cases e), fun a e => by cases e; exact hr⟩

theorem Calm.collect {l : DynIter α} (h : Items P Q l) : (Prog.lift (IndraDB.collect l)).Calm P (fun r => ∀ a ∈ r, Q a) :=
  .lift h.collect.1 h.collect.2

theorem Calm.forAll {f : α → Prog Batch} {l : List α} (h : ∀ a, (f a).Calm P (fun _ => True)) :
    (Prog.forAll f l).Calm P (fun _ => True) := by
  induction l with
  | nil => exact .pure trivial
  | cons a r ih => exact (h a).bind (fun _ _ => ih.bind (fun _ _ => .pure trivial))

theorem Calm.forItems {f : α → Prog Batch} {l : DynIter α} (hl : Items P Q l) (h : ∀ a, Q a → (f a).Calm P (fun _ => True)) :
    (Prog.forItems f l).Calm P (fun _ => True) := by
  induction l with
  | nil => exact .pure trivial
  | cons i r ih =>
    cases i with
    | error e =>
      refine .lift ?_ (fun _ _ => trivial)
      intro f e
      cases e
      exact hl.2 _ List.mem_cons_self
    | ok a =>
      exact (h a (hl.1 a List.mem_cons_self)).bind (fun _ _ =>
        (ih (hl.sub (fun x hx => List.mem_cons_of_mem _ hx))).bind (fun _ _ => .pure trivial))

theorem Calm.filterMapItems {f : α → Prog (Option β)} {l : DynIter α} (hl : Items P Q l) (h : ∀ a, Q a → (f a).Calm P (fun _ => True)) :
    (Prog.filterMapItems f l).Calm P (Items P (fun _ => True)) := by
  induction l with
  | nil => exact .pure ⟨fun _ _ => trivial, fun f h => (nomatch h)⟩
  | cons i r ih =>
    have ih := ih (hl.sub (fun x hx => List.mem_cons_of_mem _ hx))
    cases i with
    | error e =>
      refine ih.bind (fun l hl' => .pure ⟨fun _ _ => trivial, fun f h => ?_⟩)
      rcases List.mem_cons.1 h with e | h
      · cases e
        exact hl.2 _ List.mem_cons_self
      · exact hl'.2 _ h
    | ok a =>
      refine (h a (hl.1 a List.mem_cons_self)).bind (fun b _ => ih.bind (fun l hl' => .pure ⟨fun _ _ => trivial, fun f h => ?_⟩))
      cases b with
      | none => exact hl'.2 _ h
      | some b =>
        rcases List.mem_cons.1 h with e | h
        · cases e
        · exact hl'.2 _ h

end Prog

namespace Rocks
open Prog
variable {X : Cfg} {P : Perms X}

/-! ### Items -/

theorem items_prefix {cf : CF} {l : DynIter (Bytes × Bytes)} {p : Bytes} (h : Items P (fun e => EntryOk P cf e.1 e.2) l) :
    Items P (fun e => EntryOk P cf e.1 e.2 ∧ p.isPrefixOf e.1 = true) (takeWithPrefix l p) := by
  have hs : takeWithPrefix l p ⊆ l := fun x hx => (List.takeWhile_sublist _).subset hx
  refine ⟨fun a ha => ⟨h.1 a (hs ha), ?_⟩, fun f hp => h.2 f (hs hp)⟩
  have := List.all_takeWhile (l := l) (p := fun item => match item with
    | .ok e => p.isPrefixOf e.1
    | .error _ => true)
  rw [List.all_eq_true] at this
  exact this _ ha

theorem fromSlice_calm {v : Bytes} (hv : P.bytes v) : ∀ f, fromSlice X v = .error f → Mild P f := by
  intro f h
  unfold fromSlice at h
  split at h <;> cases h
  exact ⟨_, rfl, P.unreadable v hv (by assumption)⟩

theorem calm_vertexItem {e : Bytes × Bytes} (h : EntryOk P .vertices e.1 e.2) : ∃ v, vertexItem X e = .ok v := by
  obtain ⟨k, v⟩ := e
  obtain ⟨id, t, rfl, rfl⟩ := h
  exact ⟨_, vertexItem_ok id t⟩

theorem calm_edgeItem {e : Bytes × Bytes} (h : ∃ f, e.1 = edgeKey X f) : ∃ f, e.1 = edgeKey X f ∧ edgeItem e = .ok f := by
  obtain ⟨k, v⟩ := e
  obtain ⟨f, rfl⟩ := h
  exact ⟨f, rfl, edgeItem_ok f v⟩

theorem calm_vertexIterate (id : Uuid) : (vertexIterate X id).Calm P (Items P (fun _ => True)) := by
  refine Calm.iteratorCf.bind (fun l hl => .pure (hl.map (fun e he => ?_)))
  obtain ⟨v, hv⟩ := calm_vertexItem he
  rw [hv]
  exact ⟨(fun f e => by cases e), fun _ _ => trivial⟩

theorem calm_edgeIterateAll {cf : CF} (hcf : cf = .edgeRanges ∨ cf = .reversedEdgeRanges) :
    (edgeIterateAll cf).Calm P (Items P (fun _ => True)) := by
  refine Calm.iteratorCf.bind (fun l hl => .pure (hl.map (fun e he => ?_)))
  have he' : ∃ f, e.1 = edgeKey X f := by rcases hcf with rfl | rfl <;> exact he
  obtain ⟨f, _, hf⟩ := calm_edgeItem he'
  rw [hf]
  exact ⟨(fun f e => by cases e), fun _ _ => trivial⟩

theorem calm_edgeIterateRange {cf : CF} (hcf : cf = .edgeRanges ∨ cf = .reversedEdgeRanges) (lo : Edge) :
    (edgeIterateRange X cf lo).Calm P (Items P (fun _ => True)) := by
  refine Calm.iteratorCf.bind (fun l hl => .pure (hl.map (fun e he => ?_)))
  have he' : ∃ f, e.1 = edgeKey X f := by rcases hcf with rfl | rfl <;> exact he
  obtain ⟨f, _, hf⟩ := calm_edgeItem he'
  rw [hf]
  exact ⟨(fun f e => by cases e), fun _ _ => trivial⟩

theorem calm_edgeIterateRoot {cf : CF} (hcf : cf = .edgeRanges ∨ cf = .reversedEdgeRanges) (id : Uuid) :
    (edgeIterateRoot X cf id).Calm P (Items P (fun e => e.outboundId = id)) := by
  refine Calm.iteratorCf.bind (fun l hl => .pure ((items_prefix hl).map (fun e he => ?_)))
  have he' : ∃ f, e.1 = edgeKey X f := by rcases hcf with rfl | rfl <;> exact he.1
  obtain ⟨f, hk, hf⟩ := calm_edgeItem he'
  rw [hf]
  refine ⟨(fun f e => by cases e), fun b hb => ?_⟩
  cases hb
  have h2 := he.2
  rw [hk, edgeKey_eq, build_cons, build_nil, List.append_nil, bytes_uuid, uuid_prefix] at h2
  exact h2.symm

theorem calm_vertexGet (id : Uuid) : (vertexGet X id).Calm P (fun _ => True) := by
  refine Calm.getCf.bind (fun r hr => ?_)
  cases r with
  | none => exact .pure trivial
  | some b =>
    obtain ⟨i, t, _, rfl⟩ := hr b rfl
    show (Prog.lift (readIdentifier (identBytes t)) >>= _).Calm P _
    rw [readIdentifier_self]
    exact .pure trivial

theorem calm_vertexExists (id : Uuid) : (vertexExists X id).Calm P (fun _ => True) := Calm.getCf.bind (fun _ _ => .pure trivial)
theorem calm_edgeContains (cf : CF) (e : Edge) : (edgeContains X cf e).Calm P (fun _ => True) :=
  Calm.getCf.bind (fun _ _ => .pure trivial)

theorem calm_fromSlice {v : Bytes} (hv : P.bytes v) : (Prog.lift (fromSlice X v)).Calm P (fun _ => True) :=
  .lift (fromSlice_calm hv) (fun _ _ => trivial)

theorem calm_vpGet (id : Uuid) (n : Identifier) : (vpGet X id n).Calm P (fun _ => True) := by
  refine Calm.getCf.bind (fun r hr => ?_)
  cases r with
  | none => exact .pure trivial
  | some b => exact (calm_fromSlice (hr b rfl).2).bind (fun _ _ => .pure trivial)

theorem calm_epGet (e : Edge) (n : Identifier) : (epGet X e n).Calm P (fun _ => True) := by
  refine Calm.getCf.bind (fun r hr => ?_)
  cases r with
  | none => exact .pure trivial
  | some b => exact (calm_fromSlice (hr b rfl).2).bind (fun _ _ => .pure trivial)

theorem calm_vpvIterate (p : List Component) : (vpvIterate X p).Calm P (Items P (fun _ => True)) := by
  refine Calm.iteratorCf.bind (fun l hl => .pure ((items_prefix hl).map (fun e he => ?_)))
  obtain ⟨k, v⟩ := e
  obtain ⟨⟨n, h, id, rfl⟩, _⟩ := he
  rw [vpvItem_ok]
  exact ⟨(fun f e => by cases e), fun _ _ => trivial⟩

theorem calm_epvIterate (p : List Component) : (epvIterate X p).Calm P (Items P (fun _ => True)) := by
  refine Calm.iteratorCf.bind (fun l hl => .pure ((items_prefix hl).map (fun e he => ?_)))
  obtain ⟨k, v⟩ := e
  obtain ⟨⟨n, h, id, rfl⟩, _⟩ := he
  rw [epvItem_ok]
  exact ⟨(fun f e => by cases e), fun _ _ => trivial⟩

theorem calm_vpItem (id : Uuid) (n : Identifier) {v : Bytes} (hv : P.bytes v) : ∀ f, vpItem X id (vpKey X id n, v) = .error f → Mild P f := by
  have := fromSlice_calm hv
  cases h : fromSlice X v with
  | ok x => simp [vpItem, vpKey_eq, readUuid_append, debugAssert_true, readRest_self, h, Bind.bind, Except.bind, Pure.pure,
      Except.pure]
  | error f =>
    rw [h] at this
    simpa [vpItem, vpKey_eq, readUuid_append, debugAssert_true, readRest_self, h, Bind.bind, Except.bind, Pure.pure,
      Except.pure] using this

theorem calm_epItem (e : Edge) (n : Identifier) {v : Bytes} (hv : P.bytes v) : ∀ f, epItem X e (epKey X e n, v) = .error f → Mild P f := by
  have := fromSlice_calm hv
  cases h : fromSlice X v with
  | ok x => simp [epItem, epKey_eq, edgeKey_eq, readUuid_append, readIdentifier_append, debugAssert_true, readRest_self, h,
      Bind.bind, Except.bind, Pure.pure, Except.pure]
  | error f =>
    rw [h] at this
    simpa [epItem, epKey_eq, edgeKey_eq, readUuid_append, readIdentifier_append, debugAssert_true, readRest_self, h,
      Bind.bind, Except.bind, Pure.pure, Except.pure] using this

theorem calm_vpIterate (id : Uuid) : (vpIterate X id).Calm P (Items P (fun _ => True)) := by
  refine Calm.iteratorCf.bind (fun l hl => .pure ((items_prefix hl).map (fun e he => ?_)))
  obtain ⟨k, v⟩ := e
  obtain ⟨⟨⟨i, n, rfl⟩, hv⟩, h2⟩ := he
  simp only [vpKey_eq, build_cons, build_nil, List.append_nil, bytes_uuid, uuid_prefix] at h2
  subst h2
  exact ⟨calm_vpItem _ _ hv, fun _ _ => trivial⟩

theorem calm_epIterate (f : Edge) : (epIterate X f).Calm P (Items P (fun _ => True)) := by
  refine Calm.iteratorCf.bind (fun l hl => .pure ((items_prefix hl).map (fun e he => ?_)))
  obtain ⟨k, v⟩ := e
  obtain ⟨⟨⟨i, n, rfl⟩, hv⟩, h2⟩ := he
  have h2 : (edgeKey X f).isPrefixOf (edgeKey X i ++ n.bytes) = true := by rw [← epKey_eq]; exact h2
  rw [edge_prefix] at h2
  subst h2
  exact ⟨calm_epItem _ _ hv, fun _ _ => trivial⟩

/-! ### Writes -/

theorem calm_vpDelete (ix : SSet Identifier) (id : Uuid) (n : Identifier) : (vpDelete X ix id n).Calm P (fun _ => True) := by
  unfold vpDelete
  split
  · refine Calm.bind (Q := fun _ => True) ?_ (fun _ _ => .pure trivial)
    refine (calm_vpGet id n).bind (fun r _ => ?_)
    cases r <;> exact .pure trivial
  · exact Calm.bind (Q := fun _ => True) (.pure trivial) (fun _ _ => .pure trivial)

theorem calm_epDelete (ix : SSet Identifier) (e : Edge) (n : Identifier) : (epDelete X ix e n).Calm P (fun _ => True) := by
  unfold epDelete
  split
  · refine Calm.bind (Q := fun _ => True) ?_ (fun _ _ => .pure trivial)
    refine (calm_epGet e n).bind (fun r _ => ?_)
    cases r <;> exact .pure trivial
  · exact Calm.bind (Q := fun _ => True) (.pure trivial) (fun _ _ => .pure trivial)

theorem calm_vpSet (ix : SSet Identifier) (id : Uuid) (n : Identifier) (v : Json) : (vpSet X ix id n v).Calm P (fun _ => True) := by
  unfold vpSet
  refine Calm.bind (Q := fun _ => True) ?_ (fun _ _ => .pure trivial)
  split
  · exact calm_vpDelete _ _ _
  · exact .pure trivial

theorem calm_epSet (ix : SSet Identifier) (e : Edge) (n : Identifier) (v : Json) : (epSet X ix e n v).Calm P (fun _ => True) := by
  unfold epSet
  refine Calm.bind (Q := fun _ => True) ?_ (fun _ _ => .pure trivial)
  split
  · exact calm_epDelete _ _ _
  · exact .pure trivial

theorem calm_edgeSet (e : Edge) : (edgeSet X e).Calm P (fun _ => True) :=
  (calm_edgeContains _ _).bind (fun _ _ => .pure trivial)

theorem calm_edgeDelete (ix : SSet Identifier) (e : Edge) : (edgeDelete X ix e).Calm P (fun _ => True) :=
  (calm_epIterate e).bind (fun _ hl => (Calm.forItems hl (fun _ _ => calm_epDelete _ _ _)).bind (fun _ _ => .pure trivial))

theorem calm_vertexDelete (ix : SSet Identifier) (id : Uuid) : (vertexDelete X ix id).Calm P (fun _ => True) := by
  have hd : ∀ e : Edge, e.outboundId = id →
      (do Prog.lift (debugAssert X (e.outboundId = id)); edgeDelete X ix e : Prog Batch).Calm P (fun _ => True) := by
    intro e he
    rw [debugAssert_true _ (by simp [he])]
    exact calm_edgeDelete ix e
  unfold vertexDelete
  refine (calm_vpIterate id).bind (fun _ hl => (Calm.forItems hl (fun _ _ => calm_vpDelete _ _ _)).bind (fun _ _ => ?_))
  refine (calm_edgeIterateRoot (.inl rfl) id).bind (fun _ hl => (Calm.forItems hl hd).bind (fun _ _ => ?_))
  refine (calm_edgeIterateRoot (.inr rfl) id).bind (fun _ hl => (Calm.forItems hl hd).bind (fun _ _ => .pure trivial))

theorem calm_writeBatch (b : Batch) : (Prog.writeBatch b).Calm P (fun _ => True) := Calm.pure (P := P) (a := ()) trivial

theorem calm_locked {f : SSet Identifier → Prog Batch} (h : ∀ ix, (f ix).Calm P (fun _ => True)) :
    (locked f).Calm P (fun _ => True) := fun ix _ => (h ix).bind (fun b _ => calm_writeBatch b)

theorem calm_deleteVertices (vs : List Vertex) : (deleteVertices X vs).Calm P (fun _ => True) :=
  calm_locked (fun _ => .forAll (fun _ => calm_vertexDelete _ _))

theorem calm_deleteEdges (es : List Edge) : (deleteEdges X es).Calm P (fun _ => True) := by
  refine calm_locked (fun _ => .forAll (fun e => (calm_vertexGet _).bind (fun r _ => ?_)))
  cases r
  · exact .pure trivial
  · exact calm_edgeDelete _ _

theorem calm_deleteVertexProperties (ps : List (Uuid × Identifier)) : (deleteVertexProperties X ps).Calm P (fun _ => True) :=
  calm_locked (fun _ => .forAll (fun _ => calm_vpDelete _ _ _))

theorem calm_deleteEdgeProperties (ps : List (Edge × Identifier)) : (deleteEdgeProperties X ps).Calm P (fun _ => True) :=
  calm_locked (fun _ => .forAll (fun _ => calm_epDelete _ _ _))

theorem calm_setVertexProperties (ids : List Uuid) (n : Identifier) (v : Json) :
    (setVertexProperties X ids n v).Calm P (fun _ => True) := calm_locked (fun _ => .forAll (fun _ => calm_vpSet _ _ _ _))

theorem calm_setEdgeProperties (es : List Edge) (n : Identifier) (v : Json) :
    (setEdgeProperties X es n v).Calm P (fun _ => True) := calm_locked (fun _ => .forAll (fun _ => calm_epSet _ _ _ _))

theorem calm_createVertex (v : Vertex) : (createVertex X v).Calm P (fun _ => True) := by
  refine (calm_vertexExists _).bind (fun r _ => ?_)
  cases r
  · exact (calm_writeBatch _).bind (fun _ _ => .pure trivial)
  · exact .pure trivial

theorem calm_createEdge (e : Edge) : (createEdge X e).Calm P (fun _ => True) := by
  refine (calm_vertexExists _).bind (fun r _ => ?_)
  cases r
  · exact .pure trivial
  · refine (calm_vertexExists _).bind (fun r _ => ?_)
    cases r
    · exact .pure trivial
    · exact (calm_edgeSet e).bind (fun _ _ => (calm_writeBatch _).bind (fun _ _ => .pure trivial))

theorem calm_bulkInsert (items : List BulkInsertItem) : (bulkInsert X items).Calm P (fun _ => True) := by
  refine calm_locked (fun ix => .forAll (fun i => ?_))
  cases i with
  | vertex v => exact .pure trivial
  | edge e => exact calm_edgeSet e
  | vertexProperty id n v => exact calm_vpSet _ _ _ _
  | edgeProperty e n v => exact calm_epSet _ _ _ _

theorem calm_indexProperty (O : IdentOrder) (n : Identifier) : (indexProperty X O n).Calm P (fun _ => True) := by
  intro ix hix
  show (if _ then _ else _ : Prog Unit).Calm P _
  split
  · exact .pure trivial
  · refine ⟨P.more _ _ hix, ?_⟩
    refine (calm_vertexIterate _).bind (fun _ hl => (Calm.forItems hl (fun v _ => ?_)).bind (fun _ _ =>
      (calm_edgeIterateAll (.inl rfl)).bind (fun _ hl => (Calm.forItems hl (fun v _ => ?_)).bind (fun _ _ => calm_writeBatch _))))
    · refine (calm_vpGet _ _).bind (fun r _ => ?_)
      cases r <;> exact .pure trivial
    · refine (calm_epGet _ _).bind (fun r _ => ?_)
      cases r <;> exact .pure trivial

/-! ### Queries -/

theorem calm_specificVertices (ids : List Uuid) : (specificVerticesP X ids).Calm P (Items P (fun _ => True)) :=
  .filterMapItems (Items.ok (Q := fun _ => True) (fun _ _ => trivial)) (fun _ _ => (calm_vertexGet _).bind (fun _ _ => .pure trivial))

theorem calm_specificEdges (es : List Edge) : (specificEdgesP X es).Calm P (Items P (fun _ => True)) :=
  .filterMapItems (Items.ok (Q := fun _ => True) (fun _ _ => trivial)) (fun _ _ => (calm_edgeContains _ _).bind (fun _ _ => .pure trivial))

/-- The property may be looked up: it is in every set of indexed names there may be, or a lookup may fail. -/
def Known (P : Perms X) (n : Identifier) : Prop := P.err .notIndexed ∨ ∀ ix, P.names ix → ix.contains n = true

/-- The outcome of an index lookup. -/
def CalmOpt (P : Perms X) {α : Type} (o : Option (DynIter α)) : Prop :=
  (∀ l, o = some l → Items P (fun _ => True) l) ∧ (o = none → P.err .notIndexed)

theorem calm_ifIndexed {α : Type} {n : Identifier} {p : Prog (DynIter α)} (hn : Known P n)
    (h : p.Calm P (Items P (fun _ => True))) : (ifIndexed n p).Calm P (CalmOpt P) := by
  intro ix hix
  show (if _ then _ else _ : Prog (Option (DynIter α))).Calm P _
  split
  · exact h.bind (fun l hl => .pure ⟨(fun l' e => by cases e; exact hl), fun e => by cases e⟩)
  · next hc => exact .pure ⟨(fun l' e => by cases e), fun _ => hn.resolve_right (fun hn => hc (hn ix hix))⟩

theorem calm_existingIds {l : DynIter Uuid} (hl : Items P (fun _ => True) l) : (existingIds X l).Calm P (Items P (fun _ => True)) :=
  .filterMapItems hl (fun _ _ => (calm_vertexExists _).bind (fun _ _ => .pure trivial))

theorem calm_vids (p : List Component) : (do existingIds X (← vpvIterate X p) : Prog (DynIter Uuid)).Calm P (Items P (fun _ => True)) :=
  (calm_vpvIterate p).bind (fun _ hl => calm_existingIds hl)

theorem calm_indexedP {α : Type} {p : Prog (Option (DynIter α))} (h : p.Calm P (CalmOpt P)) : (indexedP p).Calm P (fun _ => True) := by
  refine h.bind (fun o ho => ?_)
  cases o with
  | none => exact .err (ho.2 rfl)
  | some l => exact (Calm.collect (ho.1 l rfl)).any

theorem calm_pipeEdges (d : EdgeDirection) (limit : UInt32) (t : Option Identifier) (es : List Edge) :
    (pipeEdgesP X d limit t es).Calm P (fun _ => True) :=
  (calm_specificVertices _).bind (fun _ hl => (Calm.collect (hl.filterT.take _)).bind (fun _ _ => .pure trivial))

theorem calm_pipeVertexIter (d : EdgeDirection) (t : Option Identifier) (v : Vertex) :
    (pipeVertexIterP X d t v).Calm P (Items P (fun _ => True)) := by
  cases d with
  | outbound =>
    exact (calm_edgeIterateRange (.inl rfl) _).bind (fun _ hl => .pure (hl.takeWhileIter.filterT))
  | inbound =>
    refine (calm_edgeIterateRange (.inr rfl) _).bind (fun _ hl => .pure ?_)
    have := (hl.takeWhileIter (p := fun e : Edge => e.outboundId = v.id)).filterT (ty := (·.t)) (t := t)
    exact this.reverseIter

theorem collect_length_le {α : Type} {l : DynIter α} {r : List α} (h : collect l = .ok r) : r.length = l.length := by
  induction l generalizing r with
  | nil => cases h; rfl
  | cons i l ih =>
    cases i with
    | error f => cases h
    | ok a =>
      simp only [collect] at h
      cases hl : collect l with
      | error f => rw [hl] at h; cases h
      | ok r' =>
        rw [hl] at h
        cases h
        simp [ih hl]

theorem calm_pipeVertices (d : EdgeDirection) (limit : UInt32) (t : Option Identifier) (vs : List Vertex) :
    ∀ edges : List Edge, edges.length ≤ limit.toNat → (pipeVerticesP X d limit t vs edges).Calm P (fun _ => True) := by
  induction vs with
  | nil => exact fun _ _ => .pure trivial
  | cons v vs ih =>
    intro edges he
    refine (calm_pipeVertexIter d t v).bind (fun iter hi => ?_)
    refine Calm.bind (Q := fun l : List Edge => l.length ≤ limit.toNat) ?_ (fun l hl => ?_)
    · have hn : ¬ limit.toNat < edges.length := by omega
      have hc := (hi.take (limit.toNat - edges.length)).collect
      refine .lift ?_ ?_
      · simp only [hn, if_false]
        intro f e
        cases h : collect (iter.take (limit.toNat - edges.length)) with
        | ok l => rw [h] at e; cases e
        | error g =>
          rw [h] at e hc
          cases e
          exact hc.1 _ rfl
      · simp only [hn, if_false]
        intro l e
        cases h : collect (iter.take (limit.toNat - edges.length)) with
        | error f => rw [h] at e; cases e
        | ok l' =>
          rw [h] at e
          cases e
          have := collect_length_le h
          simp only [List.length_append, List.length_take] at this ⊢
          omega
    · split
      · exact .pure trivial
      · exact ih l hl

theorem calm_propItems {ω : Type} {p : Prog (DynIter (ω × Identifier × Json))} (h : p.Calm P (Items P (fun _ => True))) :
    (propItems p).Calm P (Items P (fun _ => True)) := by
  refine h.bind (fun l hl => (Calm.collect hl).bind (fun r _ => .pure ⟨fun _ _ => trivial, fun f hp => ?_⟩))
  obtain ⟨b, hb, e⟩ := List.mem_map.1 hp
  cases e

theorem calm_ownerProps {one : Identifier → Prog (Option Json)} {all : Prog (DynIter (Identifier × Json))}
    (h1 : ∀ n, (one n).Calm P (fun _ => True)) (h2 : all.Calm P (Items P (fun _ => True))) (name : Option Identifier) :
    (ownerPropsP one all name).Calm P (fun _ => True) := by
  cases name with
  | some n =>
    refine (h1 n).bind (fun r _ => ?_)
    cases r <;> exact .pure trivial
  | none => exact h2.bind (fun _ hl => (Calm.collect hl).bind (fun _ _ => .pure trivial))

theorem calm_pipeEdgeProps (name : Option Identifier) (es : List Edge) : (pipeEdgePropsP X name es).Calm P (fun _ => True) := by
  induction es with
  | nil => exact .pure trivial
  | cons e es ih =>
    exact (calm_ownerProps (fun n => calm_epGet e n) (calm_propItems (calm_epIterate e)) name).bind (fun _ _ =>
      ih.bind (fun _ _ => .pure trivial))

theorem calm_pipeVertexProps (name : Option Identifier) (vs : List Vertex) :
    (pipeVertexPropsP X name vs).Calm P (fun _ => True) := by
  induction vs with
  | nil => exact .pure trivial
  | cons v vs ih =>
    exact (calm_ownerProps (fun n => calm_vpGet v.id n) (calm_propItems (calm_vpIterate v.id)) name).bind (fun _ _ =>
      ih.bind (fun _ _ => .pure trivial))

/-- The output has the kind read off from the query; and if it has none, the error for this may be reported. -/
def Kinded (P : Perms X) (k : Option Kind) (o : Output) : Prop := (P.err .operationOnQuery ∨ k ≠ none) ∧ ∀ k', k = some k' → o.kind = k'

/-- A stage that works on outputs of some kinds. -/
theorem Kinded.cases {k : Option Kind} {o : Output} (h : Kinded P k o) : k = some o.kind ∨ k = none := by
  cases k with
  | none => exact Or.inr rfl
  | some k => exact Or.inl (by rw [h.2 k rfl])

theorem calm_stagePipe (d : EdgeDirection) (limit : UInt32) (t : Option Identifier) {k k' : Option Kind} {o : Output}
    (hk' : k' = match k with | some .vertices => some .edges | some .edges => some .vertices | _ => none)
    (ho : Kinded P k o) (hk : P.err .operationOnQuery ∨ k' ≠ none) :
    (stagePipeP X d limit t o).Calm P (Kinded P k') := by
  rcases ho.cases with rfl | rfl
  · cases o with
    | edges es =>
      refine Calm.bind (calm_specificVertices _) (fun _ hl => (Calm.collect (hl.filterT.take _)).bind (fun _ _ => .pure ⟨hk, ?_⟩))
      rintro _ rfl; cases hk'; rfl
    | vertices vs =>
      refine (calm_pipeVertices d limit t vs [] (Nat.zero_le _)).bind (fun _ _ => .pure ⟨hk, ?_⟩)
      rintro _ rfl; cases hk'; rfl
    | _ => exact .err (hk.resolve_right (fun h => h hk'))
  · have he := hk.resolve_right (fun h => h hk')
    subst hk'
    have none : ∀ o, Kinded P none o := fun o => ⟨Or.inl he, fun _ h => (nomatch h)⟩
    cases o with
    | edges es => exact (calm_pipeEdges d limit t es).mono (fun o _ => none o)
    | vertices vs => exact (calm_pipeVertices d limit t vs [] (Nat.zero_le _)).bind (fun _ _ => .pure (none _))
    | _ => exact .err he

theorem calm_stageProperty (name : Option Identifier) {k k' : Option Kind} {o : Output}
    (hk' : k' = match k with | some .vertices => some .vertexProperties | some .edges => some .edgeProperties | _ => none)
    (ho : Kinded P k o) (hk : P.err .operationOnQuery ∨ k' ≠ none) :
    (stagePropertyP X name o).Calm P (Kinded P k') := by
  rcases ho.cases with rfl | rfl
  · cases o with
    | edges es =>
      refine (calm_pipeEdgeProps name es).bind (fun _ _ => .pure ⟨hk, ?_⟩)
      rintro _ rfl; cases hk'; rfl
    | vertices vs =>
      refine (calm_pipeVertexProps name vs).bind (fun _ _ => .pure ⟨hk, ?_⟩)
      rintro _ rfl; cases hk'; rfl
    | _ => exact .err (hk.resolve_right (fun h => h hk'))
  · have he := hk.resolve_right (fun h => h hk')
    subst hk'
    have none : ∀ o, Kinded P none o := fun o => ⟨Or.inl he, fun _ h => (nomatch h)⟩
    cases o with
    | edges es => exact (calm_pipeEdgeProps name es).bind (fun _ _ => .pure (none _))
    | vertices vs => exact (calm_pipeVertexProps name vs).bind (fun _ _ => .pure (none _))
    | _ => exact .err he

theorem calm_stageFilter {es : Prog (Option (DynIter Edge))} {vs : Prog (Option (DynIter Uuid))} (he : es.Calm P (CalmOpt P))
    (hv : vs.Calm P (CalmOpt P)) (keep : Bool) {k k' : Option Kind} {o : Output}
    (hk' : k' = match k with | some .vertices => some .vertices | some .edges => some .edges | _ => none)
    (ho : Kinded P k o) (hk : P.err .operationOnQuery ∨ k' ≠ none) :
    (stageFilterP es vs keep o).Calm P (Kinded P k') := by
  rcases ho.cases with rfl | rfl
  · cases o with
    | edges es =>
      refine (calm_indexedP he).bind (fun _ _ => .pure ⟨hk, ?_⟩)
      rintro _ rfl; cases hk'; rfl
    | vertices vs =>
      refine (calm_indexedP hv).bind (fun _ _ => .pure ⟨hk, ?_⟩)
      rintro _ rfl; cases hk'; rfl
    | _ => exact .err (hk.resolve_right (fun h => h hk'))
  · have hf := hk.resolve_right (fun h => h hk')
    subst hk'
    have none : ∀ o, Kinded P none o := fun o => ⟨Or.inl hf, fun _ h => (nomatch h)⟩
    cases o with
    | edges es => exact (calm_indexedP he).bind (fun _ _ => .pure (none _))
    | vertices vs => exact (calm_indexedP hv).bind (fun _ _ => .pure (none _))
    | _ => exact .err hf

theorem calm_stageCount {k k' : Option Kind} {o : Output}
    (hk' : k' = match k with | some .count => none | some _ => some .count | none => none)
    (ho : Kinded P k o) (hk : P.err .operationOnQuery ∨ k' ≠ none) :
    (Prog.lift (do return .count (← countOf o)) : Prog Output).Calm P (Kinded P k') := by
  have e : ∀ n k'', k' = some k'' → (Output.count n).kind = k'' := by
    clear ho hk
    rintro n k'' rfl
    split at hk' <;> cases hk'
    rfl
  cases o with
  | count n =>
    refine .err (hk.resolve_right (fun h => h ?_))
    rcases ho.cases with rfl | rfl <;> exact hk'
  | _ => exact .lift (fun f e => by cases e) (fun a ha => by cases ha; exact ⟨hk, e _⟩)

/-- There is an output, and the last one has the kind. -/
def Last (P : Perms X) (k : Option Kind) (l : List Output) : Prop := ∃ a o, vecPop l = some (a, o) ∧ Kinded P k o

theorem Last.concat {k : Option Kind} {l : List Output} {o : Output} (h : Kinded P k o) : Last P k (l ++ [o]) :=
  ⟨l, o, by simp [vecPop], h⟩

theorem calm_runStage {inner : Query} {r : Prog (List Output)} {stage : Output → Prog Output} {k k' : Option Kind}
    (hr : r.Calm P (Last P k)) (hs : ∀ o, Kinded P k o → (stage o).Calm P (Kinded P k')) :
    (runStageP inner r stage).Calm P (Last P k') := by
  refine hr.bind (fun o ho => ?_)
  obtain ⟨a, b, h, hb⟩ := ho
  simp only [h]
  exact (hs b hb).bind (fun _ h => .pure (.concat h))

theorem calm_list {α : Type} {l : DynIter α} {f : List α → Output} {k : Kind} {out : List Output} (h : Items P (fun _ => True) l)
    (hf : ∀ a, (f a).kind = k) :
    (do return out ++ [f (← Prog.lift (collect l))] : Prog (List Output)).Calm P (Last P (some k)) :=
  (Calm.collect h).bind (fun _ _ => .pure (.concat ⟨Or.inr (by simp), fun _ e => by cases e; exact hf _⟩))

/-- The query, and everything in it, fits; or errors for this may be reported. -/
theorem inner_gives {k : Option Kind} {q : Option Kind} (h : P.err .operationOnQuery ∨ k ≠ none) (hq : q = none → k = none) :
    P.err .operationOnQuery ∨ q ≠ none := h.imp id (fun h e => h (hq e))

/-- A query fails only as permitted; it yields at least one output. -/
theorem calm_query (q : Query) (hn : ∀ n ∈ q.lookups, Known P n) (hk : P.err .operationOnQuery ∨ q.gives ≠ none) :
    ∀ out, (queryP X q out).Calm P (Last P q.gives) := by
  have kd : ∀ {k : Kind} {o : Output}, o.kind = k → Kinded P (some k) o :=
    fun h => ⟨Or.inr (by simp), fun _ e => by cases e; exact h⟩
  induction q with
  | allVertex => exact fun out => (calm_vertexIterate _).bind (fun _ hl => calm_list hl (fun _ => rfl))
  | rangeVertex limit t startId =>
    intro out
    cases startId <;> exact (calm_vertexIterate _).bind (fun _ hl => calm_list (hl.filterT.take _) (fun _ => rfl))
  | specificVertex ids => exact fun out => (calm_specificVertices _).bind (fun _ hl => calm_list hl (fun _ => rfl))
  | pipe inner d limit t ih =>
    have hi := inner_gives (q := inner.gives) hk (fun e => by simp only [Query.gives, e])
    exact fun out => calm_runStage (ih hn hi out) (fun o ho => calm_stagePipe d limit t rfl ho hk)
  | pipeProperty inner name ih =>
    have hi := inner_gives (q := inner.gives) hk (fun e => by simp only [Query.gives, e])
    exact fun out => calm_runStage (ih hn hi out) (fun o ho => calm_stageProperty name rfl ho hk)
  | vertexWithPropertyPresence name =>
    exact fun out => (calm_indexedP (calm_ifIndexed (hn _ (by simp [Query.lookups])) (calm_vids _))).bind (fun _ _ =>
      (calm_specificVertices _).bind (fun _ hl => calm_list hl (fun _ => rfl)))
  | vertexWithPropertyValue name value =>
    exact fun out => (calm_indexedP (calm_ifIndexed (hn _ (by simp [Query.lookups])) (calm_vids _))).bind (fun _ _ =>
      (calm_specificVertices _).bind (fun _ hl => calm_list hl (fun _ => rfl)))
  | edgeWithPropertyPresence name =>
    exact fun out => (calm_indexedP (calm_ifIndexed (hn _ (by simp [Query.lookups])) (calm_epvIterate _))).bind
      (fun _ _ => .pure (.concat (kd rfl)))
  | edgeWithPropertyValue name value =>
    exact fun out => (calm_indexedP (calm_ifIndexed (hn _ (by simp [Query.lookups])) (calm_epvIterate _))).bind
      (fun _ _ => .pure (.concat (kd rfl)))
  | pipeWithPropertyPresence inner name ex ih =>
    have hi := inner_gives (q := inner.gives) hk (fun e => by simp only [Query.gives, e])
    have h1 := hn name (by simp [Query.lookups])
    exact fun out => calm_runStage (ih (fun n h => hn n (by simp [Query.lookups, h])) hi out) (fun o ho =>
      calm_stageFilter (calm_ifIndexed h1 (calm_epvIterate _)) (calm_ifIndexed h1 (calm_vids _)) _ rfl ho hk)
  | pipeWithPropertyValue inner name value eq ih =>
    have hi := inner_gives (q := inner.gives) hk (fun e => by simp only [Query.gives, e])
    have h1 := hn name (by simp [Query.lookups])
    exact fun out => calm_runStage (ih (fun n h => hn n (by simp [Query.lookups, h])) hi out) (fun o ho =>
      calm_stageFilter (calm_ifIndexed h1 (calm_epvIterate _)) (calm_ifIndexed h1 (calm_vids _)) _ rfl ho hk)
  | allEdge => exact fun out => (calm_edgeIterateAll (.inl rfl)).bind (fun _ hl => calm_list hl (fun _ => rfl))
  | specificEdge edges => exact fun out => (calm_specificEdges _).bind (fun _ hl => calm_list hl (fun _ => rfl))
  | incl inner ih =>
    refine fun out => (ih hn hk out).bind (fun o ho => ?_)
    obtain ⟨a, b, h, hb⟩ := ho
    simp only [h]
    exact .pure (.concat hb)
  | count inner ih =>
    intro out
    have hi := inner_gives (q := inner.gives) hk (fun e => by simp only [Query.gives, e])
    cases inner with
    | allVertex => exact Calm.bind ((calm_vertexIterate _).bind (fun _ _ => .pure trivial)) (fun _ (_ : True) => .pure (.concat (kd rfl)))
    | allEdge => exact Calm.bind ((calm_edgeIterateAll (.inl rfl)).bind (fun _ _ => .pure trivial)) (fun _ (_ : True) => .pure (.concat (kd rfl)))
    | _ => exact calm_runStage (ih hn hi out) (fun o ho => calm_stageCount rfl ho hk)

theorem calm_lastOutput (q : Query) (hn : ∀ n ∈ q.lookups, Known P n) (hk : P.err .operationOnQuery ∨ q.gives ≠ none) :
    (lastOutputP X q).Calm P (Kinded P q.gives) := by
  refine (calm_query q hn hk []).bind (fun o ho => ?_)
  obtain ⟨a, b, h, hb⟩ := ho
  simp only [h]
  exact .pure hb

theorem calm_delete (q : Query) (hn : ∀ n ∈ q.lookups, Known P n)
    (hk : P.err .operationOnQuery ∨ q.gives ≠ none ∧ q.gives ≠ some .count) : (deleteP X q).Calm P (fun _ => True) := by
  refine (calm_lastOutput q hn (hk.imp id (·.1))).bind (fun o ho => ?_)
  cases o with
  | vertices vs => exact calm_deleteVertices vs
  | edges es => exact calm_deleteEdges es
  | vertexProperties l => exact calm_deleteVertexProperties _
  | edgeProperties l => exact calm_deleteEdgeProperties _
  | count _ => exact .err (hk.resolve_right (fun h => ho.cases.elim h.2 h.1))

theorem calm_setProperties (q : Query) (hn : ∀ n ∈ q.lookups, Known P n)
    (hk : P.err .operationOnQuery ∨ (q.gives = some .vertices ∨ q.gives = some .edges)) (n : Identifier) (v : Json) :
    (setPropertiesP X q n v).Calm P (fun _ => True) := by
  refine (calm_lastOutput q hn (hk.imp id (fun h e => by rw [e] at h; simp at h))).bind (fun o ho => ?_)
  have key : (∀ k, q.gives = some k → k ≠ .vertices ∧ k ≠ .edges) → P.err .operationOnQuery :=
    fun h => hk.resolve_right (fun h' => h'.elim (fun e => (h _ e).1 rfl) (fun e => (h _ e).2 rfl))
  cases o with
  | vertices vs => exact calm_setVertexProperties _ _ _
  | edges es => exact calm_setEdgeProperties _ _ _
  | vertexProperties l => exact .err (key (fun k e => by have := ho.2 k e; subst this; simp [Output.kind]))
  | edgeProperties l => exact .err (key (fun k e => by have := ho.2 k e; subst this; simp [Output.kind]))
  | count _ => exact .err (key (fun k e => by have := ho.2 k e; subst this; simp [Output.kind]))

/-- The errors the call may need to report may be reported. -/
structure Permits (P : Perms X) (op : Op) : Prop where
  names : ∀ n ∈ op.lookups, Known P n
  fits : P.err .operationOnQuery ∨ op.QueryFits
  taken : P.err .uuidTaken ∨ ∀ id t, op ≠ .createVertexFromType id t

/-- A call fails only as permitted. -/
theorem calm_call (O : IdentOrder) (op : Op) (h : Permits P op) : (callProg X O op).Calm P (fun _ => True) := by
  cases op with
  | sync => exact Calm.bind (Q := fun _ => True) (.pure trivial) (fun _ _ => .pure trivial)
  | createVertex v => exact (calm_createVertex v).bind (fun _ _ => .pure trivial)
  | createVertexFromType id t =>
    refine Calm.bind (Q := fun _ => True) ((calm_createVertex _).bind (fun r _ => ?_)) (fun _ _ => .pure trivial)
    cases r
    · exact .err (h.taken.resolve_right (fun h => h _ _ rfl))
    · exact .pure trivial
  | createEdge e => exact (calm_createEdge e).bind (fun _ _ => .pure trivial)
  | get q => exact (calm_query q h.names h.fits []).bind (fun _ _ => .pure trivial)
  | delete q => exact (calm_delete q h.names h.fits).bind (fun _ _ => .pure trivial)
  | setProperties q n v => exact (calm_setProperties q h.names h.fits n v).bind (fun _ _ => .pure trivial)
  | bulkInsert items => exact (calm_bulkInsert items).bind (fun _ _ => .pure trivial)
  | indexProperty n => exact (calm_indexProperty O n).bind (fun _ _ => .pure trivial)

/-! ### Executions -/

variable {V : Json → Prop}

/-- Everything stored is well-formed, and the values satisfy `V`. -/
structure Sound (X : Cfg) (V : Json → Prop) (kv : KV) : Prop where
  wf : Wf X kv
  values : Values X V kv
  md : ∀ k v, (kv .metadata).get k = some v → ∃ l, v = encodeIdents l

theorem Sound.empty : Sound X V KV.empty := ⟨Wf.empty, Values.empty, fun k v h => by simp [KV.empty] at h⟩

theorem Sound.write {kv : KV} {b : Batch} (h : Sound X V kv) (hb : BatchOk X V b) : Sound X V (kv.write b) :=
  ⟨h.wf.write hb, h.values.write hb, fun k v hg => (put_shape hg).elim (fun h => hb.ops _ h) (h.md k v)⟩

/-- Values satisfying `V` may be read. -/
def _root_.IndraDB.Perms.Reads (P : Perms X) (V : Json → Prop) : Prop := ∀ x, V x → P.bytes (X.codec.enc x)

theorem Sound.entry {kv : KV} (h : Sound X V kv) (hP : P.Reads V) {cf : CF} {k v : Bytes} (hg : (kv cf).get k = some v) :
    EntryOk P cf k v := by
  cases cf with
  | vertices => exact h.wf.vertices k v hg
  | edgeRanges => exact h.wf.edges k v hg
  | reversedEdgeRanges => exact h.wf.reversed k v hg
  | vertexProperties =>
    obtain ⟨x, rfl, hx⟩ := h.values.vprops k v hg
    exact ⟨h.wf.vprops k _ hg, hP x hx⟩
  | edgeProperties =>
    obtain ⟨x, rfl, hx⟩ := h.values.eprops k v hg
    exact ⟨h.wf.eprops k _ hg, hP x hx⟩
  | vertexPropertyValues => exact h.wf.vindex k v hg
  | edgePropertyValues => exact h.wf.eindex k v hg
  | metadata => exact trivial

theorem Sound.items {kv : KV} (h : Sound X V kv) (hP : P.Reads V) (cf : CF) (lo : Bytes) (i : Nat)
    (x : List (Res (Bytes × Bytes))) (hx : x = [] ∨ x = [.error ioFault] ∧ P.err .datastore) :
    Items P (fun e => EntryOk P cf e.1 e.2) ((((kv cf).rangeFrom lo).take i).map .ok ++ x) := by
  constructor
  · intro a ha
    rcases List.mem_append.1 ha with ha | ha
    · obtain ⟨b, hb, e⟩ := List.mem_map.1 ha
      cases e
      exact h.entry hP (SMap.mem_rangeFrom.1 (List.mem_of_mem_take hb)).1
    · rcases hx with rfl | ⟨rfl, _⟩
      · cases ha
      · rw [List.mem_singleton] at ha; cases ha
  · intro f ha
    rcases List.mem_append.1 ha with ha | ha
    · obtain ⟨b, hb, e⟩ := List.mem_map.1 ha
      cases e
    · rcases hx with rfl | ⟨rfl, hx⟩
      · cases ha
      · rw [List.mem_singleton] at ha; cases ha; exact ⟨_, rfl, hx⟩

theorem Sound.all_items {kv : KV} (h : Sound X V kv) (hP : P.Reads V) (cf : CF) (lo : Bytes) :
    Items P (fun e => EntryOk P cf e.1 e.2) (((kv cf).rangeFrom lo).map .ok) := by
  have := h.items hP cf lo ((kv cf).rangeFrom lo).length [] (.inl rfl)
  rwa [List.take_length, List.append_nil] at this

/-- What a call under way satisfies. -/
def Tame (P : Perms X) (V : Json → Prop) (p : Prog Reply) : Prop := p.Calm P (fun _ => True) ∧ p.All (BatchOk X V) (fun _ => True)

theorem tame_call (O : IdentOrder) (op : Op) (h : Permits P op) (hv : op.ValuesOk V) : Tame P V (callProg X O op) :=
  ⟨calm_call O op h, all_call O op hv⟩

theorem tame_fault (h : P.err .datastore) : Tame P V (.done (.error ioFault)) :=
  ⟨⟨(fun f e => by cases e; exact ⟨_, rfl, h⟩), fun a h => (nomatch h)⟩, trivial⟩

/-- The calls so far have done nothing that is not permitted: call `c` as `P c` permits. -/
structure CalmInv (X : Cfg) (V : Json → Prop) (P : Nat → Perms X) (h : List Ev) (S : Conc) : Prop where
  sound : Sound X V S.db.kv
  calls : ∀ c p, S.calls c = .running p → Tame (P c) V p
  rets : ∀ c f, Ev.ret c (.error f) ∈ h → Mild (P c) f
  log : ∀ x ∈ S.log, BatchOk X V x.2

variable {Ps : Nat → Perms X}

theorem CalmInv.silent {h e : List Ev} {S S' : Conc} (H : CalmInv X V Ps h S) {c : Nat} {p' : Prog Reply}
    (hp' : Tame (Ps c) V p') (h1 : S'.calls = setAt S.calls c (.running p')) (h2 : Sound X V S'.db.kv)
    (h3 : ∀ x ∈ S'.log, BatchOk X V x.2) (h4 : ∀ c r, Ev.ret c r ∉ e) : CalmInv X V Ps (h ++ e) S' := by
  refine ⟨h2, ?_, ?_, h3⟩
  · intro i q hi
    rw [h1] at hi
    rcases setAt_eq hi with ⟨h5, h4⟩ | ⟨_, h4⟩
    · cases h4; subst h5; exact hp'
    · exact H.calls i q h4
  · intro i r hr
    rcases List.mem_append.1 hr with hr | hr
    · exact H.rets i r hr
    · exact absurd hr (h4 i _)

theorem CalmInv.step {h e : List Ev} {S S' : Conc} (H : CalmInv X V Ps h S) (hs : Conc.Step X S e S')
    (hP : ∀ c, (Ps c).Reads V) (hn : ∀ c p, S.calls c = .running p → (Ps c).names S.db.indexed)
    (hc : ∀ c op, Ev.call c op ∈ e → Permits (Ps c) op) (hv : OkCalls V e) : CalmInv X V Ps (h ++ e) S' := by
  have no : ∀ c r, Ev.ret c r ∉ ([] : List Ev) := fun c r h => (nomatch h)
  cases hs with
  | call c O op hu => exact H.silent (tame_call O op (hc c op (by simp)) (hv c op (by simp))) rfl H.sound H.log (fun c r h => by simp at h)
  | get c cf k n hr =>
    have := H.calls c _ hr
    exact H.silent ⟨this.1 _ (fun v hv => H.sound.entry (hP c) hv), this.2 _⟩ rfl H.sound H.log no
  | scan c cf k n hr =>
    have := H.calls c _ hr
    exact H.silent ⟨this.1 _ (H.sound.all_items (hP c) _ _), this.2 _⟩ rfl H.sound H.log no
  | write c b n hr =>
    have := H.calls c _ hr
    refine H.silent (p' := n ()) ⟨this.1, this.2.2⟩ rfl (H.sound.write this.2.1) ?_ no
    intro x hx
    rcases List.mem_append.1 hx with hx | hx
    · exact H.log x hx
    · rw [List.mem_singleton] at hx; subst hx; exact this.2.1
  | readLock c _ n hr _ => exact H.silent ⟨(H.calls c _ hr).1 _ (hn c _ hr), (H.calls c _ hr).2 _⟩ rfl H.sound H.log no
  | writeLock c n hr _ _ => exact H.silent ⟨(H.calls c _ hr).1 _ (hn c _ hr), (H.calls c _ hr).2 _⟩ rfl H.sound H.log no
  | setIndexed c ix n hr =>
    exact H.silent (p' := n ()) ⟨(H.calls c _ hr).1.2, (H.calls c (.setIndexed ix n) hr).2⟩ rfl H.sound H.log no
  | unlock c r hr hw => exact ⟨H.sound, H.calls, by simpa using H.rets, H.log⟩
  | unlockRead c r hr hw => exact ⟨H.sound, H.calls, by simpa using H.rets, H.log⟩
  | ret c r hr hw hd =>
    refine ⟨H.sound, ?_, ?_, H.log⟩
    · intro i q hi
      rcases setAt_eq hi with ⟨_, h4⟩ | ⟨_, h4⟩
      · cases h4
      · exact H.calls i q h4
    · intro i r' hi
      rcases List.mem_append.1 hi with hi | hi
      · exact H.rets i r' hi
      · rw [List.mem_singleton] at hi; cases hi
        exact (H.calls c _ hr).1.1 _ rfl

theorem CalmInv.faultyStep {h e : List Ev} {S S' : Conc} (H : CalmInv X V Ps h S) (hs : Conc.FaultyStep X S e S')
    (hd : ∀ c, (Ps c).err .datastore)
    (hP : ∀ c, (Ps c).Reads V) (hn : ∀ c p, S.calls c = .running p → (Ps c).names S.db.indexed)
    (hc : ∀ c op, Ev.call c op ∈ e → Permits (Ps c) op) (hv : OkCalls V e) : CalmInv X V Ps (h ++ e) S' := by
  have no : ∀ c r, Ev.ret c r ∉ ([] : List Ev) := fun c r h => (nomatch h)
  cases hs with
  | fine hs => exact H.step hs hP hn hc hv
  | getFails c cf k n hr => exact H.silent (tame_fault (hd c)) rfl H.sound H.log no
  | scanFails c i cf lo n hr =>
    have := H.calls c _ hr
    exact H.silent ⟨this.1 _ (H.sound.items (hP c) _ _ _ _ (.inr ⟨rfl, hd c⟩)), this.2 _⟩ rfl H.sound H.log no
  | writeFails c b n hr => exact H.silent (tame_fault (hd c)) rfl H.sound H.log no
  | flushFails c hu => exact H.silent (tame_fault (hd c)) rfl H.sound H.log (fun c r h => by simp at h)

/-- Any error except for a damaged entry. -/
def _root_.IndraDB.Perms.lax (X : Cfg) : Perms X := ⟨(· ≠ .io), fun _ => True, fun _ => True, (fun _ _ _ h => by cases h), fun _ _ _ => trivial⟩

theorem permits_lax (op : Op) : Permits (Perms.lax X) op :=
  ⟨fun _ _ => Or.inl (fun h => by cases h), Or.inl (fun h => by cases h), Or.inl (fun h => by cases h)⟩

theorem CalmInv.exec {s : Rocks} {h : List Ev} {S : Conc} (hw : Sound X V s.kv) (hx : Conc.FaultyExec X s h S) (hv : OkCalls V h) :
    CalmInv X V (fun _ => Perms.lax X) h S := by
  induction hx with
  | nil => exact ⟨hw, (fun c p h => by cases h), (fun c r h => (nomatch h)), (fun x h => (nomatch h))⟩
  | snoc hx hs ih =>
    exact (ih (fun c op h => hv c op (List.mem_append_left _ h))).faultyStep hs (fun _ h => by cases h) (fun _ _ _ => trivial)
      (fun _ _ _ => trivial) (fun _ op _ => permits_lax op) (fun c op h => hv c op (List.mem_append_right _ h))

theorem Sound.replay {kv : KV} (h : Sound X V kv) {l : List (Nat × Batch)} (hl : ∀ x ∈ l, BatchOk X V x.2) :
    Sound X V (l.foldl (fun kv x => kv.write x.2) kv) := by
  induction l generalizing kv with
  | nil => exact h
  | cons a r ih => exact ih (h.write (hl a List.mem_cons_self)) (fun x hx => hl x (List.mem_cons_of_mem _ hx))

theorem decodeIdents_ok (l : List Identifier) : ∃ ix, decodeIdents (encodeIdents l) = .ok ix := by
  have h1 : ((encodeIdents l).take 8) = le64 l.length := by
    rw [encodeIdents, List.take_append_of_le_length (by simp [le64_length]), List.take_of_length_le (by simp [le64_length])]
  have h2 : ((encodeIdents l).drop 8) = l.flatMap (fun i => le64 i.bytes.length ++ i.bytes) := by
    have := List.drop_left (l₁ := le64 l.length) (l₂ := l.flatMap (fun i => le64 i.bytes.length ++ i.bytes))
    rwa [le64_length] at this
  have hm : leVal (le64 l.length) ≤ l.length := by
    simp only [le64, leVal]
    simp
    omega
  unfold decodeIdents
  rw [if_neg (by simp [encodeIdents, le64_length]), h1, h2]
  generalize leVal (le64 l.length) = m at hm
  have hs : l.flatMap (fun i => le64 i.bytes.length ++ i.bytes) =
      (l.take m).flatMap (fun i => le64 i.bytes.length ++ i.bytes) ++ (l.drop m).flatMap (fun i => le64 i.bytes.length ++ i.bytes) := by
    rw [← List.flatMap_append, List.take_append_drop]
  have hl : (l.take m).length = m := by rw [List.length_take]; omega
  have := decodeIdentList_append (l.take m) ((l.drop m).flatMap (fun i => le64 i.bytes.length ++ i.bytes))
  rw [hl] at this
  rw [hs, this]
  exact ⟨_, rfl⟩

/-- Opening succeeds and changes nothing. -/
theorem Sound.opens {kv : KV} (h : Sound X V kv) : ∃ t, (newDb (Dir.full kv)).2 = .ok t ∧ t.kv = kv := by
  rw [newDb_full]
  have : ∃ ix, (getIndexed.run ⟨kv, SMap.empty⟩).2 = .ok ix := by
    cases hg : (kv .metadata).get metaKey with
    | none => exact ⟨_, getIndexed_none (s := ⟨kv, SMap.empty⟩) hg⟩
    | some b =>
      obtain ⟨l, rfl⟩ := h.md _ _ hg
      rw [getIndexed_some (s := ⟨kv, SMap.empty⟩) hg]
      exact decodeIdents_ok l
  obtain ⟨ix, hi⟩ := this
  simp only [load, Dir.full, hi]
  exact ⟨_, rfl, rfl⟩

theorem Sound.life {hs : List (List Ev)} {s : Rocks} (hl : FaultyLife X hs s) (hv : ∀ h ∈ hs, OkCalls V h) : Sound X V s.kv := by
  induction hl with
  | new h =>
    cases h
    exact Sound.empty
  | @again hs s t h S k _ hx ht ih =>
    have ih := ih (fun h hm => hv h (List.mem_append_left _ hm))
    have H := CalmInv.exec ih hx (hv h (by simp))
    have := ih.replay (l := S.log.take k) (fun x hx => H.log x (List.mem_of_mem_take hx))
    obtain ⟨t', h1, h2⟩ := this.opens
    rw [h1] at ht
    cases ht
    rw [h2]; exact this

theorem OkCalls.any (h : List Ev) : OkCalls (fun _ => True) h := by
  intro c op _
  cases op <;> simp only [Op.ValuesOk]
  intro i _; cases i <;> trivial

end Rocks
end IndraDB
