import Verif.Proofs.Linear
import Verif.Proofs.RocksCrash
/-
What the calls of `Op.touches` look at and change, in terms of keys of the database.
-/
set_option linter.unusedSimpArgs false
namespace IndraDB

/-- Outcomes related by `R`. -/
def ResRel {α : Type} (R : α → α → Prop) : Res α → Res α → Prop
  | .ok a, .ok b => R a b
  | .error e, .error f => e = f
  | _, _ => False

namespace Prog
variable {α β : Type}

/-- The programs have the same effect, and related outcomes. -/
def Eqv (R : α → α → Prop) (p q : Prog α) : Prop := ∀ s, (p.run s).1 = (q.run s).1 ∧ ResRel R (p.run s).2 (q.run s).2

theorem Eqv.rfl' {R : α → α → Prop} (hR : ∀ a, R a a) (p : Prog α) : Eqv R p p := by
  intro s
  refine ⟨rfl, ?_⟩
  cases (p.run s).2 with
  | ok a => exact hR a
  | error e => exact rfl

theorem Eqv.eq {p q : Prog α} (h : Eqv Eq p q) (s : Rocks) : p.run s = q.run s := by
  obtain ⟨h1, h2⟩ := h s
  refine Prod.ext h1 ?_
  cases hp : (p.run s).2 <;> cases hq : (q.run s).2 <;> rw [hp, hq] at h2
  · exact congrArg _ h2
  · exact h2.elim
  · exact h2.elim
  · exact congrArg _ h2

theorem Eqv.bind {R : α → α → Prop} {R' : β → β → Prop} {p q : Prog α} {f g : α → Prog β} (h : Eqv R p q)
    (hf : ∀ a b, R a b → Eqv R' (f a) (g b)) : Eqv R' (p.bind f) (q.bind g) := by
  intro s
  rw [run_bind', run_bind']
  obtain ⟨h1, h2⟩ := h s
  rcases hp : p.run s with ⟨s1, r1⟩
  rcases hq : q.run s with ⟨s2, r2⟩
  rw [hp, hq] at h1 h2
  simp only at h1 h2
  subst h1
  cases r1 with
  | ok a => cases r2 with
    | ok b => exact hf a b h2 s1
    | error f => exact h2.elim
  | error e => cases r2 with
    | ok b => exact h2.elim
    | error f => exact ⟨rfl, h2⟩

/-- The program gets only keys in `F`, except where what it gets makes no difference; writes only keys in `G`; does not
iterate, or change the set of indexed names; and its successful outcomes satisfy `Q`. -/
def Within (F G : CF → Bytes → Prop) (R : α → α → Prop) (Q : α → Prop) : Prog α → Prop
  | .done r => ∀ a, r = .ok a → Q a
  | .get cf k n => (F cf k ∨ ∀ r r', Eqv R (n r) (n r')) ∧ ∀ r, (n r).Within F G R Q
  | .scan _ _ _ => False
  | .write b n => (∀ w ∈ b, match w with | .put cf k _ => G cf k | .delete cf k => G cf k) ∧ (n ()).Within F G R Q
  | .readLock _ n => ∀ r, (n r).Within F G R Q
  | .writeLock _ => False
  | .setIndexed _ _ => False

/-- The batch changes only keys in `G`. -/
def In (G : CF → Bytes → Prop) (b : Batch) : Prop := ∀ w ∈ b, match w with | .put cf k _ => G cf k | .delete cf k => G cf k

/-- The batches have the same effect. -/
def Same (b b' : Batch) : Prop := ∀ kv : KV, kv.write b = kv.write b'

variable {F G : CF → Bytes → Prop} {R : α → α → Prop} {R' : β → β → Prop} {Q : α → Prop} {Q' : β → Prop}

theorem Within.bind {p : Prog α} {f : α → Prog β} (h : p.Within F G R Q) (hf : ∀ a, Q a → (f a).Within F G R' Q')
    (hR : ∀ a b, R a b → Eqv R' (f a) (f b)) : (p >>= f).Within F G R' Q' := by
  show (p.bind f).Within F G R' Q'
  induction p with
  | done r => cases r with
    | ok a => exact hf a (h a rfl)
    | error e => exact fun a h => (nomatch h)
  | get cf k n ih =>
    refine ⟨?_, fun r => ih r (h.2 r)⟩
    rcases h.1 with h1 | h1
    · exact Or.inl h1
    · exact Or.inr (fun r r' => (h1 r r').bind hR)
  | scan cf lo n ih => exact h.elim
  | write b n ih => exact ⟨h.1, ih () h.2⟩
  | readLock _ n ih => exact fun r => ih r (h r)
  | writeLock n ih => exact h.elim
  | setIndexed ix n ih => exact h.elim

/-- For programs whose outcomes are compared by equality. -/
theorem Within.bindE {p : Prog α} {f : α → Prog β} (h : p.Within F G Eq Q) (hf : ∀ a, Q a → (f a).Within F G R' Q')
    (hR : ∀ b, R' b b) : (p >>= f).Within F G R' Q' :=
  h.bind hf (fun a b e => by subst e; exact .rfl' hR _)

theorem Within.mono {p : Prog α} {Q₂ : α → Prop} (h : p.Within F G R Q) (hQ : ∀ a, Q a → Q₂ a) : p.Within F G R Q₂ := by
  induction p with
  | done r => exact fun a e => hQ a (h a e)
  | get cf k n ih => exact ⟨h.1, fun r => ih r (h.2 r)⟩
  | scan cf lo n ih => exact h.elim
  | write b n ih => exact ⟨h.1, ih () h.2⟩
  | readLock _ n ih => exact fun r => ih r (h r)
  | writeLock n ih => exact h.elim
  | setIndexed ix n ih => exact h.elim

theorem Within.pure {a : α} (h : Q a) : (Pure.pure a : Prog α).Within F G R Q := fun b e => by cases e; exact h
theorem Within.lift (r : Res α) (h : ∀ a, r = .ok a → Q a) : (Prog.lift r).Within F G R Q := h

theorem Within.getCf {cf : CF} {k : Bytes} {R : Option Bytes → Option Bytes → Prop} (h : F cf k) :
    (Prog.getCf cf k).Within F G R (fun _ => True) :=
  ⟨Or.inl h, fun _ _ _ => trivial⟩

theorem Same.refl (b : Batch) : Same b b := fun _ => rfl

theorem Within.forAll {f : α → Prog Batch} {l : List α} (h : ∀ a ∈ l, (f a).Within F G Same (In G)) :
    (Prog.forAll f l).Within F G Same (In G) := by
  induction l with
  | nil => exact .pure (fun w h => (nomatch h))
  | cons a r ih =>
    have tail : ∀ b b' : Batch, Same b b' → Eqv Same (do let x ← Prog.forAll f r; return b ++ x)
        (do let x ← Prog.forAll f r; return b' ++ x) := by
      intro b b' hb
      refine Eqv.bind (R := Eq) (.rfl' (fun _ => rfl) _) ?_
      rintro x _ rfl s
      refine ⟨rfl, fun kv => ?_⟩
      rw [KV.write_append, KV.write_append, hb kv]
    refine (h a List.mem_cons_self).bind (fun b hb => ?_) tail
    refine (ih (fun x hx => h x (List.mem_cons_of_mem _ hx))).bind (fun b' hb' => .pure ?_) (fun x y hxy s => ⟨rfl, fun kv => ?_⟩)
    · intro w hw
      rcases List.mem_append.1 hw with hw | hw
      · exact hb w hw
      · exact hb' w hw
    · rw [KV.write_append, KV.write_append, hxy]

theorem Within.locked {f : SSet Identifier → Prog Batch} (h : ∀ ix, (f ix).Within F G Same (In G)) :
    (Rocks.locked f).Within F G Eq (fun _ => True) := by
  intro ix
  refine (h ix).bind (fun b hb => ⟨hb, fun _ _ => trivial⟩) (fun b b' hb s => ⟨?_, rfl⟩)
  show { s with kv := s.kv.write b } = { s with kv := s.kv.write b' }
  rw [hb]

theorem Within.filterMapItems {f : α → Prog (Option β)} {l : List α} {Q' : β → Prop}
    (h : ∀ a ∈ l, (f a).Within F G Eq (fun o => ∀ b, o = some b → Q' b)) :
    (Prog.filterMapItems f (l.map .ok)).Within F G Eq (fun r => ∀ b, Except.ok b ∈ r → Q' b) := by
  induction l with
  | nil => exact .pure (fun b hb => (nomatch hb))
  | cons a r ih =>
    refine (h a List.mem_cons_self).bindE (fun o ho => ?_) (fun _ => rfl)
    refine (ih (fun x hx => h x (List.mem_cons_of_mem _ hx))).bindE (fun l hl => .pure ?_) (fun _ => rfl)
    intro b hb
    cases o with
    | none => exact hl b hb
    | some c =>
      rcases List.mem_cons.1 hb with e | hb
      · cases e; exact ho _ rfl
      · exact hl b hb

end Prog

namespace Rocks
open Prog
variable {X : Cfg}

/-- Where it is stored. -/
def _root_.IndraDB.Thing.key (X : Cfg) : Thing → CF × Bytes
  | .vertex id => (.vertices, vertexKey X id)
  | .edge e => (.edgeRanges, edgeKey X e)
  | .vertexProperty id n => (.vertexProperties, vpKey X id n)
  | .edgeProperty e n => (.edgeProperties, epKey X e n)

theorem thing_inj {x y : Thing} (h : x.key X = y.key X) : x = y := by
  cases x <;> cases y <;> simp only [Thing.key, Prod.mk.injEq, reduceCtorEq, false_and, true_and] at h
  · rw [vertexKey_inj.1 h]
  · rw [edgeKey_inj.1 h]
  · obtain ⟨rfl, rfl⟩ := vpKey_inj.1 h; rfl
  · obtain ⟨rfl, rfl⟩ := epKey_inj.1 h; rfl

/-- The keys of things. -/
def Keys (X : Cfg) (l : List Thing) (cf : CF) (k : Bytes) : Prop := ∃ x ∈ l, x.key X = (cf, k)

/-- The keys of things, and the tables derived from them. -/
def Keys' (X : Cfg) (l : List Thing) (cf : CF) (k : Bytes) : Prop :=
  Keys X l cf k ∨ cf = .reversedEdgeRanges ∨ cf = .vertexPropertyValues ∨ cf = .edgePropertyValues

theorem keys_apart {l c : List Thing} (h : ∀ x ∈ c, x ∉ l) {cf : CF} {k : Bytes} (h1 : Keys X l cf k) : ¬ Keys' X c cf k := by
  obtain ⟨x, hx, e⟩ := h1
  rintro (⟨y, hy, e'⟩ | hd)
  · rw [← e] at e'
    rw [thing_inj e'] at hy
    exact h x hy hx
  · cases x <;> simp only [Thing.key, Prod.mk.injEq] at e <;> obtain ⟨rfl, _⟩ := e <;> simp at hd

/-! ### The parts of the calls -/

variable {F G : CF → Bytes → Prop}

theorem within_vertexExists {id : Uuid} (h : F .vertices (vertexKey X id)) :
    (vertexExists X id).Within F G Eq (fun _ => True) :=
  (Within.getCf (R := Eq) h).bindE (fun _ _ => .pure trivial) (fun _ => rfl)

theorem within_vertexGet {id : Uuid} (h : F .vertices (vertexKey X id)) :
    (vertexGet X id).Within F G Eq (fun _ => True) := by
  refine (Within.getCf (R := Eq) h).bindE (fun r _ => ?_) (fun _ => rfl)
  cases r with
  | none => exact .pure trivial
  | some b => exact (Within.lift (R := Eq) (Q := fun _ => True) _ (fun _ _ => trivial)).bindE (fun _ _ => .pure trivial) (fun _ => rfl)

theorem within_vpGet {id : Uuid} {n : Identifier} (h : F .vertexProperties (vpKey X id n)) :
    (vpGet X id n).Within F G Eq (fun _ => True) := by
  refine (Within.getCf (R := Eq) h).bindE (fun r _ => ?_) (fun _ => rfl)
  cases r with
  | none => exact .pure trivial
  | some b => exact (Within.lift (R := Eq) (Q := fun _ => True) _ (fun _ _ => trivial)).bindE (fun _ _ => .pure trivial) (fun _ => rfl)

theorem within_epGet {e : Edge} {n : Identifier} (h : F .edgeProperties (epKey X e n)) :
    (epGet X e n).Within F G Eq (fun _ => True) := by
  refine (Within.getCf (R := Eq) h).bindE (fun r _ => ?_) (fun _ => rfl)
  cases r with
  | none => exact .pure trivial
  | some b => exact (Within.lift (R := Eq) (Q := fun _ => True) _ (fun _ _ => trivial)).bindE (fun _ _ => .pure trivial) (fun _ => rfl)

/-- Whether the edge is there makes no difference: deleting it before creating it has no effect. -/
theorem within_edgeSet {e : Edge} (h1 : G .edgeRanges (edgeKey X e)) (h2 : ∀ k, G .reversedEdgeRanges k) :
    (edgeSet X e).Within F G Same (In G) := by
  have hs : ∀ b b' : Bool, Same
      ((if b = true then edgeRangeDelete X .edgeRanges e ++ edgeRangeDelete X .reversedEdgeRanges e.reversed else []) ++
        edgeRangeSet X .edgeRanges e ++ edgeRangeSet X .reversedEdgeRanges e.reversed)
      ((if b' = true then edgeRangeDelete X .edgeRanges e ++ edgeRangeDelete X .reversedEdgeRanges e.reversed else []) ++
        edgeRangeSet X .edgeRanges e ++ edgeRangeSet X .reversedEdgeRanges e.reversed) := by
    have key : ∀ b : Bool, Same
        ((if b = true then edgeRangeDelete X .edgeRanges e ++ edgeRangeDelete X .reversedEdgeRanges e.reversed else []) ++
          edgeRangeSet X .edgeRanges e ++ edgeRangeSet X .reversedEdgeRanges e.reversed)
        (edgeRangeSet X .edgeRanges e ++ edgeRangeSet X .reversedEdgeRanges e.reversed) := by
      intro b kv
      cases b with
      | false => rfl
      | true =>
        refine KV.ext_get (fun cf k => ?_)
        rw [KV.write_get, KV.write_get]
        simp only [if_true, edgeRangeDelete, edgeRangeSet, List.cons_append, List.nil_append, Batch.at_cons, Batch.at_nil,
          WriteOp.at]
        by_cases ha : CF.edgeRanges = cf ∧ edgeKey X e = k
        · by_cases hb : CF.reversedEdgeRanges = cf ∧ edgeKey X e.reversed = k <;> simp [ha, hb]
        · by_cases hb : CF.reversedEdgeRanges = cf ∧ edgeKey X e.reversed = k <;> simp [ha, hb]
    intro b b' kv
    rw [key b kv, key b' kv]
  refine Within.bind (R := fun _ _ => True) (Q := fun _ => True) ?_ (fun b _ => .pure ?_) (fun b b' _ s => ⟨rfl, hs b b'⟩)
  · refine Within.bind (R := fun _ _ => True) (Q := fun _ => True) ?_ (fun _ _ => .pure trivial) (fun _ _ _ s => ⟨rfl, trivial⟩)
    exact ⟨Or.inr (fun r r' s => ⟨rfl, trivial⟩), fun r a _ => trivial⟩
  · intro w hw
    cases b <;> simp [edgeRangeDelete, edgeRangeSet] at hw
    · rcases hw with rfl | rfl
      · exact h1
      · exact h2 _
    · rcases hw with rfl | rfl | rfl | rfl
      · exact h1
      · exact h2 _
      · exact h1
      · exact h2 _

theorem In.append {b b' : Batch} (h : In G b) (h' : In G b') : In G (b ++ b') := by
  intro w hw
  rcases List.mem_append.1 hw with hw | hw
  · exact h w hw
  · exact h' w hw

theorem In.nil : In G [] := fun w h => (nomatch h)

theorem In.put {cf : CF} {k v : Bytes} (h : G cf k) : In G [.put cf k v] := by
  intro w hw
  simp at hw; subst hw; exact h

theorem In.delete {cf : CF} {k : Bytes} (h : G cf k) : In G [.delete cf k] := by
  intro w hw
  simp at hw; subst hw; exact h

theorem within_vpDelete {ix : SSet Identifier} {id : Uuid} {n : Identifier} (h : F .vertexProperties (vpKey X id n))
    (h1 : G .vertexProperties (vpKey X id n)) (h2 : ∀ k, G .vertexPropertyValues k) :
    (vpDelete X ix id n).Within F G Same (In G) := by
  refine Within.bindE (Q := In G) ?_ (fun b hb => .pure (In.append hb (In.delete h1))) Same.refl
  split
  · refine (within_vpGet h).bindE (fun r _ => ?_) (fun _ => rfl)
    cases r with
    | none => exact .pure In.nil
    | some v => exact .pure (In.delete (h2 _))
  · exact .pure In.nil

theorem within_vpSet {ix : SSet Identifier} {id : Uuid} {n : Identifier} {v : Json} (h : F .vertexProperties (vpKey X id n))
    (h1 : G .vertexProperties (vpKey X id n)) (h2 : ∀ k, G .vertexPropertyValues k) :
    (vpSet X ix id n v).Within F G Same (In G) := by
  refine Within.bind (R := Same) (Q := In G) ?_ (fun b hb => .pure ?_) ?_
  · split
    · exact within_vpDelete h h1 h2
    · exact .pure In.nil
  · split
    · exact In.append (In.append hb (In.put h1)) (In.put (h2 _))
    · exact In.append hb (In.put h1)
  · intro b b' hb s
    refine ⟨rfl, fun kv => ?_⟩
    split <;> simp only [KV.write_append, hb kv]

theorem within_epDelete {ix : SSet Identifier} {e : Edge} {n : Identifier} (h : F .edgeProperties (epKey X e n))
    (h1 : G .edgeProperties (epKey X e n)) (h2 : ∀ k, G .edgePropertyValues k) :
    (epDelete X ix e n).Within F G Same (In G) := by
  refine Within.bindE (Q := In G) ?_ (fun b hb => .pure (In.append hb (In.delete h1))) Same.refl
  split
  · refine (within_epGet h).bindE (fun r _ => ?_) (fun _ => rfl)
    cases r with
    | none => exact .pure In.nil
    | some v => exact .pure (In.delete (h2 _))
  · exact .pure In.nil

theorem within_epSet {ix : SSet Identifier} {e : Edge} {n : Identifier} {v : Json} (h : F .edgeProperties (epKey X e n))
    (h1 : G .edgeProperties (epKey X e n)) (h2 : ∀ k, G .edgePropertyValues k) :
    (epSet X ix e n v).Within F G Same (In G) := by
  refine Within.bind (R := Same) (Q := In G) ?_ (fun b hb => .pure ?_) ?_
  · split
    · exact within_epDelete h h1 h2
    · exact .pure In.nil
  · split
    · exact In.append (In.append hb (In.put h1)) (In.put (h2 _))
    · exact In.append hb (In.put h1)
  · intro b b' hb s
    refine ⟨rfl, fun kv => ?_⟩
    split <;> simp only [KV.write_append, hb kv]

theorem mem_collect {α : Type} {l : DynIter α} : ∀ {r : List α}, collect l = .ok r → ∀ a ∈ r, Except.ok a ∈ l := by
  induction l with
  | nil => intro r h a ha; cases h; cases ha
  | cons x l ih =>
    intro r h a ha
    cases x with
    | error e => cases h
    | ok b =>
      simp only [collect] at h
      cases hl : collect l with
      | error e => rw [hl] at h; cases h
      | ok r' =>
        rw [hl] at h
        cases h
        rcases List.mem_cons.1 ha with rfl | ha
        · exact List.mem_cons_self
        · exact List.mem_cons_of_mem _ (ih hl a ha)

/-- The query for given vertices returns some of them. -/
theorem within_specificVertex {ids : List Uuid} {out : List Output} (h : ∀ id ∈ ids, F .vertices (vertexKey X id)) :
    (queryP X (.specificVertex ids) out).Within F G Eq
      (fun o => ∃ vs, o = out ++ [.vertices vs] ∧ ∀ v ∈ vs, v.id ∈ ids) := by
  refine Within.bindE (Q := fun r : DynIter Vertex => ∀ v, Except.ok v ∈ r → v.id ∈ ids) ?_ (fun r hr => ?_) (fun _ => rfl)
  · refine Within.filterMapItems (fun id hid => ?_)
    refine (within_vertexGet (h id hid)).bindE (fun o _ => .pure ?_) (fun _ => rfl)
    intro v hv
    cases o with
    | none => cases hv
    | some t => cases hv; exact hid
  · refine Within.bindE (Q := fun vs : List Vertex => ∀ v ∈ vs, v.id ∈ ids) (.lift _ (fun vs e v hv => hr v (mem_collect e v hv)))
      (fun vs hvs => .pure ⟨vs, rfl, hvs⟩) (fun _ => rfl)

/-- The query for given edges returns some of them. -/
theorem within_specificEdge {es : List Edge} {out : List Output} (h : ∀ e ∈ es, F .edgeRanges (edgeKey X e)) :
    (queryP X (.specificEdge es) out).Within F G Eq
      (fun o => ∃ fs, o = out ++ [.edges fs] ∧ ∀ e ∈ fs, e ∈ es) := by
  refine Within.bindE (Q := fun r : DynIter Edge => ∀ v, Except.ok v ∈ r → v ∈ es) ?_ (fun r hr => ?_) (fun _ => rfl)
  · refine Within.filterMapItems (fun e he => ?_)
    refine Within.bindE (Q := fun _ : Bool => True)
      ((Within.getCf (R := Eq) (h e he)).bindE (fun _ _ => .pure trivial) (fun _ => rfl)) (fun o _ => .pure ?_) (fun _ => rfl)
    intro v hv
    cases o with
    | false => cases hv
    | true => cases hv; exact he
  · refine Within.bindE (Q := fun vs : List Edge => ∀ v ∈ vs, v ∈ es) (.lift _ (fun vs e v hv => hr v (mem_collect e v hv)))
      (fun vs hvs => .pure ⟨vs, rfl, hvs⟩) (fun _ => rfl)

theorem within_ownerProps {one : Identifier → Prog (Option Json)} {all : Prog (DynIter (Identifier × Json))} {n : Identifier}
    (h : (one n).Within F G Eq (fun _ => True)) :
    (ownerPropsP one all (some n)).Within F G Eq (fun l => ∀ p ∈ l, p.name = n) := by
  refine h.bindE (fun o _ => ?_) (fun _ => rfl)
  cases o with
  | none => exact .pure (fun p hp => (nomatch hp))
  | some v => exact .pure (fun p hp => by simp at hp; subst hp; rfl)

theorem within_pipeVertexProps {n : Identifier} {vs : List Vertex} (h : ∀ v ∈ vs, F .vertexProperties (vpKey X v.id n)) :
    (pipeVertexPropsP X (some n) vs).Within F G Eq
      (fun l => ∀ p ∈ l, p.vertex ∈ vs ∧ ∀ q ∈ p.props, q.name = n) := by
  induction vs with
  | nil => exact .pure (fun p hp => (nomatch hp))
  | cons v vs ih =>
    refine (within_ownerProps (within_vpGet (h v List.mem_cons_self))).bindE (fun l hl => ?_) (fun _ => rfl)
    refine (ih (fun w hw => h w (List.mem_cons_of_mem _ hw))).bindE (fun r hr => .pure ?_) (fun _ => rfl)
    intro p hp
    split at hp
    · exact ⟨List.mem_cons_of_mem _ (hr p hp).1, (hr p hp).2⟩
    · rcases List.mem_cons.1 hp with rfl | hp
      · exact ⟨List.mem_cons_self, hl⟩
      · exact ⟨List.mem_cons_of_mem _ (hr p hp).1, (hr p hp).2⟩

theorem within_pipeEdgeProps {n : Identifier} {es : List Edge} (h : ∀ e ∈ es, F .edgeProperties (epKey X e n)) :
    (pipeEdgePropsP X (some n) es).Within F G Eq
      (fun l => ∀ p ∈ l, p.edge ∈ es ∧ ∀ q ∈ p.props, q.name = n) := by
  induction es with
  | nil => exact .pure (fun p hp => (nomatch hp))
  | cons v vs ih =>
    refine (within_ownerProps (within_epGet (h v List.mem_cons_self))).bindE (fun l hl => ?_) (fun _ => rfl)
    refine (ih (fun w hw => h w (List.mem_cons_of_mem _ hw))).bindE (fun r hr => .pure ?_) (fun _ => rfl)
    intro p hp
    split at hp
    · exact ⟨List.mem_cons_of_mem _ (hr p hp).1, (hr p hp).2⟩
    · rcases List.mem_cons.1 hp with rfl | hp
      · exact ⟨List.mem_cons_self, hl⟩
      · exact ⟨List.mem_cons_of_mem _ (hr p hp).1, (hr p hp).2⟩

/-- A property of given vertices. -/
theorem within_vertexProperty {ids : List Uuid} {n : Identifier} {out : List Output} (h : ∀ id ∈ ids, F .vertices (vertexKey X id))
    (h' : ∀ id ∈ ids, F .vertexProperties (vpKey X id n)) :
    (queryP X (.pipeProperty (.specificVertex ids) (some n)) out).Within F G Eq
      (fun o => ∃ l, o = out ++ [.vertexProperties l] ∧ ∀ p ∈ l, p.vertex.id ∈ ids ∧ ∀ q ∈ p.props, q.name = n) := by
  refine (within_specificVertex h).bindE ?_ (fun _ => rfl)
  rintro _ ⟨vs, rfl, hvs⟩
  rw [show vecPop (out ++ [Output.vertices vs]) = some (out, .vertices vs) by simp [vecPop]]
  refine Within.bindE (Q := fun o => ∃ l, o = .vertexProperties l ∧ ∀ p ∈ l, p.vertex.id ∈ ids ∧ ∀ q ∈ p.props, q.name = n)
    ?_ ?_ (fun _ => rfl)
  · refine (within_pipeVertexProps (fun v hv => h' _ (hvs v hv))).bindE (fun l hl => .pure ⟨l, rfl, fun p hp => ?_⟩) (fun _ => rfl)
    exact ⟨hvs _ (hl p hp).1, (hl p hp).2⟩
  · rintro _ ⟨l, rfl, hl⟩
    exact .pure ⟨l, rfl, hl⟩

/-- A property of given edges. -/
theorem within_edgeProperty {es : List Edge} {n : Identifier} {out : List Output} (h : ∀ e ∈ es, F .edgeRanges (edgeKey X e))
    (h' : ∀ e ∈ es, F .edgeProperties (epKey X e n)) :
    (queryP X (.pipeProperty (.specificEdge es) (some n)) out).Within F G Eq
      (fun o => ∃ l, o = out ++ [.edgeProperties l] ∧ ∀ p ∈ l, p.edge ∈ es ∧ ∀ q ∈ p.props, q.name = n) := by
  refine (within_specificEdge h).bindE ?_ (fun _ => rfl)
  rintro _ ⟨vs, rfl, hvs⟩
  rw [show vecPop (out ++ [Output.edges vs]) = some (out, .edges vs) by simp [vecPop]]
  refine Within.bindE (Q := fun o => ∃ l, o = .edgeProperties l ∧ ∀ p ∈ l, p.edge ∈ es ∧ ∀ q ∈ p.props, q.name = n)
    ?_ ?_ (fun _ => rfl)
  · refine (within_pipeEdgeProps (fun v hv => h' _ (hvs v hv))).bindE (fun l hl => .pure ⟨l, rfl, fun p hp => ?_⟩) (fun _ => rfl)
    exact ⟨hvs _ (hl p hp).1, (hl p hp).2⟩
  · rintro _ ⟨l, rfl, hl⟩
    exact .pure ⟨l, rfl, hl⟩

theorem within_last {q : Query} {Q : Output → Prop}
    (h : (queryP X q []).Within F G Eq (fun o => ∃ v, o = [v] ∧ Q v)) : (lastOutputP X q).Within F G Eq Q := by
  refine h.bindE ?_ (fun _ => rfl)
  rintro _ ⟨v, rfl, hv⟩
  exact .pure hv

theorem within_unit {α : Type} {p : Prog α} {r : Reply} (h : p.Within F G Eq (fun _ => True)) :
    (p >>= fun _ => (pure r : Prog Reply)).Within F G Eq (fun _ => True) :=
  h.bindE (fun _ _ => .pure trivial) (fun _ => rfl)

theorem within_createVertex {v : Vertex} (h : F .vertices (vertexKey X v.id)) (h' : G .vertices (vertexKey X v.id)) :
    (createVertex X v).Within F G Eq (fun _ => True) := by
  refine (within_vertexExists h).bindE (fun b _ => ?_) (fun _ => rfl)
  cases b with
  | true => exact .pure trivial
  | false =>
    refine Within.bindE (Q := fun _ : Unit => True) ⟨?_, fun _ _ => trivial⟩ (fun _ _ => .pure trivial) (fun _ => rfl)
    exact In.put h'

theorem within_createEdge {e : Edge} (h1 : F .vertices (vertexKey X e.outboundId)) (h2 : F .vertices (vertexKey X e.inboundId))
    (h3 : G .edgeRanges (edgeKey X e)) (h4 : ∀ k, G .reversedEdgeRanges k) :
    (createEdge X e).Within F G Eq (fun _ => True) := by
  refine (within_vertexExists h1).bindE (fun b _ => ?_) (fun _ => rfl)
  cases b with
  | false => exact .pure trivial
  | true =>
    refine (within_vertexExists h2).bindE (fun b _ => ?_) (fun _ => rfl)
    cases b with
    | false => exact .pure trivial
    | true =>
      refine (within_edgeSet h3 h4).bind (R' := Eq) (Q' := fun _ => True) (fun b hb => ⟨hb, fun _ _ => trivial⟩) ?_
      intro b b' hb s
      refine ⟨?_, rfl⟩
      show { s with kv := s.kv.write b } = { s with kv := s.kv.write b' }
      rw [hb]

theorem within_setVertex {ids ids' : List Uuid} {n : Identifier} {v : Json} (h : ∀ id ∈ ids, F .vertexProperties (vpKey X id n))
    (h1 : ∀ id ∈ ids, G .vertexProperties (vpKey X id n)) (h2 : ∀ k, G .vertexPropertyValues k) (hs : ∀ id ∈ ids', id ∈ ids) :
    (setVertexProperties X ids' n v).Within F G Eq (fun _ => True) :=
  .locked (fun _ => .forAll (fun id hid => within_vpSet (h id (hs id hid)) (h1 id (hs id hid)) h2))

theorem within_setEdge {es es' : List Edge} {n : Identifier} {v : Json} (h : ∀ e ∈ es, F .edgeProperties (epKey X e n))
    (h1 : ∀ e ∈ es, G .edgeProperties (epKey X e n)) (h2 : ∀ k, G .edgePropertyValues k) (hs : ∀ e ∈ es', e ∈ es) :
    (setEdgeProperties X es' n v).Within F G Eq (fun _ => True) :=
  .locked (fun _ => .forAll (fun e he => within_epSet (h e (hs e he)) (h1 e (hs e he)) h2))

theorem within_bulk {items : List BulkInsertItem} :
    (bulkInsert X items).Within (Keys X (items.flatMap (·.property))) (Keys' X (items.map (·.changed))) Eq (fun _ => True) := by
  refine .locked (fun ix => .forAll (fun i hi => ?_))
  have hc : Keys' X (items.map (·.changed)) (i.changed.key X).1 (i.changed.key X).2 :=
    Or.inl ⟨i.changed, List.mem_map.2 ⟨i, hi, rfl⟩, rfl⟩
  have hp : ∀ x ∈ i.property, Keys X (items.flatMap (·.property)) (x.key X).1 (x.key X).2 :=
    fun x hx => ⟨x, List.mem_flatMap.2 ⟨i, hi, hx⟩, rfl⟩
  cases i with
  | vertex v => exact .pure (In.put hc)
  | edge e => exact within_edgeSet hc (fun k => Or.inr (Or.inl rfl))
  | vertexProperty id n v =>
    exact within_vpSet (hp _ List.mem_cons_self) hc (fun k => Or.inr (Or.inr (Or.inl rfl)))
  | edgeProperty e n v =>
    exact within_epSet (hp _ List.mem_cons_self) hc (fun k => Or.inr (Or.inr (Or.inr rfl)))

/-- A call looks at and changes only what it may. -/
theorem within_call (O : IdentOrder) {op : Op} {l c : List Thing} (h : op.touches = some (l, c)) :
    (callProg X O op).Within (Keys X l) (Keys' X c) Eq (fun _ => True) := by
  have kl : ∀ {l : List Thing} (x : Thing), x ∈ l → Keys X l (x.key X).1 (x.key X).2 := fun x hx => ⟨x, hx, rfl⟩
  have kc : ∀ {l : List Thing} (x : Thing), x ∈ l → Keys' X l (x.key X).1 (x.key X).2 := fun x hx => Or.inl ⟨x, hx, rfl⟩
  have kr : ∀ {l : List Thing} k, Keys' X l .reversedEdgeRanges k := fun k => Or.inr (Or.inl rfl)
  have kv : ∀ {l : List Thing} k, Keys' X l .vertexPropertyValues k := fun k => Or.inr (Or.inr (Or.inl rfl))
  have ke : ∀ {l : List Thing} k, Keys' X l .edgePropertyValues k := fun k => Or.inr (Or.inr (Or.inr rfl))
  -- queries
  have getQ : ∀ {q : Query} {l : List Thing}, q.looksAt = some l → ∀ {G : CF → Bytes → Prop},
      (queryP X q []).Within (Keys X l) G Eq (fun _ => True) := by
    intro q l hq G
    unfold Query.looksAt at hq
    split at hq <;> simp only [Option.some.injEq, reduceCtorEq] at hq <;> subst hq
    · exact (within_specificVertex (fun id hid => kl (.vertex id) (List.mem_map.2 ⟨id, hid, rfl⟩))).mono (fun _ _ => trivial)
    · exact (within_specificEdge (fun e he => kl (.edge e) (List.mem_map.2 ⟨e, he, rfl⟩))).mono (fun _ _ => trivial)
    · exact (within_vertexProperty
        (fun id hid => kl (.vertex id) (List.mem_append_left _ (List.mem_map.2 ⟨id, hid, rfl⟩)))
        (fun id hid => kl (.vertexProperty id _) (List.mem_append_right _ (List.mem_map.2 ⟨id, hid, rfl⟩)))).mono (fun _ _ => trivial)
    · exact (within_edgeProperty
        (fun id hid => kl (.edge id) (List.mem_append_left _ (List.mem_map.2 ⟨id, hid, rfl⟩)))
        (fun id hid => kl (.edgeProperty id _) (List.mem_append_right _ (List.mem_map.2 ⟨id, hid, rfl⟩)))).mono (fun _ _ => trivial)
  unfold Op.touches at h
  split at h
  · cases h; exact within_unit (.pure trivial)
  · cases h
    rename_i v
    exact (within_createVertex (kl (.vertex v.id) (by simp)) (kc (.vertex v.id) (by simp))).bindE (fun _ _ => .pure trivial)
      (fun _ => rfl)
  · cases h
    rename_i id t
    refine Within.bindE (Q := fun _ => True) ?_ (fun _ _ => .pure trivial) (fun _ => rfl)
    refine (within_createVertex (kl (.vertex id) (by simp)) (kc (.vertex id) (by simp))).bindE (fun b _ => ?_) (fun _ => rfl)
    cases b with
    | true => exact .pure trivial
    | false => exact .lift _ (fun _ _ => trivial)
  · cases h
    rename_i e
    exact (within_createEdge (kl (.vertex e.outboundId) (by simp)) (kl (.vertex e.inboundId) (by simp))
      (kc (.edge e) (by simp)) kr).bindE (fun _ _ => .pure trivial) (fun _ => rfl)
  · rename_i q
    cases hq : q.looksAt with
    | none => rw [hq] at h; cases h
    | some l' =>
      rw [hq] at h
      cases h
      exact (getQ hq).bindE (fun _ _ => .pure trivial) (fun _ => rfl)
  · cases h
    rename_i ids n v
    refine within_unit ?_
    have hp : ∀ id ∈ ids, Thing.vertexProperty id n ∈ ids.map (Thing.vertexProperty · n) :=
      fun id hid => List.mem_map.2 ⟨id, hid, rfl⟩
    refine (within_last (Q := fun o => ∃ vs, o = .vertices vs ∧ ∀ v ∈ vs, v.id ∈ ids) ?_).bindE ?_ (fun _ => rfl)
    · refine (within_specificVertex (fun id hid => kl (.vertex id) (List.mem_append_left _ (List.mem_map.2 ⟨id, hid, rfl⟩)))).mono ?_
      rintro _ ⟨vs, rfl, h⟩
      exact ⟨_, rfl, vs, rfl, h⟩
    · rintro _ ⟨vs, rfl, hvs⟩
      refine within_setVertex (ids := ids) (fun id hid => kl (.vertexProperty id n) (List.mem_append_right _ (hp id hid)))
        (fun id hid => kc (.vertexProperty id n) (hp id hid)) kv ?_
      intro id hid
      obtain ⟨v, hv, rfl⟩ := List.mem_map.1 hid
      exact hvs v hv
  · cases h
    rename_i es n v
    refine within_unit ?_
    have hp : ∀ id ∈ es, Thing.edgeProperty id n ∈ es.map (Thing.edgeProperty · n) :=
      fun id hid => List.mem_map.2 ⟨id, hid, rfl⟩
    refine (within_last (Q := fun o => ∃ vs, o = .edges vs ∧ ∀ v ∈ vs, v ∈ es) ?_).bindE ?_ (fun _ => rfl)
    · refine (within_specificEdge (fun id hid => kl (.edge id) (List.mem_append_left _ (List.mem_map.2 ⟨id, hid, rfl⟩)))).mono ?_
      rintro _ ⟨vs, rfl, h⟩
      exact ⟨_, rfl, vs, rfl, h⟩
    · rintro _ ⟨vs, rfl, hvs⟩
      exact within_setEdge (es := es) (fun id hid => kl (.edgeProperty id n) (List.mem_append_right _ (hp id hid)))
        (fun id hid => kc (.edgeProperty id n) (hp id hid)) ke hvs
  · cases h
    rename_i ids n
    refine within_unit ?_
    have hp : ∀ id ∈ ids, Thing.vertexProperty id n ∈ ids.map (Thing.vertexProperty · n) :=
      fun id hid => List.mem_map.2 ⟨id, hid, rfl⟩
    refine (within_last (Q := fun o => ∃ l, o = .vertexProperties l ∧ ∀ p ∈ l, p.vertex.id ∈ ids ∧ ∀ q ∈ p.props, q.name = n)
      ?_).bindE ?_ (fun _ => rfl)
    · refine (within_vertexProperty (fun id hid => kl (.vertex id) (List.mem_append_left _ (List.mem_map.2 ⟨id, hid, rfl⟩)))
        (fun id hid => kl (.vertexProperty id n) (List.mem_append_right _ (hp id hid)))).mono ?_
      rintro _ ⟨vs, rfl, h⟩
      exact ⟨_, rfl, vs, rfl, h⟩
    · rintro _ ⟨l, rfl, hl⟩
      refine Within.locked (fun ix => .forAll ?_)
      rintro ⟨id, n'⟩ hk
      obtain ⟨p, hpl, hk⟩ := List.mem_flatMap.1 hk
      obtain ⟨q, hq, e⟩ := List.mem_map.1 hk
      cases e
      obtain ⟨h1, h2⟩ := hl p hpl
      rw [h2 q hq]
      exact within_vpDelete (kl (.vertexProperty _ n) (List.mem_append_right _ (hp _ h1))) (kc (.vertexProperty _ n) (hp _ h1)) kv
  · cases h
    rename_i es n
    refine within_unit ?_
    have hp : ∀ id ∈ es, Thing.edgeProperty id n ∈ es.map (Thing.edgeProperty · n) :=
      fun id hid => List.mem_map.2 ⟨id, hid, rfl⟩
    refine (within_last (Q := fun o => ∃ l, o = .edgeProperties l ∧ ∀ p ∈ l, p.edge ∈ es ∧ ∀ q ∈ p.props, q.name = n)
      ?_).bindE ?_ (fun _ => rfl)
    · refine (within_edgeProperty (fun id hid => kl (.edge id) (List.mem_append_left _ (List.mem_map.2 ⟨id, hid, rfl⟩)))
        (fun id hid => kl (.edgeProperty id n) (List.mem_append_right _ (hp id hid)))).mono ?_
      rintro _ ⟨vs, rfl, h⟩
      exact ⟨_, rfl, vs, rfl, h⟩
    · rintro _ ⟨l, rfl, hl⟩
      refine Within.locked (fun ix => .forAll ?_)
      rintro ⟨id, n'⟩ hk
      obtain ⟨p, hpl, hk⟩ := List.mem_flatMap.1 hk
      obtain ⟨q, hq, e⟩ := List.mem_map.1 hk
      cases e
      obtain ⟨h1, h2⟩ := hl p hpl
      rw [h2 q hq]
      exact within_epDelete (kl (.edgeProperty _ n) (List.mem_append_right _ (hp _ h1))) (kc (.edgeProperty _ n) (hp _ h1)) ke
  · cases h
    exact within_unit within_bulk
  · cases h

end Rocks
end IndraDB
