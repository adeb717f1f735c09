import Verif.Spec.RocksPast
import Verif.Proofs.RocksApp
import Verif.Proofs.RocksFill
/-
Every index entry is explained by a state of the past.
-/
set_option linter.unusedSimpArgs false
namespace IndraDB

namespace Prog
variable {α β : Type}

theorem All.forall {ι : Type} {P : Batch → Prop} {Q : ι → α → Prop} {p : Prog α} (h : ∀ i, p.All P (Q i)) (hi : ι) :
    p.All P (fun a => ∀ i, Q i a) := by
  induction p with
  | done r => cases r with
    | ok a => exact fun i => h i
    | error e => trivial
  | get cf k n ih => exact fun r => ih r (fun i => h i r)
  | scan cf lo n ih => exact fun r => ih r (fun i => h i r)
  | write b n ih => exact ⟨(h hi).1, ih () (fun i => (h i).2)⟩
  | readLock _ n ih => exact fun r => ih r (fun i => h i r)
  | writeLock n ih => exact fun r => ih r (fun i => h i r)
  | setIndexed ix n ih => exact ih () (fun i => h i)

/-- `All`, if what `get` gives satisfies `G`. -/
def Informed (G : CF → Bytes → Bytes → Prop) (P : Batch → Prop) (Q : α → Prop) : Prog α → Prop
  | .done (.ok a) => Q a
  | .done (.error _) => True
  | .get cf k n => ∀ r, (∀ b, r = some b → G cf k b) → (n r).Informed G P Q
  | .scan _ _ n => ∀ r, (n r).Informed G P Q
  | .write b n => P b ∧ (n ()).Informed G P Q
  | .readLock _ n => ∀ r, (n r).Informed G P Q
  | .writeLock n => ∀ r, (n r).Informed G P Q
  | .setIndexed _ n => (n ()).Informed G P Q

variable {G : CF → Bytes → Bytes → Prop} {P : Batch → Prop} {Q : α → Prop} {Q' : β → Prop}

theorem Informed.bind {p : Prog α} {f : α → Prog β} (h : p.Informed G P Q) (hf : ∀ a, Q a → (f a).Informed G P Q') :
    (p >>= f).Informed G P Q' := by
  show (p.bind f).Informed G P Q'
  induction p with
  | done r => cases r with
    | ok a => exact hf a h
    | error e => trivial
  | get cf k n ih => exact fun r hr => ih r (h r hr)
  | scan cf lo n ih => exact fun r => ih r (h r)
  | write b n ih => exact ⟨h.1, ih () h.2⟩
  | readLock _ n ih => exact fun r => ih r (h r)
  | writeLock n ih => exact fun r => ih r (h r)
  | setIndexed ix n ih => exact ih () h

theorem All.informed {p : Prog α} (h : p.All P Q) : p.Informed G P Q := by
  induction p with
  | done r => cases r with
    | ok a => exact h
    | error e => trivial
  | get cf k n ih => exact fun r _ => ih r (h r)
  | scan cf lo n ih => exact fun r => ih r (h r)
  | write b n ih => exact ⟨h.1, ih () h.2⟩
  | readLock _ n ih => exact fun r => ih r (h r)
  | writeLock n ih => exact fun r => ih r (h r)
  | setIndexed ix n ih => exact ih () h

theorem Informed.forItems {f : α → Prog Batch} {B : Batch → Prop} (h0 : B []) (hc : ∀ a b, B a → B b → B (a ++ b))
    {l : DynIter α} (h : ∀ a, (f a).Informed G P B) : (Prog.forItems f l).Informed G P B := by
  induction l with
  | nil => exact h0
  | cons x r ih =>
    cases x with
    | ok a => exact (h a).bind (fun b hb => ih.bind (fun b' hb' => hc b b' hb hb'))
    | error e => trivial

end Prog

namespace Rocks
open Prog LockConc
variable {X : Cfg}

/-! ### Keys and batches -/

theorem pKey_inj {o o' : Owner} {n m : Identifier} (h1 : pTable o = pTable o') (h2 : pKey X n o = pKey X m o') : o = o' ∧ n = m := by
  cases o <;> cases o' <;> simp only [pTable, pKey, reduceCtorEq] at h1 h2
  · obtain ⟨rfl, rfl⟩ := vpKey_inj.1 h2; exact ⟨rfl, rfl⟩
  · obtain ⟨rfl, rfl⟩ := epKey_inj.1 h2; exact ⟨rfl, rfl⟩

theorem eKey_inj {o o' : Owner} {n m : Identifier} {h k : UInt64} (h1 : eTable o = eTable o') (h2 : eKey X n h o = eKey X m k o') :
    o = o' ∧ n = m ∧ h = k := by
  cases o <;> cases o' <;> simp only [eTable, eKey, reduceCtorEq] at h1 h2
  · obtain ⟨rfl, rfl, rfl⟩ := vhKey_inj.1 h2; exact ⟨rfl, rfl, rfl⟩
  · obtain ⟨rfl, rfl, rfl⟩ := ehKey_inj.1 h2; exact ⟨rfl, rfl, rfl⟩

theorem table_ne (o o' : Owner) : pTable o ≠ eTable o' := by cases o <;> cases o' <;> simp [pTable, eTable]

theorem at_mem {b : Batch} {cf : CF} {k : Bytes} {z : Option Bytes} (h : b.at cf k = some z) :
    (∃ v, z = some v ∧ .put cf k v ∈ b) ∨ (z = none ∧ .delete cf k ∈ b) := by
  induction b with
  | nil => cases h
  | cons op r ih =>
    rw [Batch.at_cons] at h
    cases hr : Batch.at r cf k with
    | some y =>
      rw [hr] at h
      rcases ih (hr.trans (by simpa using h)) with ⟨v, h1, h2⟩ | ⟨h1, h2⟩
      · exact Or.inl ⟨v, h1, List.mem_cons_of_mem _ h2⟩
      · exact Or.inr ⟨h1, List.mem_cons_of_mem _ h2⟩
    | none =>
      rw [hr, Option.none_or] at h
      cases op with
      | put c k' v =>
        have hh : (if c = cf ∧ k' = k then some (some v) else none) = some z := h
        by_cases he : c = cf ∧ k' = k
        · rw [if_pos he] at hh
          obtain ⟨rfl, rfl⟩ := he
          exact Or.inl ⟨v, (Option.some.inj hh).symm, List.mem_cons_self⟩
        · rw [if_neg he] at hh
          cases hh
      | delete c k' =>
        have hh : (if c = cf ∧ k' = k then some none else none) = some z := h
        by_cases he : c = cf ∧ k' = k
        · rw [if_pos he] at hh
          obtain ⟨rfl, rfl⟩ := he
          exact Or.inr ⟨(Option.some.inj hh).symm, List.mem_cons_self⟩
        · rw [if_neg he] at hh
          cases hh

/-- The batch sets property `n` of `o` to `x`, and makes no other index entry. -/
structure SetsOne (X : Cfg) (o : Owner) (n : Identifier) (x : Json) (b : Batch) : Prop where
  entry : ∀ o' m h z, b.at (eTable o') (eKey X m h o') = some (some z) → o' = o ∧ m = n ∧ h = X.H x.stream
  value : b.at (pTable o) (pKey X n o) = some (some (X.codec.enc x))
  others : ∀ o' m z, b.at (pTable o') (pKey X m o') = some z → o' = o ∧ m = n

theorem sets_one {o : Owner} {n : Identifier} {x : Json} {d : Batch} (ix : Bool)
    (hd : ∀ op ∈ d, op = .delete (pTable o) (pKey X n o) ∨ ∃ h, op = .delete (eTable o) (eKey X n h o)) :
    SetsOne X o n x (d ++ .put (pTable o) (pKey X n o) (X.codec.enc x) ::
      if ix then [.put (eTable o) (eKey X n (X.H x.stream) o) []] else []) := by
  have he : ∀ op ∈ (if ix then [WriteOp.put (eTable o) (eKey X n (X.H x.stream) o) []] else []),
      op = .put (eTable o) (eKey X n (X.H x.stream) o) [] := by
    intro op ho
    split at ho
    · simpa using ho
    · cases ho
  refine ⟨fun o' m h z hz => ?_, ?_, fun o' m z hz => ?_⟩
  · rcases at_mem hz with ⟨v, _, hm⟩ | ⟨h0, _⟩
    · rcases List.mem_append.1 hm with hm | hm
      · rcases hd _ hm with e | ⟨_, e⟩ <;> cases e
      · rcases List.mem_cons.1 hm with e | hm
        · injection e with e1
          exact absurd e1.symm (table_ne _ _)
        · have e := he _ hm
          injection e with e1 e2
          exact eKey_inj e1 e2
    · cases h0
  · rw [Batch.at_append, Batch.at_cons]
    have h1 : Batch.at (if ix then [WriteOp.put (eTable o) (eKey X n (X.H x.stream) o) []] else []) (pTable o) (pKey X n o) = none := by
      cases hq : Batch.at (if ix then [WriteOp.put (eTable o) (eKey X n (X.H x.stream) o) []] else []) (pTable o) (pKey X n o) with
      | none => rfl
      | some z =>
        rcases at_mem hq with ⟨v, _, hm⟩ | ⟨_, hm⟩
        · have e := he _ hm
          injection e with e1
          exact absurd e1 (table_ne _ _)
        · have e := he _ hm
          cases e
    rw [h1, Option.none_or]
    show Option.or (if pTable o = pTable o ∧ pKey X n o = pKey X n o then _ else _) _ = _
    rw [if_pos ⟨rfl, rfl⟩, Option.some_or]
  · have key : ∀ op ∈ d ++ .put (pTable o) (pKey X n o) (X.codec.enc x) ::
        (if ix then [WriteOp.put (eTable o) (eKey X n (X.H x.stream) o) []] else []),
        (∃ v, op = .put (pTable o') (pKey X m o') v) ∨ op = .delete (pTable o') (pKey X m o') → o' = o ∧ m = n := by
      intro op ho hop
      rcases List.mem_append.1 ho with ho | ho
      · rcases hd _ ho with rfl | ⟨h, rfl⟩
        · rcases hop with ⟨v, e⟩ | e
          · cases e
          · injection e with e1 e2
            exact pKey_inj e1.symm e2.symm
        · rcases hop with ⟨v, e⟩ | e
          · cases e
          · injection e with e1 e2
            exact absurd e1.symm (table_ne _ _)
      · rcases List.mem_cons.1 ho with rfl | ho
        · rcases hop with ⟨v, e⟩ | e
          · injection e with e1 e2
            exact pKey_inj e1.symm e2.symm
          · cases e
        · have := he _ ho
          subst this
          rcases hop with ⟨v, e⟩ | e
          · injection e with e1 e2
            exact absurd e1.symm (table_ne _ _)
          · cases e
    rcases at_mem hz with ⟨v, _, hm⟩ | ⟨_, hm⟩
    · exact key _ hm (Or.inl ⟨v, rfl⟩)
    · exact key _ hm (Or.inr rfl)

variable {P : Batch → Prop}

theorem dl_vpDelete (ix : SSet Identifier) (i : Uuid) (n : Identifier) : (vpDelete X ix i n).All P
    (fun d => ∀ op ∈ d, op = .delete (pTable (.vertex i)) (pKey X n (.vertex i)) ∨
      ∃ h, op = .delete (eTable (.vertex i)) (eKey X n h (.vertex i))) := by
  unfold vpDelete
  refine Prog.All.bind (Q := fun d => ∀ op ∈ d, ∃ h, op = .delete (eTable (.vertex i)) (eKey X n h (.vertex i))) ?_ (fun b hb => ?_)
  · split
    · refine (quiet_vpGet _ _).then ?_
      intro r
      cases r with
      | none => exact fun _ h => nomatch h
      | some v =>
        intro op h
        rw [vpvDelete, vpvKey_eq, List.mem_singleton] at h
        exact ⟨_, h⟩
    · exact fun _ h => nomatch h
  · intro op h
    rcases List.mem_append.1 h with h | h
    · exact Or.inr (hb op h)
    · exact Or.inl (List.mem_singleton.1 h)

theorem dl_epDelete (ix : SSet Identifier) (i : Edge) (n : Identifier) : (epDelete X ix i n).All P
    (fun d => ∀ op ∈ d, op = .delete (pTable (.edge i)) (pKey X n (.edge i)) ∨
      ∃ h, op = .delete (eTable (.edge i)) (eKey X n h (.edge i))) := by
  unfold epDelete
  refine Prog.All.bind (Q := fun d => ∀ op ∈ d, ∃ h, op = .delete (eTable (.edge i)) (eKey X n h (.edge i))) ?_ (fun b hb => ?_)
  · split
    · refine (quiet_epGet _ _).then ?_
      intro r
      cases r with
      | none => exact fun _ h => nomatch h
      | some v =>
        intro op h
        rw [epvDelete, epvKey_eq, List.mem_singleton] at h
        exact ⟨_, h⟩
    · exact fun _ h => nomatch h
  · intro op h
    rcases List.mem_append.1 h with h | h
    · exact Or.inr (hb op h)
    · exact Or.inl (List.mem_singleton.1 h)

theorem so_vpSet (ix : SSet Identifier) (i : Uuid) (n : Identifier) (x : Json) :
    (vpSet X ix i n x).All P (SetsOne X (.vertex i) n x) := by
  unfold vpSet
  refine Prog.All.bind (Q := fun d => ∀ op ∈ d, op = .delete (pTable (.vertex i)) (pKey X n (.vertex i)) ∨
      ∃ h, op = .delete (eTable (.vertex i)) (eKey X n h (.vertex i))) ?_ (fun b hb => ?_)
  · split
    · exact dl_vpDelete _ _ _
    · exact fun _ h => nomatch h
  · have := sets_one (x := x) (ix.contains n) hb
    show SetsOne X _ n x (if _ then _ else _)
    cases hc : ix.contains n with
    | true => rw [hc] at this; simpa [vpvSet, vpvKey_eq, pTable, pKey, eTable, eKey] using this
    | false => rw [hc] at this; simpa [pTable, pKey] using this

theorem so_epSet (ix : SSet Identifier) (i : Edge) (n : Identifier) (x : Json) :
    (epSet X ix i n x).All P (SetsOne X (.edge i) n x) := by
  unfold epSet
  refine Prog.All.bind (Q := fun d => ∀ op ∈ d, op = .delete (pTable (.edge i)) (pKey X n (.edge i)) ∨
      ∃ h, op = .delete (eTable (.edge i)) (eKey X n h (.edge i))) ?_ (fun b hb => ?_)
  · split
    · exact dl_epDelete _ _ _
    · exact fun _ h => nomatch h
  · have := sets_one (x := x) (ix.contains n) hb
    show SetsOne X _ n x (if _ then _ else _)
    cases hc : ix.contains n with
    | true => rw [hc] at this; simpa [epvSet, epvKey_eq, pTable, pKey, eTable, eKey] using this
    | false => rw [hc] at this; simpa [pTable, pKey] using this

/-- A batch that touches no property and makes no index entry. -/
structure Elsewhere (X : Cfg) (b : Batch) : Prop where
  entry : ∀ o m h z, b.at (eTable o) (eKey X m h o) ≠ some (some z)
  prop : ∀ o m z, b.at (pTable o) (pKey X m o) ≠ some z

/-- What the items of a bulk insertion do. -/
structure ItemsDid (X : Cfg) (L : List BulkInsertItem) (b : Batch) : Prop where
  entry : ∀ o n h z, b.at (eTable o) (eKey X n h o) = some (some z) → ∃ x y, h = X.H x.stream ∧ o.item n x ∈ L ∧ o.item n y ∈ L ∧
    b.at (pTable o) (pKey X n o) = some (some (X.codec.enc y)) ∧ (y = x ∨ y ≠ x ∧ [o.item n x, o.item n y].Sublist L)
  value : ∀ o n z, b.at (pTable o) (pKey X n o) = some z → ∃ y, o.item n y ∈ L ∧ z = some (X.codec.enc y)

theorem ItemsDid.nil : ItemsDid X [] [] := ⟨fun _ _ _ _ hz => (nomatch hz), fun _ _ _ hz => (nomatch hz)⟩

theorem ItemsDid.other {L : List BulkInsertItem} {i : BulkInsertItem} {a b : Batch} (ha : Elsewhere X a) (hb : ItemsDid X L b) :
    ItemsDid X (i :: L) (a ++ b) := by
  have hp : ∀ o n, (a ++ b).at (pTable o) (pKey X n o) = b.at (pTable o) (pKey X n o) := by
    intro o n
    rw [Batch.at_append]
    cases h : b.at (pTable o) (pKey X n o) with
    | some z => rfl
    | none =>
      rw [Option.none_or]
      cases h' : a.at (pTable o) (pKey X n o) with
      | none => rfl
      | some z => exact absurd h' (ha.prop o n z)
  refine ⟨fun o n h z hz => ?_, fun o n z hz => ?_⟩
  · rw [Batch.at_append] at hz
    cases hq : b.at (eTable o) (eKey X n h o) with
    | none => rw [hq, Option.none_or] at hz; exact absurd hz (ha.entry o n h z)
    | some w =>
      rw [hq, Option.some_or] at hz
      obtain ⟨x, y, h1, h2, h3, h4, h5⟩ := hb.entry o n h z (hq.trans hz)
      rw [hp]
      exact ⟨x, y, h1, List.mem_cons_of_mem _ h2, List.mem_cons_of_mem _ h3, h4, h5.imp id (fun h => ⟨h.1, h.2.cons _⟩)⟩
  · rw [hp] at hz
    obtain ⟨y, h1, h2⟩ := hb.value o n z hz
    exact ⟨y, List.mem_cons_of_mem _ h1, h2⟩

theorem ItemsDid.cons {L : List BulkInsertItem} {o : Owner} {n : Identifier} {x : Json} {a b : Batch} (ha : SetsOne X o n x a)
    (hb : ItemsDid X L b) : ItemsDid X (o.item n x :: L) (a ++ b) := by
  refine ⟨fun o' m h z hz => ?_, fun o' m z hz => ?_⟩
  · rw [Batch.at_append] at hz
    cases hq : b.at (eTable o') (eKey X m h o') with
    | none =>
      rw [hq, Option.none_or] at hz
      obtain ⟨rfl, rfl, rfl⟩ := ha.entry o' m h z hz
      rw [Batch.at_append]
      cases hp : b.at (pTable o') (pKey X m o') with
      | none =>
        rw [Option.none_or, ha.value]
        exact ⟨x, x, rfl, List.mem_cons_self, List.mem_cons_self, rfl, Or.inl rfl⟩
      | some w =>
        obtain ⟨y, h1, rfl⟩ := hb.value _ _ _ hp
        refine ⟨x, y, rfl, List.mem_cons_self, List.mem_cons_of_mem _ h1, rfl, ?_⟩
        by_cases e : y = x
        · exact Or.inl e
        · exact Or.inr ⟨e, (List.singleton_sublist.2 h1).cons_cons _⟩
    | some w =>
      rw [hq, Option.some_or] at hz
      obtain ⟨x', y, h1, h2, h3, h4, h5⟩ := hb.entry o' m h z (hq.trans hz)
      rw [Batch.at_append, h4]
      exact ⟨x', y, h1, List.mem_cons_of_mem _ h2, List.mem_cons_of_mem _ h3, rfl, h5.imp id (fun h => ⟨h.1, h.2.cons _⟩)⟩
  · rw [Batch.at_append] at hz
    cases hp : b.at (pTable o') (pKey X m o') with
    | none =>
      rw [hp, Option.none_or] at hz
      obtain ⟨rfl, rfl⟩ := ha.others o' m z hz
      rw [ha.value] at hz
      cases hz
      exact ⟨x, List.mem_cons_self, rfl⟩
    | some w =>
      rw [hp, Option.some_or] at hz
      obtain ⟨y, h1, h2⟩ := hb.value o' m z (hp.trans hz)
      exact ⟨y, List.mem_cons_of_mem _ h1, h2⟩

/-! ### Programs -/

/-- No index entry is made. -/
def NoEntry (X : Cfg) (b : Batch) : Prop := ∀ o m h z, b.at (eTable o) (eKey X m h o) ≠ some (some z)

/-- Every index entry made is explained by `E`, or the property is set in the same batch to a value related to its hash by `R`. -/
def Backed (X : Cfg) (E : Owner → Identifier → UInt64 → Prop) (R : Json → UInt64 → Prop) (b : Batch) : Prop :=
  ∀ o n h z, b.at (eTable o) (eKey X n h o) = some (some z) →
    E o n h ∨ ∃ y w, b.at (pTable o) (pKey X n o) = some (some y) ∧ X.codec.dec y = some w ∧ R w h

/-- What is known about bytes read: if they are the value of a property, it explains its entry. -/
def Told (X : Cfg) (E : Owner → Identifier → UInt64 → Prop) (cf : CF) (k b : Bytes) : Prop :=
  ∀ o n w, cf = pTable o → k = pKey X n o → X.codec.dec b = some w → E o n (X.H w.stream)

/-- Setting a property twice in the list of items is explained. -/
def Excused (X : Cfg) (E : Owner → Identifier → UInt64 → Prop) (R : Json → UInt64 → Prop) (L : List BulkInsertItem) : Prop :=
  ∀ o n x y, y ≠ x → [Owner.item n x o, Owner.item n y o].Sublist L →
    E o n (X.H x.stream) ∨ ∀ w, X.codec.dec (X.codec.enc y) = some w → R w (X.H x.stream)

variable {E : Owner → Identifier → UInt64 → Prop} {R : Json → UInt64 → Prop} {V : Json → Prop}

theorem NoEntry.backed {b : Batch} (h : NoEntry X b) : Backed X E R b := fun o n k z hz => absurd hz (h o n k z)

theorem Elsewhere.backed {b : Batch} (h : Elsewhere X b) : Backed X E R b := fun o n k z hz => absurd hz (h.entry o n k z)

theorem noEntry_of_lacks {b : Batch} (h : ∀ i : CF × Bytes, Lacks i.1 i.2 b) : NoEntry X b :=
  fun o m k z => (h (eTable o, eKey X m k o)).at z

theorem elsewhere_of {b : Batch} (h : ∀ op ∈ b, (∃ k v, op = .put .vertices k v) ∨ (∃ k v, op = .put .edgeRanges k v) ∨
    (∃ k v, op = .put .reversedEdgeRanges k v) ∨ (∃ k, op = .delete .edgeRanges k) ∨ ∃ k, op = .delete .reversedEdgeRanges k) :
    Elsewhere X b := by
  refine ⟨fun o m k z hz => ?_, fun o m z hz => ?_⟩
  · rcases at_mem hz with ⟨v, _, hm⟩ | ⟨h0, _⟩
    · rcases h _ hm with ⟨_, _, e⟩ | ⟨_, _, e⟩ | ⟨_, _, e⟩ | ⟨_, e⟩ | ⟨_, e⟩ <;> cases o <;> cases e
    · cases h0
  · rcases at_mem hz with ⟨v, _, hm⟩ | ⟨_, hm⟩ <;>
      rcases h _ hm with ⟨_, _, e⟩ | ⟨_, _, e⟩ | ⟨_, _, e⟩ | ⟨_, e⟩ | ⟨_, e⟩ <;> cases o <;> cases e

theorem el_edgeSet (e : Edge) : (edgeSet X e).All P (Elsewhere X) := by
  unfold edgeSet
  refine (quiet_edgeContains _ _).then ?_
  intro r
  refine elsewhere_of (fun op h => ?_)
  rw [List.append_assoc] at h
  rcases List.mem_append.1 h with h | h
  · split at h
    · simp only [edgeRangeDelete, List.singleton_append, List.mem_cons, List.not_mem_nil, or_false] at h
      rcases h with rfl | rfl
      · exact Or.inr (Or.inr (Or.inr (Or.inl ⟨_, rfl⟩)))
      · exact Or.inr (Or.inr (Or.inr (Or.inr ⟨_, rfl⟩)))
    · cases h
  · simp only [edgeRangeSet, List.singleton_append, List.mem_cons, List.not_mem_nil, or_false] at h
    rcases h with rfl | rfl
    · exact Or.inr (Or.inl ⟨_, _, rfl⟩)
    · exact Or.inr (Or.inr (Or.inl ⟨_, _, rfl⟩))

theorem el_vertexCreate (v : Vertex) : Elsewhere X (vertexCreate X v) :=
  elsewhere_of (fun _ h => Or.inl ⟨_, _, List.mem_singleton.1 h⟩)

theorem id_items (ix : SSet Identifier) (L : List BulkInsertItem) : (Prog.forAll (bulkItem X ix) L).All P (ItemsDid X L) := by
  induction L with
  | nil => exact ItemsDid.nil
  | cons i L ih =>
    have other : (bulkItem X ix i).All P (Elsewhere X) → (Prog.forAll (bulkItem X ix) (i :: L)).All P (ItemsDid X (i :: L)) :=
      fun h => h.bind (fun _ ha => ih.bind (fun _ hb => ItemsDid.other ha hb))
    have set : ∀ o n x, i = Owner.item n x o → (bulkItem X ix i).All P (SetsOne X o n x) →
        (Prog.forAll (bulkItem X ix) (i :: L)).All P (ItemsDid X (i :: L)) := by
      rintro o n x rfl h
      exact h.bind (fun _ ha => ih.bind (fun _ hb => ItemsDid.cons ha hb))
    cases i with
    | vertex v => exact other (el_vertexCreate v)
    | edge e => exact other (el_edgeSet e)
    | vertexProperty i n x => exact set (.vertex i) n x rfl (so_vpSet ix i n x)
    | edgeProperty i n x => exact set (.edge i) n x rfl (so_epSet ix i n x)

theorem item_values {o : Owner} {n : Identifier} {x : Json} (h : (Owner.item n x o).Values V) : V x := by
  cases o <;> exact h

theorem ItemsDid.backed (hR : Enters X V R) (hc : ∀ x, V x → CanRead X x) {L : List BulkInsertItem} {b : Batch} (h : ItemsDid X L b)
    (hv : ∀ i ∈ L, i.Values V) (hx : Excused X E R L) : Backed X E R b := by
  intro o n k z hz
  obtain ⟨x, y, rfl, hx1, hy1, hp, hxy⟩ := h.entry o n k z hz
  obtain ⟨w, hw⟩ := hc y (item_values (hv _ hy1))
  rcases hxy with rfl | ⟨hne, hs⟩
  · exact Or.inr ⟨_, w, hp, hw, hR _ w (item_values (hv _ hy1)) hw⟩
  · rcases hx o n x y hne hs with h | h
    · exact Or.inl h
    · exact Or.inr ⟨_, w, hp, hw, h w hw⟩

theorem excused_same {L : List BulkInsertItem} {n : Identifier} {x : Json} (h : ∀ i ∈ L, ∃ o, i = Owner.item n x o) : Excused X E R L := by
  intro o m a b hne hs
  have key : ∀ c, Owner.item m c o ∈ L → c = x := by
    intro c hc
    obtain ⟨o', e⟩ := h _ hc
    cases o <;> cases o' <;> simp_all [Owner.item]
  exact absurd ((key b (hs.subset (by simp))).trans (key a (hs.subset (by simp))).symm) hne

/-- Setting the same property of several owners is like a bulk insertion. -/
theorem forAll_vset (ix : SSet Identifier) (ids : List Uuid) (n : Identifier) (x : Json) :
    Prog.forAll (fun id => vpSet X ix id n x) ids = Prog.forAll (bulkItem X ix) (ids.map (fun i => .vertexProperty i n x)) := by
  induction ids with
  | nil => rfl
  | cons a r ih => rw [List.map_cons, Prog.forAll, Prog.forAll, ih]; rfl

theorem forAll_eset (ix : SSet Identifier) (es : List Edge) (n : Identifier) (x : Json) :
    Prog.forAll (fun e => epSet X ix e n x) es = Prog.forAll (bulkItem X ix) (es.map (fun i => .edgeProperty i n x)) := by
  induction es with
  | nil => rfl
  | cons a r ih => rw [List.map_cons, Prog.forAll, Prog.forAll, ih]; rfl

theorem bk_locked {f : SSet Identifier → Prog Batch} {B : Batch → Prop} (h : ∀ ix, (f ix).All B B) :
    (locked f).All B (fun _ => True) := fun ix => (h ix).bind (fun _ hb => ⟨hb, trivial⟩)

theorem bk_items (hR : Enters X V R) (hc : ∀ x, V x → CanRead X x) {L : List BulkInsertItem}
    (hv : ∀ i ∈ L, i.Values V) (hx : Excused X E R L) (ix : SSet Identifier) :
    (Prog.forAll (bulkItem X ix) L).All P (Backed X E R) := by
  have := (id_items (P := P) ix L).bind (f := fun b => (pure b : Prog Batch)) (fun b hb => hb.backed hR hc hv hx)
  have e : ∀ p : Prog Batch, (p >>= fun b => (pure b : Prog Batch)) = p := by
    intro p
    show p.bind _ = p
    induction p with
    | done r => cases r <;> rfl
    | get cf k n ih => show Prog.get cf k _ = _; congr 1; funext r; exact ih r
    | scan cf k n ih => show Prog.scan cf k _ = _; congr 1; funext r; exact ih r
    | write b n ih => show Prog.write b _ = _; congr 1; funext r; exact ih r
    | readLock b n ih => show Prog.readLock b _ = _; congr 1; funext r; exact ih r
    | writeLock n ih => show Prog.writeLock _ = _; congr 1; funext r; exact ih r
    | setIndexed ix n ih => show Prog.setIndexed ix _ = _; congr 1; funext r; exact ih r
  rw [e] at this
  exact this

theorem bk_bulk (hR : Enters X V R) (hc : ∀ x, V x → CanRead X x) {L : List BulkInsertItem}
    (hv : ∀ i ∈ L, i.Values V) (hx : Excused X E R L) : (bulkInsert X L).All (Backed X E R) (fun _ => True) :=
  bk_locked (fun ix => bk_items hR hc hv hx ix)

theorem bk_vset (hR : Enters X V R) (hc : ∀ x, V x → CanRead X x) (ids : List Uuid) (n : Identifier) {x : Json} (hv : V x) :
    (setVertexProperties X ids n x).All (Backed X E R) (fun _ => True) := by
  refine bk_locked (fun ix => ?_)
  rw [forAll_vset]
  refine bk_items hR hc (fun i hi => ?_) (excused_same (n := n) (x := x) (fun i hi => ?_)) ix
  · obtain ⟨a, _, rfl⟩ := List.mem_map.1 hi; exact hv
  · obtain ⟨a, _, rfl⟩ := List.mem_map.1 hi; exact ⟨.vertex a, rfl⟩

theorem bk_eset (hR : Enters X V R) (hc : ∀ x, V x → CanRead X x) (es : List Edge) (n : Identifier) {x : Json} (hv : V x) :
    (setEdgeProperties X es n x).All (Backed X E R) (fun _ => True) := by
  refine bk_locked (fun ix => ?_)
  rw [forAll_eset]
  refine bk_items hR hc (fun i hi => ?_) (excused_same (n := n) (x := x) (fun i hi => ?_)) ix
  · obtain ⟨a, _, rfl⟩ := List.mem_map.1 hi; exact hv
  · obtain ⟨a, _, rfl⟩ := List.mem_map.1 hi; exact ⟨.edge a, rfl⟩

/-- Deletions make no entries. -/
theorem bk_lacks {f : SSet Identifier → Prog Batch} (h : ∀ (B : Batch → Prop) ix cf k, (f ix).All B (Lacks cf k)) :
    (locked f).All (Backed X E R) (fun _ => True) := by
  intro ix
  refine Prog.All.bind (Prog.All.forall (ι := CF × Bytes) (Q := fun i => Lacks i.1 i.2) (fun i => h _ ix i.1 i.2) (.metadata, [])) ?_
  intro b hb
  exact ⟨(noEntry_of_lacks hb).backed, trivial⟩

theorem bk_deleteVertices (vs : List Vertex) : (deleteVertices X vs).All (Backed X E R) (fun _ => True) :=
  bk_lacks (fun _ _ _ _ => .forAll .nil (fun _ _ => .append) (fun _ _ => lk_vertexDelete _ _))

theorem bk_deleteEdges (es : List Edge) : (deleteEdges X es).All (Backed X E R) (fun _ => True) := by
  refine bk_lacks (fun _ _ _ _ => .forAll .nil (fun _ _ => .append) (fun e _ => ?_))
  refine (quiet_vertexGet _).then (fun r => ?_)
  cases r with
  | none => exact Lacks.nil
  | some t => exact lk_edgeDelete _ _

theorem bk_deleteVertexProperties (l : List (Uuid × Identifier)) : (deleteVertexProperties X l).All (Backed X E R) (fun _ => True) :=
  bk_lacks (fun _ _ _ _ => .forAll .nil (fun _ _ => .append) (fun _ _ => lk_vpDelete _ _ _))

theorem bk_deleteEdgeProperties (l : List (Edge × Identifier)) : (deleteEdgeProperties X l).All (Backed X E R) (fun _ => True) :=
  bk_lacks (fun _ _ _ _ => .forAll .nil (fun _ _ => .append) (fun _ _ => lk_epDelete _ _ _))

theorem bk_createVertex (v : Vertex) : (createVertex X v).All (Backed X E R) (fun _ => True) := by
  refine (quiet_vertexExists _).then (fun r => ?_)
  split
  · trivial
  · exact ⟨(el_vertexCreate v).backed, trivial⟩

theorem bk_createEdge (e : Edge) : (createEdge X e).All (Backed X E R) (fun _ => True) := by
  refine (quiet_vertexExists _).then (fun r => ?_)
  split
  · trivial
  · refine (quiet_vertexExists _).then (fun r => ?_)
    split
    · trivial
    · exact (el_edgeSet e).bind (fun b hb => ⟨hb.backed, trivial⟩)

/-- Every index entry made is explained. -/
def AllIn (X : Cfg) (E : Owner → Identifier → UInt64 → Prop) (b : Batch) : Prop :=
  ∀ o n h z, b.at (eTable o) (eKey X n h o) = some (some z) → E o n h

theorem AllIn.nil : AllIn X E [] := fun _ _ _ _ h => nomatch h

theorem AllIn.append {a b : Batch} (ha : AllIn X E a) (hb : AllIn X E b) : AllIn X E (a ++ b) := by
  intro o n h z hz
  rw [Batch.at_append] at hz
  cases hq : b.at (eTable o) (eKey X n h o) with
  | none => rw [hq, Option.none_or] at hz; exact ha o n h z hz
  | some w => rw [hq, Option.some_or] at hz; exact hb o n h z (hq.trans hz)

theorem allIn_one {o : Owner} {n : Identifier} {h : UInt64} {v : Bytes} (he : E o n h) :
    AllIn X E [.put (eTable o) (eKey X n h o) v] := by
  intro o' m k z hz
  rcases at_mem hz with ⟨v, _, hm⟩ | ⟨h0, _⟩
  · have e := List.mem_singleton.1 hm
    injection e with e1 e2
    obtain ⟨rfl, rfl, rfl⟩ := eKey_inj e1 e2
    exact he
  · cases h0

theorem in_vpGet (i : Uuid) (n : Identifier) :
    (vpGet X i n).Informed (Told X E) P (fun r => ∀ w, r = some w → E (.vertex i) n (X.H w.stream)) := by
  intro r hr
  cases r with
  | none => exact fun _ h => nomatch h
  | some b =>
    show Prog.Informed _ _ _ (Prog.bind (.done (fromSlice X b)) _)
    unfold fromSlice
    cases hd : X.codec.dec b with
    | none => trivial
    | some v =>
      intro w hw
      cases hw
      exact hr b rfl (.vertex i) n v rfl rfl hd

theorem in_epGet (i : Edge) (n : Identifier) :
    (epGet X i n).Informed (Told X E) P (fun r => ∀ w, r = some w → E (.edge i) n (X.H w.stream)) := by
  intro r hr
  cases r with
  | none => exact fun _ h => nomatch h
  | some b =>
    show Prog.Informed _ _ _ (Prog.bind (.done (fromSlice X b)) _)
    unfold fromSlice
    cases hd : X.codec.dec b with
    | none => trivial
    | some v =>
      intro w hw
      cases hw
      exact hr b rfl (.edge i) n v rfl rfl hd

theorem in_indexProperty (O : IdentOrder) (n : Identifier) :
    (indexProperty X O n).Informed (Told X E) (Backed X E R) (fun _ => True) := by
  intro ix
  show Prog.Informed _ _ _ (if _ then _ else _)
  split
  · trivial
  · show Prog.Informed _ _ _ (Prog.bind _ _)
    refine ((Quiet.of_reading (rd_vertexIterate (X := X) Uuid.nil) _).informed).bind (fun l _ => ?_)
    refine Prog.Informed.bind (Q := AllIn X E) (.forItems .nil (fun _ _ => .append) (fun v => ?_)) (fun b1 h1 => ?_)
    · refine (in_vpGet _ _).bind (fun r hr => ?_)
      cases r with
      | none => exact AllIn.nil
      | some x =>
        show AllIn X E (vpvSet X v.id n x)
        rw [vpvSet, vpvKey_eq]
        exact allIn_one (o := .vertex v.id) (hr x rfl)
    · refine ((Quiet.of_reading (rd_edgeIterateAll _) _).informed).bind (fun l _ => ?_)
      refine Prog.Informed.bind (Q := AllIn X E) (.forItems .nil (fun _ _ => .append) (fun e => ?_)) (fun b2 h2 => ?_)
      · refine (in_epGet _ _).bind (fun r hr => ?_)
        cases r with
        | none => exact AllIn.nil
        | some x =>
          show AllIn X E (epvSet X e n x)
          rw [epvSet, epvKey_eq]
          exact allIn_one (o := .edge e) (hr x rfl)
      · refine ⟨fun o m h z hz => Or.inl ?_, trivial⟩
        have h0 : AllIn X E (setIndexedBatch O (ix.add n)) := by
          intro o m h z hz
          rcases at_mem hz with ⟨v, _, hm⟩ | ⟨h0, _⟩
          · have e := List.mem_singleton.1 hm
            injection e with e1 e2
            cases o <;> cases e1
          · cases h0
        exact (h0.append h1).append h2 o m h z hz

/-- The bulk insertions among the calls. -/
def bulkOf : Access → List BulkInsertItem
  | .lib (.bulkInsert items) => items
  | .write (.bulkInsert items) => items
  | _ => []

theorem in_call (hR : Enters X V R) (hc : ∀ x, V x → CanRead X x) (O : IdentOrder) (op : Op) (hv : op.ValuesOk V)
    (hx : Excused X E R (bulkOf (.lib op))) : (callProg X O op).Informed (Told X E) (Backed X E R) (fun _ => True) := by
  have map : ∀ {α : Type} {p : Prog α} (f : α → Reply), p.All (Backed X E R) (fun _ => True) →
      (p >>= fun a => (pure (f a) : Prog Reply)).Informed (Told X E) (Backed X E R) (fun _ => True) :=
    fun f h => h.informed.bind (fun _ _ => trivial)
  cases op with
  | sync => trivial
  | createVertex v => exact map _ (bk_createVertex v)
  | createVertexFromType id t =>
    refine map _ ((bk_createVertex _).bind (fun b _ => ?_))
    cases b <;> trivial
  | createEdge e => exact map _ (bk_createEdge e)
  | get q => exact map _ (Quiet.of_reading (rd_query q []) _)
  | delete q =>
    refine map _ ((Quiet.of_reading (rd_lastOutput q) _).bind (fun v _ => ?_))
    cases v with
    | vertices vs => exact bk_deleteVertices vs
    | edges es => exact bk_deleteEdges es
    | vertexProperties l => exact bk_deleteVertexProperties _
    | edgeProperties l => exact bk_deleteEdgeProperties _
    | count n => trivial
  | setProperties q m x =>
    refine map _ ((Quiet.of_reading (rd_lastOutput q) _).bind (fun v _ => ?_))
    cases v with
    | vertices vs => exact bk_vset hR hc _ _ hv
    | edges es => exact bk_eset hR hc _ _ hv
    | _ => trivial
  | bulkInsert items => exact map _ (bk_bulk hR hc hv hx)
  | indexProperty m => exact (in_indexProperty O m).bind (fun _ _ => trivial)

theorem in_txn (hR : Enters X V R) (hc : ∀ x, V x → CanRead X x) (O : IdentOrder) (w : TxnCall) (hv : w.ValuesOk V)
    (hx : Excused X E R (bulkOf (.write w))) : (txnProg X O w).Informed (Told X E) (Backed X E R) (fun _ => True) := by
  have map : ∀ {α : Type} {p : Prog α} (f : α → TxnReply), p.All (Backed X E R) (fun _ => True) →
      (p >>= fun a => (pure (f a) : Prog TxnReply)).Informed (Told X E) (Backed X E R) (fun _ => True) :=
    fun f h => h.informed.bind (fun _ _ => trivial)
  cases w with
  | deleteVertices vs => exact map _ (bk_deleteVertices vs)
  | deleteEdges es => exact map _ (bk_deleteEdges es)
  | deleteVertexProperties l => exact map _ (bk_deleteVertexProperties l)
  | deleteEdgeProperties l => exact map _ (bk_deleteEdgeProperties l)
  | sync => trivial
  | createVertex v => exact map _ (bk_createVertex v)
  | createEdge e => exact map _ (bk_createEdge e)
  | bulkInsert items => exact map _ (bk_bulk hR hc hv hx)
  | indexProperty m => exact (in_indexProperty O m).bind (fun _ _ => trivial)
  | setVertexProperties ids n x => exact map _ (bk_vset hR hc ids n hv)
  | setEdgeProperties es n x => exact map _ (bk_eset hR hc es n hv)

theorem in_access (hR : Enters X V R) (hc : ∀ x, V x → CanRead X x) (O : IdentOrder) (a : Access) (hv : a.ValuesOk V)
    (hx : Excused X E R (bulkOf a)) : (accessProg X O a).Informed (Told X E) (Backed X E R) (fun _ => True) := by
  cases a with
  | lib op => exact (in_call hR hc O op hv hx).bind (fun _ _ => trivial)
  | write w => exact (in_txn hR hc O w hv hx).bind (fun _ _ => trivial)
  | _ => exact (Quiet.of_reading (rd_access O _ rfl) _).informed

/-! ### The life of the database -/

/-- The properties in the state explain their entries. -/
def Tells (X : Cfg) (E : Owner → Identifier → UInt64 → Prop) (R : Json → UInt64 → Prop) (kv : KV) : Prop :=
  ∀ o n b w h, (kv (pTable o)).get (pKey X n o) = some b → X.codec.dec b = some w → R w h → E o n h

/-- All entries are explained. -/
def Entries (X : Cfg) (E : Owner → Identifier → UInt64 → Prop) (kv : KV) : Prop :=
  ∀ o n h, (kv (eTable o)).contains (eKey X n h o) = true → E o n h

theorem Entries.write {kv : KV} {b : Batch} (h : Entries X E kv) (hb : Backed X E R b) (ht : Tells X E R (kv.write b)) :
    Entries X E (kv.write b) := by
  intro o n k hk
  rw [contains_write] at hk
  cases hq : b.at (eTable o) (eKey X n k o) with
  | none =>
    rw [hq] at hk
    exact h o n k hk
  | some z =>
    cases z with
    | none => rw [hq] at hk; cases hk
    | some z =>
      rcases hb o n k z hq with he | ⟨y, w, hp, hw, hr⟩
      · exact he
      · refine ht o n y w k ?_ hw hr
        rw [KV.write_get, hp]; rfl

theorem Tells.told (hr : ∀ w, R w (X.H w.stream)) {kv : KV} (h : Tells X E R kv) (cf : CF) (k : Bytes) :
    ∀ b, (kv cf).get k = some b → Told X E cf k b := by
  rintro b hb o n w rfl rfl hw
  exact h o n b w _ hb hw (hr w)

structure PastInv (X : Cfg) (E : Owner → Identifier → UInt64 → Prop) (R : Json → UInt64 → Prop) (s : Rocks) (S : App) : Prop where
  entries : ∀ k, Entries X E ((S.log.take k).foldl (fun kv x => kv.write x.2) s.kv)
  db : S.db.kv = S.log.foldl (fun kv x => kv.write x.2) s.kv
  inside : ∀ c a p k, S.tasks c = .inside a p k → p.Informed (Told X E) (Backed X E R) (fun _ => True)

theorem PastInv.now {s : Rocks} {S : App} (H : PastInv X E R s S) : Entries X E S.db.kv := by
  have := H.entries S.log.length
  rw [List.take_length, ← H.db] at this
  exact this

theorem PastInv.silent {s : Rocks} {S S' : App} (H : PastInv X E R s S) {c : Nat} {t : TaskAt}
    (hp : ∀ a p k, t = .inside a p k → p.Informed (Told X E) (Backed X E R) (fun _ => True))
    (h1 : S'.tasks = setAt S.tasks c t) (h2 : S'.db.kv = S.db.kv) (h3 : S'.log = S.log) : PastInv X E R s S' := by
  refine ⟨h3 ▸ H.entries, by rw [h2, h3]; exact H.db, ?_⟩
  intro i b q j hi
  rw [h1] at hi
  rcases setAt_eq hi with ⟨_, h5⟩ | ⟨_, h5⟩
  · exact hp _ _ _ h5
  · exact H.inside i b q j h5

theorem PastInv.step (hR : Enters X V R) (hc : ∀ x, V x → CanRead X x) (hr : ∀ w, R w (X.H w.stream)) {s : Rocks} {e : List AppEv}
    {S S' : App} (H : PastInv X E R s S) (hs : App.Step X true S e S') (hm : Tells X E R S.db.kv) (hm' : Tells X E R S'.db.kv)
    (ho : OkEnters (Access.ValuesOk V) e) (hx : ∀ c a, .enter c a ∈ e → Excused X E R (bulkOf a)) : PastInv X E R s S' := by
  have one : ∀ {p : Prog Answer} {b : Access} {j}, p.Informed (Told X E) (Backed X E R) (fun _ => True) →
      ∀ a q k, TaskAt.inside b p j = .inside a q k → q.Informed (Told X E) (Backed X E R) (fun _ => True) := by
    intro p b j h a q k e
    cases e; exact h
  cases hs with
  | start c t hc => exact H.silent (t := .between t) (fun _ _ _ h => by cases h) rfl rfl rfl
  | enter c O a k hk => exact H.silent (one (in_access hR hc O a (ho c a (by simp)) (hx c a (by simp)))) rfl rfl rfl
  | stop c t hc _ => exact H.silent (t := .finished) (fun _ _ _ h => by cases h) rfl rfl rfl
  | get c a k cf b n hk => exact H.silent (one (H.inside c _ _ _ hk _ (hm.told hr cf b))) rfl rfl rfl
  | getFails c a k cf b n hi hk => exact H.silent (one (p := .done (.error ioFault)) trivial) rfl rfl rfl
  | scan c a k cf lo n hk => exact H.silent (one (H.inside c _ _ _ hk _)) rfl rfl rfl
  | scanFails c i a k cf lo n hi hk => exact H.silent (one (H.inside c _ _ _ hk _)) rfl rfl rfl
  | write c a k b n hk =>
    have hp := H.inside c _ _ _ hk
    have hE : Entries X E (S.db.kv.write b) := H.now.write hp.1 hm'
    refine ⟨fun i => ?_, ?_, ?_⟩
    · by_cases hi : i ≤ S.log.length
      · have : (S.log ++ [(c, b)]).take i = S.log.take i := List.take_append_of_le_length hi
        show Entries X E (((S.log ++ [(c, b)]).take i).foldl _ _)
        rw [this]; exact H.entries i
      · have : (S.log ++ [(c, b)]).take i = S.log ++ [(c, b)] := List.take_of_length_le (by simp; omega)
        show Entries X E (((S.log ++ [(c, b)]).take i).foldl _ _)
        rw [this, List.foldl_append, ← H.db]
        exact hE
    · show S.db.kv.write b = (S.log ++ [(c, b)]).foldl _ _
      rw [List.foldl_append, ← H.db]; rfl
    · intro i b' q j hi
      rcases setAt_eq hi with ⟨_, h5⟩ | ⟨_, h5⟩
      · cases h5; exact hp.2
      · exact H.inside i b' q j h5
  | writeFails c a k b n hi hk => exact H.silent (one (p := .done (.error ioFault)) trivial) rfl rfl rfl
  | flushFails c a k hi hk _ => exact H.silent (one (p := .done (.error ioFault)) trivial) rfl rfl rfl
  | readLock c a k held n hk _ => exact H.silent (one (H.inside c _ _ _ hk _)) rfl rfl rfl
  | writeLock c a k n hk _ _ => exact H.silent (one (H.inside c _ _ _ hk _)) rfl rfl rfl
  | setIndexed c a k ix n hk =>
    have hp := H.inside c _ _ _ hk
    exact H.silent (one (p := n ()) hp) rfl rfl rfl
  | unlock c a k r hk hw => exact ⟨H.entries, H.db, H.inside⟩
  | unlockRead c a k r hk hw => exact ⟨H.entries, H.db, H.inside⟩
  | leave c a k r hk hw hd => exact H.silent (t := App.after k r) (fun a p j h => absurd h (after_outside k r a p j)) rfl rfl rfl

theorem opens_kv {kv : KV} {t : Rocks} (ht : (newDb (Dir.full kv)).2 = .ok t) : t.kv = kv := by
  rw [newDb_full] at ht
  simp only [load, Dir.full] at ht
  split at ht
  · cases ht; rfl
  · cases ht

/-- **Every entry of the index is explained by some state of the past.** -/
theorem Lived.past (hR : Enters X V R) (hc : ∀ x, V x → CanRead X x) (hr : ∀ w, R w (X.H w.stream)) {s : Rocks} {h : List AppEv}
    {l : List Rocks} {S : App} (hl : Lived X s h l S) (hm : ∀ m ∈ l, Tells X E R m.kv) (ho : OkEnters (Access.ValuesOk V) h)
    (hx : ∀ c a, .enter c a ∈ h → Excused X E R (bulkOf a)) : S.db ∈ l ∧ PastInv X E R s S := by
  induction hl with
  | new h =>
    cases h
    exact ⟨by simp [App.init], fun k o n h hk => by simp [App.init, KV.empty, SMap.contains] at hk, rfl, fun _ _ _ _ h => by cases h⟩
  | @step s h e l S S' _ hs ih =>
    obtain ⟨h1, h2⟩ := ih (fun m hm' => hm m (List.mem_append_left _ hm')) ho.left (fun c a hc => hx c a (List.mem_append_left _ hc))
    exact ⟨by simp, h2.step hR hc hr hs (hm _ (List.mem_append_left _ h1)) (hm _ (by simp)) ho.right
      (fun c a hc => hx c a (List.mem_append_right _ hc))⟩
  | @dies s t h l S k _ ht ih =>
    obtain ⟨_, h2⟩ := ih (fun m hm' => hm m (List.mem_append_left _ hm')) ho hx
    refine ⟨by simp [App.init], fun j => ?_, rfl, fun _ _ _ _ h => by cases h⟩
    have : (([] : List (Nat × Batch)).take j) = [] := List.take_nil
    show Entries X E (((([] : List (Nat × Batch))).take j).foldl _ t.kv)
    rw [this, opens_kv ht]
    exact h2.entries k

theorem Lived.sound {s : Rocks} {h : List AppEv} {l : List Rocks} {S : App} (hl : Lived X s h l S)
    (ho : OkEnters (Access.ValuesOk V) h) : Sound X V s.kv ∧
      AppHolds (fun s => Sound X V s.kv) (fun _ p => Tidy (Perms.lax X) V p) (BatchOk X V) h S := by
  induction hl with
  | new h =>
    cases h
    exact ⟨Sound.empty, Sound.empty, (fun _ _ _ _ h => by cases h), (fun _ _ _ h => (nomatch h)), (fun _ h => (nomatch h))⟩
  | step _ hs ih =>
    obtain ⟨h1, h2⟩ := ih ho.left
    exact ⟨h1, laxRules.step h2 hs ho.right⟩
  | @dies s t h l S k _ ht ih =>
    obtain ⟨h1, h2⟩ := ih ho
    have := h1.replay (l := S.log.take k) (fun x hx => h2.log x (List.mem_of_mem_take hx))
    rw [← opens_kv ht] at this
    exact ⟨this, this, (fun _ _ _ _ h => by cases h), h2.leaves, (fun _ h => (nomatch h))⟩

/-! ### Queries -/

theorem gives_presence {s : Rocks} (hs : Sound X (CanRead X) s.kv) {n : Identifier} {o : Owner}
    (h : (rocksStoreFrom X (CanRead X) s).Gives (o.presence n) s o) : ∃ k, (s.kv (eTable o)).contains (eKey X n k o) = true := by
  have F := conformsFrom X s ⟨hs.wf, hs.values⟩
  have hr : (rocksStoreFrom X (CanRead X) s).Reach s := ⟨[], rfl, rfl, fun _ h => (nomatch h)⟩
  obtain ⟨env, h⟩ := h
  cases o with
  | vertex i =>
    obtain ⟨l, t, he, hm⟩ := h
    have A := F.answers hr env (.vertexWithPropertyPresence n)
    simp only [Answers] at A
    split at A
    · obtain ⟨l', hl, he'⟩ := A
      have := (F.value_eq hr env (.vertexWithPropertyPresence n)).symm.trans he
      rw [he'] at this
      cases this
      rw [lookup_iff, hl.1] at hm
      have hm : (listed (s.kv .vertexPropertyValues) n i.bytes && _) = true := hm.1
      rw [Bool.and_eq_true, vlisted_iff s hs.wf] at hm
      exact hm.1
    · have := (F.value_eq hr env (.vertexWithPropertyPresence n)).symm.trans he
      rw [A] at this
      cases this
  | edge e =>
    obtain ⟨l, he, hm⟩ := h
    have A := F.answers hr env (.edgeWithPropertyPresence n)
    simp only [Answers] at A
    split at A
    · obtain ⟨l', hl, he'⟩ := A
      have := (F.value_eq hr env (.edgeWithPropertyPresence n)).symm.trans he
      rw [he'] at this
      cases this
      rw [hl.1] at hm
      have hm : listed (s.kv .edgePropertyValues) n (edgeKey X e) = true := hm
      rw [elisted_iff s hs.wf] at hm
      exact hm
    · have := (F.value_eq hr env (.edgeWithPropertyPresence n)).symm.trans he
      rw [A] at this
      cases this

theorem gives_value {s : Rocks} (hs : Sound X (CanRead X) s.kv) {n : Identifier} {x : Json} {o : Owner}
    (h : (rocksStoreFrom X (CanRead X) s).Gives (o.value n x) s o) :
    (s.kv (eTable o)).contains (eKey X n (X.H x.stream) o) = true := by
  have F := conformsFrom X s ⟨hs.wf, hs.values⟩
  have hr : (rocksStoreFrom X (CanRead X) s).Reach s := ⟨[], rfl, rfl, fun _ h => (nomatch h)⟩
  obtain ⟨env, h⟩ := h
  cases o with
  | vertex i =>
    obtain ⟨l, t, he, hm⟩ := h
    have A := F.answers hr env (.vertexWithPropertyValue n x)
    simp only [Answers] at A
    split at A
    · obtain ⟨l', hl, he'⟩ := A
      have := (F.value_eq hr env (.vertexWithPropertyValue n x)).symm.trans he
      rw [he'] at this
      cases this
      rw [lookup_iff, hl.1] at hm
      have hm : (vEntry s n (X.H x.stream) i && _) = true := hm.1
      rw [Bool.and_eq_true] at hm
      exact hm.1
    · have := (F.value_eq hr env (.vertexWithPropertyValue n x)).symm.trans he
      rw [A] at this
      cases this
  | edge e =>
    obtain ⟨l, he, hm⟩ := h
    have A := F.answers hr env (.edgeWithPropertyValue n x)
    simp only [Answers] at A
    split at A
    · obtain ⟨l', hl, he'⟩ := A
      have := (F.value_eq hr env (.edgeWithPropertyValue n x)).symm.trans he
      rw [he'] at this
      cases this
      rw [hl.1] at hm
      exact hm
    · have := (F.value_eq hr env (.edgeWithPropertyValue n x)).symm.trans he
      rw [A] at this
      cases this

theorem propertyIn_some {s : Rocks} {o : Owner} {n : Identifier} {b : Bytes} {w : Json} (h : (s.kv (pTable o)).get (pKey X n o) = some b)
    (hw : X.codec.dec b = some w) : o.propertyIn (graph X s) n = some w := by
  cases o with
  | vertex i => simp only [Owner.propertyIn, graph]; rw [show (s.kv .vertexProperties).get (vpKey X i n) = some b from h]; exact hw
  | edge e => simp only [Owner.propertyIn, graph]; rw [show (s.kv .edgeProperties).get (epKey X e n) = some b from h]; exact hw

/-! ### Any execution has a past -/

theorem Lived.exec {s : Rocks} {h : List AppEv} {l : List Rocks} (hl : Lived X s h l (.init s)) {h' : List AppEv} {S : App}
    (hx : App.Exec X true s h' S) : ∃ l', Lived X s (h ++ h') (l ++ l') S := by
  induction hx with
  | nil => exact ⟨[], by simpa using hl⟩
  | snoc _ hs ih =>
    obtain ⟨l', ih⟩ := ih
    exact ⟨_, by rw [← List.append_assoc]; have := ih.step hs; rw [List.append_assoc l] at this; exact this⟩

theorem Lived.life {hs : List (List AppEv)} {s : Rocks} (hl : AppLife X hs s) : ∃ l, Lived X s hs.flatten l (.init s) := by
  induction hl with
  | new h => exact ⟨_, .new h⟩
  | again k _ hx ht ih =>
    obtain ⟨l, ih⟩ := ih
    obtain ⟨l', hl'⟩ := ih.exec hx
    exact ⟨_, by rw [List.flatten_append]; simpa using hl'.dies k ht⟩

end Rocks
end IndraDB
