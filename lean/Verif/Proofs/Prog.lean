import Verif.Model.Prog
/-
Laws of programs and batches.
-/
set_option linter.unusedSimpArgs false
namespace IndraDB

namespace Prog
variable {α β : Type}

@[simp] theorem run_done (r : Res α) (s : Rocks) : (Prog.done r).run s = (s, r) := rfl
@[simp] theorem run_pure (a : α) (s : Rocks) : (pure a : Prog α).run s = (s, .ok a) := rfl
@[simp] theorem run_lift (r : Res α) (s : Rocks) : (lift r).run s = (s, r) := rfl
@[simp] theorem run_getCf (cf : CF) (k : Bytes) (s : Rocks) : (getCf cf k).run s = (s, .ok ((s.kv cf).get k)) := rfl
@[simp] theorem run_iteratorCf (cf : CF) (lo : Bytes) (s : Rocks) :
    (iteratorCf cf lo).run s = (s, .ok (((s.kv cf).rangeFrom lo).map .ok)) := rfl
@[simp] theorem run_writeBatch (b : Batch) (s : Rocks) :
    (writeBatch b).run s = ({ s with kv := s.kv.write b }, .ok ()) := rfl
@[simp] theorem run_readLock (h : Bool) (n : SSet Identifier → Prog α) (s : Rocks) : (Prog.readLock h n).run s = (n s.indexed).run s := rfl
@[simp] theorem run_writeLock (n : SSet Identifier → Prog α) (s : Rocks) :
    (Prog.writeLock n).run s = (n s.indexed).run s := rfl
@[simp] theorem run_setIndexed (ix : SSet Identifier) (n : Unit → Prog α) (s : Rocks) :
    (Prog.setIndexed ix n).run s = (n ()).run { s with indexed := ix } := rfl

theorem run_bind' (p : Prog α) (f : α → Prog β) (s : Rocks) : (p.bind f).run s =
    match p.run s with
    | (s', .ok a) => (f a).run s'
    | (s', .error e) => (s', .error e) := by
  induction p generalizing s with
  | done r => cases r <;> rfl
  | get cf k n ih => exact ih _ s
  | scan cf lo n ih => exact ih _ s
  | write b n ih => exact ih () _
  | readLock _ n ih => exact ih _ s
  | writeLock n ih => exact ih _ s
  | setIndexed ix n ih => exact ih () _

theorem run_bind (p : Prog α) (f : α → Prog β) (s : Rocks) : (p >>= f).run s =
    match p.run s with
    | (s', .ok a) => (f a).run s'
    | (s', .error e) => (s', .error e) := run_bind' p f s

theorem run_bind_ok {p : Prog α} {f : α → Prog β} {s s' : Rocks} {a : α} (h : p.run s = (s', .ok a)) :
    (p >>= f).run s = (f a).run s' := by rw [run_bind, h]

theorem run_bind_error {p : Prog α} {f : α → Prog β} {s s' : Rocks} {e : Fault} (h : p.run s = (s', .error e)) :
    (p >>= f).run s = (s', .error e) := by rw [run_bind, h]

theorem run_map (p : Prog α) (f : α → β) (s : Rocks) : (f <$> p).run s = ((p.run s).1, (p.run s).2.map f) := by
  show (p.bind (fun a => pure (f a))).run s = _
  rw [run_bind']
  obtain ⟨s', r⟩ := p.run s
  cases r <;> rfl

theorem forItems_ok (f : α → Prog Batch) (l : List α) : forItems f (l.map .ok) = forAll f l := by
  induction l with
  | nil => rfl
  | cons a r ih => simp only [List.map_cons, forItems, forAll, ih]

theorem run_forAll {f : α → Prog Batch} {g : α → Batch} {s : Rocks} {l : List α}
    (h : ∀ a ∈ l, (f a).run s = (s, .ok (g a))) : (forAll f l).run s = (s, .ok (l.flatMap g)) := by
  induction l with
  | nil => rfl
  | cons a r ih =>
    rw [forAll, run_bind_ok (h a (by simp)), run_bind_ok (ih (fun x hx => h x (by simp [hx])))]
    simp

theorem run_forItems {f : α → Prog Batch} {g : α → Batch} {s : Rocks} {l : List α}
    (h : ∀ a ∈ l, (f a).run s = (s, .ok (g a))) : (forItems f (l.map .ok)).run s = (s, .ok (l.flatMap g)) := by
  rw [forItems_ok]; exact run_forAll h

theorem run_filterMapItems {f : α → Prog (Option β)} {g : α → Option β} {s : Rocks} {l : List α}
    (h : ∀ a ∈ l, (f a).run s = (s, .ok (g a))) :
    (filterMapItems f (l.map .ok)).run s = (s, .ok ((l.filterMap g).map .ok)) := by
  induction l with
  | nil => rfl
  | cons a r ih =>
    rw [List.map_cons, filterMapItems, run_bind_ok (h a (by simp)),
      run_bind_ok (ih (fun x hx => h x (by simp [hx])))]
    cases hg : g a <;> simp [hg]

/-! ### What a program can write, whatever it reads -/

/-- All batches the program can write satisfy `P`, and all its successful results satisfy `Q`, whatever the reads
return. -/
def All (P : Batch → Prop) (Q : α → Prop) : Prog α → Prop
  | .done (.ok a) => Q a
  | .done (.error _) => True
  | .get _ _ n => ∀ r, (n r).All P Q
  | .scan _ _ n => ∀ r, (n r).All P Q
  | .write b n => P b ∧ (n ()).All P Q
  | .readLock _ n => ∀ r, (n r).All P Q
  | .writeLock n => ∀ r, (n r).All P Q
  | .setIndexed _ n => (n ()).All P Q

variable {P : Batch → Prop} {Q : α → Prop} {Q' : β → Prop}

theorem All.bind {p : Prog α} {f : α → Prog β} (h : p.All P Q) (hf : ∀ a, Q a → (f a).All P Q') :
    (p >>= f).All P Q' := by
  show (p.bind f).All P Q'
  induction p with
  | done r => cases r with
    | ok a => exact hf a h
    | error e => trivial
  | get cf k n ih => exact fun r => ih r (h r)
  | scan cf lo n ih => exact fun r => ih r (h r)
  | write b n ih => exact ⟨h.1, ih () h.2⟩
  | readLock _ n ih => exact fun r => ih r (h r)
  | writeLock n ih => exact fun r => ih r (h r)
  | setIndexed ix n ih => exact ih () h

theorem All.mono {p : Prog α} {P' : Batch → Prop} {Q'' : α → Prop} (h : p.All P Q) (hp : ∀ b, P b → P' b)
    (hq : ∀ a, Q a → Q'' a) : p.All P' Q'' := by
  induction p with
  | done r => cases r with
    | ok a => exact hq a h
    | error e => trivial
  | get cf k n ih => exact fun r => ih r (h r)
  | scan cf lo n ih => exact fun r => ih r (h r)
  | write b n ih => exact ⟨hp _ h.1, ih () h.2⟩
  | readLock _ n ih => exact fun r => ih r (h r)
  | writeLock n ih => exact fun r => ih r (h r)
  | setIndexed ix n ih => exact ih () h

theorem All.pure {a : α} (h : Q a) : (Pure.pure a : Prog α).All P Q := h
theorem All.lift (r : Res α) (h : ∀ a, r = .ok a → Q a) : (Prog.lift r).All P Q := by
  cases r with
  | ok a => exact h a rfl
  | error e => trivial
theorem All.getCf (cf : CF) (k : Bytes) : (Prog.getCf cf k).All P (fun _ => True) := fun _ => trivial
theorem All.iteratorCf (cf : CF) (lo : Bytes) : (Prog.iteratorCf cf lo).All P (fun _ => True) := fun _ => trivial
theorem All.writeBatch {b : Batch} (h : P b) : (Prog.writeBatch b).All P (fun _ => True) := ⟨h, trivial⟩

/-- Batches built by a loop. -/
theorem All.forAll {f : α → Prog Batch} {B : Batch → Prop} (h0 : B []) (hc : ∀ a b, B a → B b → B (a ++ b)) {l : List α}
    (h : ∀ a ∈ l, (f a).All P B) : (Prog.forAll f l).All P B := by
  induction l with
  | nil => exact h0
  | cons a r ih =>
    exact (h a (by simp)).bind (fun b hb => (ih (fun x hx => h x (by simp [hx]))).bind (fun b' hb' => hc b b' hb hb'))

theorem All.forItems {f : α → Prog Batch} {B : Batch → Prop} (h0 : B []) (hc : ∀ a b, B a → B b → B (a ++ b))
    {l : DynIter α} (h : ∀ a, .ok a ∈ l → (f a).All P B) : (Prog.forItems f l).All P B := by
  induction l with
  | nil => exact h0
  | cons x r ih =>
    cases x with
    | ok a =>
      exact (h a (by simp)).bind (fun b hb => (ih (fun x hx => h x (by simp [hx]))).bind (fun b' hb' => hc b b' hb hb'))
    | error e => trivial

/-- Reading programs write nothing. -/
theorem All.filterMapItems {f : α → Prog (Option β)} {l : DynIter α} (h : ∀ a, (f a).All P (fun _ => True)) :
    (Prog.filterMapItems f l).All P (fun _ => True) := by
  induction l with
  | nil => trivial
  | cons x r ih =>
    cases x with
    | ok a => exact (h a).bind (fun b _ => ih.bind (fun l _ => trivial))
    | error e => exact ih.bind (fun l _ => trivial)

/-- An invariant of the contents preserved by all batches the program can write is preserved by running it. -/
theorem All.run {p : Prog α} {Inv : KV → Prop} (hI : ∀ b kv, P b → Inv kv → Inv (kv.write b)) (h : p.All P Q) :
    ∀ s : Rocks, Inv s.kv → Inv (p.run s).1.kv ∧ ∀ a, (p.run s).2 = .ok a → Q a := by
  induction p with
  | done r =>
    intro s hs
    refine ⟨hs, ?_⟩
    intro a ha
    cases r with
    | ok a' => cases ha; exact h
    | error e => cases ha
  | get cf k n ih => exact fun s hs => ih _ (h _) s hs
  | scan cf lo n ih => exact fun s hs => ih _ (h _) s hs
  | write b n ih => exact fun s hs => ih () h.2 { s with kv := s.kv.write b } (hI _ _ h.1 hs)
  | readLock _ n ih => exact fun s hs => ih _ (h _) s hs
  | writeLock n ih => exact fun s hs => ih _ (h _) s hs
  | setIndexed ix n ih => exact fun s hs => ih () h { s with indexed := ix } hs

end Prog

/-! ### Batches -/

/-- What one entry does to one key: nothing, or set / delete. -/
def WriteOp.at (op : WriteOp) (cf : CF) (k : Bytes) : Option (Option Bytes) :=
  match op with
  | .put c k' v => if c = cf ∧ k' = k then some (some v) else none
  | .delete c k' => if c = cf ∧ k' = k then some none else none

/-- What a batch does to one key: the last entry wins. -/
def Batch.at : Batch → CF → Bytes → Option (Option Bytes)
  | [], _, _ => none
  | op :: r, cf, k => (Batch.at r cf k).or (op.at cf k)

namespace Batch

@[simp] theorem at_nil (cf : CF) (k : Bytes) : Batch.at [] cf k = none := rfl

theorem at_cons (op : WriteOp) (r : Batch) (cf : CF) (k : Bytes) :
    Batch.at (op :: r) cf k = (Batch.at r cf k).or (op.at cf k) := rfl

theorem at_append (a b : Batch) (cf : CF) (k : Bytes) :
    Batch.at (a ++ b) cf k = (Batch.at b cf k).or (Batch.at a cf k) := by
  induction a with
  | nil => simp
  | cons op r ih => rw [List.cons_append, at_cons, ih, at_cons, Option.or_assoc]

theorem at_singleton (op : WriteOp) (cf : CF) (k : Bytes) : Batch.at [op] cf k = op.at cf k := by
  simp [at_cons]

/-- A loop all rounds of which do nothing or `x` to a key. -/
theorem at_flatMap {α : Type} {f : α → Batch} {cf : CF} {k : Bytes} {x : Option Bytes} {p : α → Prop} [DecidablePred p]
    {l : List α} (h : ∀ a ∈ l, Batch.at (f a) cf k = if p a then some x else none) :
    Batch.at (l.flatMap f) cf k = if ∃ a ∈ l, p a then some x else none := by
  induction l with
  | nil => simp
  | cons a r ih =>
    rw [List.flatMap_cons, at_append, ih (fun y hy => h y (by simp [hy])), h a (by simp)]
    by_cases h1 : ∃ a ∈ r, p a
    · have h3 : ∃ b ∈ a :: r, p b := by obtain ⟨b, hb, hp⟩ := h1; exact ⟨b, by simp [hb], hp⟩
      rw [if_pos h1, if_pos h3]; rfl
    · rw [if_neg h1]
      by_cases h2 : p a
      · have h3 : ∃ b ∈ a :: r, p b := ⟨a, by simp, h2⟩
        rw [if_pos h2, if_pos h3]; rfl
      · have h3 : ¬ ∃ b ∈ a :: r, p b := by
          rintro ⟨b, hb, hp⟩
          rcases List.mem_cons.1 hb with rfl | hb
          · exact h2 hp
          · exact h1 ⟨b, hb, hp⟩
        rw [if_neg h2, if_neg h3]; rfl

theorem at_flatMap_none {α : Type} {f : α → Batch} {cf : CF} {k : Bytes} {l : List α}
    (h : ∀ a ∈ l, Batch.at (f a) cf k = none) : Batch.at (l.flatMap f) cf k = none := by
  have := at_flatMap (x := none) (p := fun _ : α => False) (f := f) (cf := cf) (k := k) (l := l)
    (fun a ha => by rw [h a ha]; simp)
  rw [this]; simp

end Batch

theorem KV.set_get (kv : KV) (cf c : CF) (m : SMap Bytes Bytes) : (kv.set cf m) c = if c = cf then m else kv c := rfl

theorem KV.apply_get (kv : KV) (op : WriteOp) (cf : CF) (k : Bytes) :
    ((kv.apply op) cf).get k = (op.at cf k).getD ((kv cf).get k) := by
  cases op with
  | put c k' v =>
    simp only [KV.apply, KV.set_get, WriteOp.at]
    by_cases h : cf = c
    · subst h
      simp only [if_true, true_and, SMap.get_insert]
      by_cases hk : k = k'
      · subst hk; simp
      · rw [if_neg hk, if_neg (fun e => hk e.symm)]; rfl
    · rw [if_neg h, if_neg (fun e => h e.1.symm)]; rfl
  | delete c k' =>
    simp only [KV.apply, KV.set_get, WriteOp.at]
    by_cases h : cf = c
    · subst h
      simp only [if_true, true_and, SMap.get_erase]
      by_cases hk : k = k'
      · subst hk; simp
      · rw [if_neg hk, if_neg (fun e => hk e.symm)]; rfl
    · rw [if_neg h, if_neg (fun e => h e.1.symm)]; rfl

theorem KV.write_append (kv : KV) (a b : Batch) : kv.write (a ++ b) = (kv.write a).write b := by
  unfold KV.write; rw [List.foldl_append]

/-- The effect of a batch on a key. -/
theorem KV.write_get (kv : KV) (b : Batch) (cf : CF) (k : Bytes) :
    ((kv.write b) cf).get k = (b.at cf k).getD ((kv cf).get k) := by
  induction b generalizing kv with
  | nil => rfl
  | cons op r ih =>
    show (((kv.apply op).write r) cf).get k = _
    rw [ih, KV.apply_get, Batch.at_cons]
    cases Batch.at r cf k <;> rfl

theorem KV.ext_get {kv kv' : KV} (h : ∀ cf k, (kv cf).get k = (kv' cf).get k) : kv = kv' :=
  funext (fun cf => SMap.ext_get (h cf))

end IndraDB
