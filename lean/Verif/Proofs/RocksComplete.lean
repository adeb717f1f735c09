import Verif.Spec.IndexKept
import Verif.Proofs.RocksCrash
import Verif.Proofs.RocksOpen
import Verif.Proofs.RocksHistory
/-
The index of a property never loses an owner: whatever calls overlap however, whatever I/O errors occur, and whenever the
process dies.
-/
set_option linter.unusedSimpArgs false
namespace IndraDB
namespace Prog
variable {α β : Type}

/-- `All`, if the set of indexed names the program sees satisfies `I`; and then it keeps it so. -/
def AllIf (I : SSet Identifier → Prop) (P : Batch → Prop) (Q : α → Prop) : Prog α → Prop
  | .done (.ok a) => Q a
  | .done (.error _) => True
  | .get _ _ n => ∀ r, (n r).AllIf I P Q
  | .scan _ _ n => ∀ r, (n r).AllIf I P Q
  | .write b n => P b ∧ (n ()).AllIf I P Q
  | .readLock _ n => ∀ r, I r → (n r).AllIf I P Q
  | .writeLock n => ∀ r, I r → (n r).AllIf I P Q
  | .setIndexed ix n => I ix ∧ (n ()).AllIf I P Q

variable {I : SSet Identifier → Prop} {P : Batch → Prop} {Q : α → Prop} {Q' : β → Prop}

theorem AllIf.bind {p : Prog α} {f : α → Prog β} (h : p.AllIf I P Q) (hf : ∀ a, Q a → (f a).AllIf I P Q') :
    (p >>= f).AllIf I P Q' := by
  show (p.bind f).AllIf I P Q'
  induction p with
  | done r => cases r with
    | ok a => exact hf a h
    | error e => trivial
  | get cf k n ih => exact fun r => ih r (h r)
  | scan cf lo n ih => exact fun r => ih r (h r)
  | write b n ih => exact ⟨h.1, ih () h.2⟩
  | readLock _ n ih => exact fun r hr => ih r (h r hr)
  | writeLock n ih => exact fun r hr => ih r (h r hr)
  | setIndexed ix n ih => exact ⟨h.1, ih () h.2⟩

theorem Reading.thenIf {p : Prog α} {f : α → Prog β} (h : p.Reading) (hf : ∀ a, (f a).AllIf I P Q') :
    (p >>= f).AllIf I P Q' := by
  show (p.bind f).AllIf I P Q'
  induction p with
  | done r => cases r with
    | ok a => exact hf a
    | error e => trivial
  | get cf k n ih => exact fun r => ih r (h r)
  | scan cf lo n ih => exact fun r => ih r (h r)
  | write b n ih => exact h.elim
  | readLock _ n ih => exact fun r _ => ih r (h r)
  | writeLock n ih => exact h.elim
  | setIndexed ix n ih => exact h.elim

theorem AllIf.forAll {f : α → Prog Batch} {B : Batch → Prop} (h0 : B []) (hc : ∀ a b, B a → B b → B (a ++ b)) {l : List α}
    (h : ∀ a ∈ l, (f a).AllIf I P B) : (Prog.forAll f l).AllIf I P B := by
  induction l with
  | nil => exact h0
  | cons a r ih =>
    exact (h a (by simp)).bind (fun b hb => (ih (fun x hx => h x (by simp [hx]))).bind (fun b' hb' => hc b b' hb hb'))

theorem AllIf.forItems {f : α → Prog Batch} {B : Batch → Prop} (h0 : B []) (hc : ∀ a b, B a → B b → B (a ++ b))
    {l : DynIter α} (h : ∀ a, .ok a ∈ l → (f a).AllIf I P B) : (Prog.forItems f l).AllIf I P B := by
  induction l with
  | nil => exact h0
  | cons x r ih =>
    cases x with
    | ok a =>
      exact (h a (by simp)).bind (fun b hb => (ih (fun x hx => h x (by simp [hx]))).bind (fun b' hb' => hc b b' hb hb'))
    | error e => trivial

end Prog

namespace Rocks
variable (X : Cfg)

/-- What a batch does to one property (`o`) and to its index entries (`f`): it deletes index entries only along with the
property, and enters every value it writes; `R` relates the value and the hash of its entry. -/
def KeepsAt (R : Json → UInt64 → Prop) (o : Option (Option Bytes)) (f : UInt64 → Option (Option Bytes)) : Prop :=
  (o = none → ∀ h, f h ≠ some none) ∧
  ∀ bytes, o = some (some bytes) → ∀ w, X.codec.dec bytes = some w → ∃ h x, R w h ∧ f h = some (some x)

/-- The batch keeps the index of `n` complete, and `n` among the indexed names. -/
structure Keeps (R : Json → UInt64 → Prop) (n : Identifier) (b : Batch) : Prop where
  v : ∀ i, KeepsAt X R (b.at .vertexProperties (vpKey X i n)) (fun h => b.at .vertexPropertyValues (vhKey n h i))
  e : ∀ e, KeepsAt X R (b.at .edgeProperties (epKey X e n)) (fun h => b.at .edgePropertyValues (ehKey X n h e))
  m : b.at .metadata metaKey = none ∨ ∃ l, n ∈ l ∧ b.at .metadata metaKey = some (some (encodeIdents l))

/-- Every value of property `n` has an index entry, and `n` is recorded as indexed. -/
structure Complete (R : Json → UInt64 → Prop) (n : Identifier) (kv : KV) : Prop where
  v : ∀ i b w, (kv .vertexProperties).get (vpKey X i n) = some b → X.codec.dec b = some w →
    ∃ h, R w h ∧ (kv .vertexPropertyValues).contains (vhKey n h i) = true
  e : ∀ e b w, (kv .edgeProperties).get (epKey X e n) = some b → X.codec.dec b = some w →
    ∃ h, R w h ∧ (kv .edgePropertyValues).contains (ehKey X n h e) = true
  m : ∃ l, n ∈ l ∧ (kv .metadata).get metaKey = some (encodeIdents l)

variable {X} {R : Json → UInt64 → Prop} {n : Identifier}

theorem KeepsAt.none {f : UInt64 → Option (Option Bytes)} (h : ∀ h, f h ≠ some none) : KeepsAt X R none f :=
  ⟨fun _ => h, fun b h => (nomatch h)⟩

theorem KeepsAt.or {o o' : Option (Option Bytes)} {f f' : UInt64 → Option (Option Bytes)} (h : KeepsAt X R o f)
    (h' : KeepsAt X R o' f') : KeepsAt X R (o'.or o) (fun k => (f' k).or (f k)) := by
  cases o' with
  | none =>
    refine ⟨fun ho k => ?_, fun b ho w hw => ?_⟩
    · have h1 := h.1 (by simpa using ho) k
      have h2 := h'.1 rfl k
      cases hf : f' k with
      | none => simpa [hf] using h1
      | some x => rw [hf] at h2; simpa [hf] using h2
    · obtain ⟨k, x, hr, hk⟩ := h.2 b (by simpa using ho) w hw
      have h2 := h'.1 rfl k
      cases hf : f' k with
      | none => exact ⟨k, x, hr, by simp [hf, hk]⟩
      | some y =>
        cases y with
        | none => exact absurd hf h2
        | some y => exact ⟨k, y, hr, by simp [hf]⟩
  | some y =>
    refine ⟨fun ho => by simp at ho, fun b ho w hw => ?_⟩
    obtain ⟨k, x, hr, hk⟩ := h'.2 b (by simpa using ho) w hw
    exact ⟨k, x, hr, by simp [hk]⟩

theorem Keeps.nil : Keeps X R n [] :=
  ⟨fun _ => .none (fun h => by simp), fun _ => .none (fun h => by simp), Or.inl rfl⟩

theorem Keeps.append {a b : Batch} (ha : Keeps X R n a) (hb : Keeps X R n b) : Keeps X R n (a ++ b) := by
  refine ⟨fun i => ?_, fun e => ?_, ?_⟩
  · simp only [Batch.at_append]; exact (ha.v i).or (hb.v i)
  · simp only [Batch.at_append]; exact (ha.e e).or (hb.e e)
  · rw [Batch.at_append]
    rcases hb.m with h | ⟨l, hl, h⟩
    · rw [h]; simpa using ha.m
    · rw [h]; exact Or.inr ⟨l, hl, rfl⟩

/-- A batch that does not touch the properties, their indexes or the metadata. -/
theorem Keeps.other {b : Batch} (h1 : ∀ k, b.at .vertexProperties k = none) (h2 : ∀ k, b.at .vertexPropertyValues k = none)
    (h3 : ∀ k, b.at .edgeProperties k = none) (h4 : ∀ k, b.at .edgePropertyValues k = none)
    (h5 : ∀ k, b.at .metadata k = none) : Keeps X R n b :=
  ⟨fun i => by rw [h1]; exact .none (fun h => by rw [h2]; simp), fun e => by rw [h3]; exact .none (fun h => by rw [h4]; simp),
    Or.inl (h5 _)⟩

theorem Complete.write {kv : KV} {b : Batch} (h : Complete X R n kv) (hb : Keeps X R n b) : Complete X R n (kv.write b) := by
  refine ⟨fun i y w hy hw => ?_, fun e y w hy hw => ?_, ?_⟩
  · have k := hb.v i
    rw [KV.write_get] at hy
    cases ho : b.at .vertexProperties (vpKey X i n) with
    | none =>
      rw [ho] at hy
      obtain ⟨u, hr, hu⟩ := h.v i y w (by simpa using hy) hw
      refine ⟨u, hr, ?_⟩
      rw [contains_write]
      have := k.1 ho u
      rw [SMap.contains] at hu
      cases hf : b.at .vertexPropertyValues (vhKey n u i) with
      | none => simpa using hu
      | some z => cases z with
        | none => exact absurd hf this
        | some z => rfl
    | some z =>
      rw [ho] at hy
      cases z with
      | none => cases hy
      | some z =>
        simp only [Option.getD_some, Option.some.injEq] at hy
        subst hy
        obtain ⟨u, x, hr, hu⟩ := k.2 _ ho w hw
        exact ⟨u, hr, by rw [contains_write]; simp only [] at hu; rw [hu]; rfl⟩
  · have k := hb.e e
    rw [KV.write_get] at hy
    cases ho : b.at .edgeProperties (epKey X e n) with
    | none =>
      rw [ho] at hy
      obtain ⟨u, hr, hu⟩ := h.e e y w (by simpa using hy) hw
      refine ⟨u, hr, ?_⟩
      rw [contains_write]
      have := k.1 ho u
      rw [SMap.contains] at hu
      cases hf : b.at .edgePropertyValues (ehKey X n u e) with
      | none => simpa using hu
      | some z => cases z with
        | none => exact absurd hf this
        | some z => rfl
    | some z =>
      rw [ho] at hy
      cases z with
      | none => cases hy
      | some z =>
        simp only [Option.getD_some, Option.some.injEq] at hy
        subst hy
        obtain ⟨u, x, hr, hu⟩ := k.2 _ ho w hw
        exact ⟨u, hr, by rw [contains_write]; simp only [] at hu; rw [hu]; rfl⟩
  · rw [KV.write_get]
    rcases hb.m with hm | ⟨l, hl, hm⟩
    · rw [hm]; exact h.m
    · rw [hm]; exact ⟨l, hl, rfl⟩

/-! ### Batches -/

/-- `n` is in the set. -/
def Has (n : Identifier) (ix : SSet Identifier) : Prop := ix.contains n = true

/-- Values satisfying `V` are entered under a hash related by `R`. -/
def Enters (X : Cfg) (V : Json → Prop) (R : Json → UInt64 → Prop) : Prop :=
  ∀ x w, V x → X.codec.dec (X.codec.enc x) = some w → R w (X.H x.stream)

variable {V : Json → Prop} {P : Batch → Prop}

theorem keeps_vpDelete (i : Uuid) (m : Identifier) (l : Batch)
    (hl : l = [] ∨ ∃ h, l = [.delete .vertexPropertyValues (vhKey m h i)]) :
    Keeps X R n (l ++ [.delete .vertexProperties (vpKey X i m)]) := by
  have other : ∀ cf, cf ≠ .vertexPropertyValues → ∀ k, Batch.at l cf k = none := by
    intro cf hc k
    rcases hl with rfl | ⟨h, rfl⟩
    · rfl
    · rw [Batch.at_singleton]
      show (if _ then _ else _) = _
      rw [if_neg (fun e => hc e.1.symm)]
  have idx : ∀ h j, ¬ (i = j ∧ m = n) → Batch.at l .vertexPropertyValues (vhKey n h j) = none := by
    intro h j hn
    rcases hl with rfl | ⟨u, rfl⟩
    · rfl
    · rw [Batch.at_singleton]
      show (if _ then _ else _) = _
      rw [if_neg (fun e => hn ⟨(vhKey_inj.1 e.2).2.2, (vhKey_inj.1 e.2).1⟩)]
  refine ⟨fun j => ?_, fun e => ?_, Or.inl ?_⟩
  · simp only [Batch.at_append, Batch.at_singleton, WriteOp.at, vpKey_inj]
    by_cases hc : i = j ∧ m = n
    · rw [if_pos ⟨trivial, hc⟩]
      exact ⟨fun h => by simp at h, fun b h => by simp at h⟩
    · rw [if_neg (fun h => hc h.2), other _ (by simp)]
      refine .none (fun h => ?_)
      rw [idx h j hc]; simp
  · simp only [Batch.at_append, Batch.at_singleton, WriteOp.at]
    rw [other _ (by simp)]
    refine .none (fun h => ?_)
    rw [other _ (by simp)]; simp
  · rw [Batch.at_append, Batch.at_singleton, other _ (by simp)]; simp [WriteOp.at]

theorem keeps_epDelete (i : Edge) (m : Identifier) (l : Batch)
    (hl : l = [] ∨ ∃ h, l = [.delete .edgePropertyValues (ehKey X m h i)]) :
    Keeps X R n (l ++ [.delete .edgeProperties (epKey X i m)]) := by
  have other : ∀ cf, cf ≠ .edgePropertyValues → ∀ k, Batch.at l cf k = none := by
    intro cf hc k
    rcases hl with rfl | ⟨h, rfl⟩
    · rfl
    · rw [Batch.at_singleton]
      show (if _ then _ else _) = _
      rw [if_neg (fun e => hc e.1.symm)]
  have idx : ∀ h j, ¬ (i = j ∧ m = n) → Batch.at l .edgePropertyValues (ehKey X n h j) = none := by
    intro h j hn
    rcases hl with rfl | ⟨u, rfl⟩
    · rfl
    · rw [Batch.at_singleton]
      show (if _ then _ else _) = _
      rw [if_neg (fun e => hn ⟨(ehKey_inj.1 e.2).2.2, (ehKey_inj.1 e.2).1⟩)]
  refine ⟨fun j => ?_, fun e => ?_, Or.inl ?_⟩
  · simp only [Batch.at_append, Batch.at_singleton, WriteOp.at]
    rw [other _ (by simp)]
    refine .none (fun h => ?_)
    rw [other _ (by simp)]; simp
  · simp only [Batch.at_append, Batch.at_singleton, WriteOp.at, epKey_inj]
    by_cases hc : i = e ∧ m = n
    · rw [if_pos ⟨trivial, hc⟩]
      exact ⟨fun h => by simp at h, fun b h => by simp at h⟩
    · rw [if_neg (fun h => hc h.2), other _ (by simp)]
      refine .none (fun h => ?_)
      rw [idx h e hc]; simp
  · rw [Batch.at_append, Batch.at_singleton, other _ (by simp)]; simp [WriteOp.at]

theorem keeps_vpvSet (i : Uuid) (m : Identifier) (x : Json) : Keeps X R n (vpvSet X i m x) := by
  refine ⟨fun j => ?_, fun e => ?_, Or.inl ?_⟩
  · simp only [vpvSet, Batch.at_singleton, WriteOp.at]
    refine .none (fun h => ?_)
    split <;> simp
  · simp only [vpvSet, Batch.at_singleton, WriteOp.at]
    exact .none (fun h => by simp)
  · simp [vpvSet, Batch.at_singleton, WriteOp.at]

theorem keeps_epvSet (i : Edge) (m : Identifier) (x : Json) : Keeps X R n (epvSet X i m x) := by
  refine ⟨fun j => ?_, fun e => ?_, Or.inl ?_⟩
  · simp only [epvSet, Batch.at_singleton, WriteOp.at]
    exact .none (fun h => by simp)
  · simp only [epvSet, Batch.at_singleton, WriteOp.at]
    refine .none (fun h => ?_)
    split <;> simp
  · simp [epvSet, Batch.at_singleton, WriteOp.at]

/-- A property with its index entry. -/
theorem keeps_vpPut (hR : Enters X V R) (i : Uuid) (m : Identifier) (x : Json) (hx : V x) :
    Keeps X R n ([.put .vertexProperties (vpKey X i m) (X.codec.enc x)] ++ vpvSet X i m x) := by
  refine ⟨fun j => ?_, fun e => ?_, Or.inl ?_⟩
  · simp only [vpvSet, vpvKey_eq, Batch.at_append, Batch.at_singleton, WriteOp.at, vpKey_inj, vhKey_inj]
    by_cases hc : i = j ∧ m = n
    · obtain ⟨rfl, rfl⟩ := hc
      refine ⟨fun h => by simp at h, fun b h w hw => ?_⟩
      simp at h
      subst h
      exact ⟨_, [], hR x w hx hw, by simp⟩
    · have e : (if CF.vertexPropertyValues = CF.vertexProperties ∧ vhKey m (X.H x.stream) i = vpKey X j n then some (some ([] : Bytes)) else none).or
          (if True ∧ i = j ∧ m = n then some (some (X.codec.enc x)) else none) = none := by simp [hc]
      rw [e]
      refine .none (fun h => ?_)
      have hc' : ¬ (m = n ∧ X.H x.stream = h ∧ i = j) := fun e => hc ⟨e.2.2, e.1⟩
      simp [hc']
  · simp only [vpvSet, Batch.at_append, Batch.at_singleton, WriteOp.at]
    exact .none (fun h => by simp)
  · simp [vpvSet, Batch.at_cons, WriteOp.at]

theorem keeps_epPut (hR : Enters X V R) (i : Edge) (m : Identifier) (x : Json) (hx : V x) :
    Keeps X R n ([.put .edgeProperties (epKey X i m) (X.codec.enc x)] ++ epvSet X i m x) := by
  refine ⟨fun j => ?_, fun j => ?_, Or.inl ?_⟩
  · simp only [epvSet, Batch.at_append, Batch.at_singleton, WriteOp.at]
    exact .none (fun h => by simp)
  · simp only [epvSet, epvKey_eq, Batch.at_append, Batch.at_singleton, WriteOp.at, epKey_inj, ehKey_inj]
    by_cases hc : i = j ∧ m = n
    · obtain ⟨rfl, rfl⟩ := hc
      refine ⟨fun h => by simp at h, fun b h w hw => ?_⟩
      simp at h
      subst h
      exact ⟨_, [], hR x w hx hw, by simp⟩
    · have e : (if CF.edgePropertyValues = CF.edgeProperties ∧ ehKey X m (X.H x.stream) i = epKey X j n then some (some ([] : Bytes)) else none).or
          (if True ∧ i = j ∧ m = n then some (some (X.codec.enc x)) else none) = none := by simp [hc]
      rw [e]
      refine .none (fun h => ?_)
      have hc' : ¬ (m = n ∧ X.H x.stream = h ∧ i = j) := fun e => hc ⟨e.2.2, e.1⟩
      simp [hc']
  · simp [epvSet, Batch.at_cons, WriteOp.at]

/-- Another property without index entry. -/
theorem keeps_vpPut_other (i : Uuid) (m : Identifier) (x : Bytes) (h : m ≠ n) :
    Keeps X R n [.put .vertexProperties (vpKey X i m) x] := by
  refine ⟨fun j => ?_, fun e => ?_, Or.inl ?_⟩
  · simp only [Batch.at_singleton, WriteOp.at, vpKey_inj, h, and_false, if_false]
    exact .none (fun h => by simp)
  · simp only [Batch.at_singleton, WriteOp.at]
    exact .none (fun h => by simp)
  · simp [Batch.at_singleton, WriteOp.at]

theorem keeps_epPut_other (i : Edge) (m : Identifier) (x : Bytes) (h : m ≠ n) :
    Keeps X R n [.put .edgeProperties (epKey X i m) x] := by
  refine ⟨fun j => ?_, fun e => ?_, Or.inl ?_⟩
  · simp only [Batch.at_singleton, WriteOp.at]
    exact .none (fun h => by simp)
  · simp only [Batch.at_singleton, WriteOp.at, epKey_inj, h, and_false, if_false]
    exact .none (fun h => by simp)
  · simp [Batch.at_singleton, WriteOp.at]

theorem keeps_setIndexed (O : IdentOrder) {ix : SSet Identifier} (h : Has n ix) : Keeps X R n (setIndexedBatch O ix) := by
  refine ⟨fun j => ?_, fun e => ?_, Or.inr ⟨O.order ix.elems, ?_, ?_⟩⟩
  · simp only [setIndexedBatch, Batch.at_singleton, WriteOp.at]
    exact .none (fun h => by simp)
  · simp only [setIndexedBatch, Batch.at_singleton, WriteOp.at]
    exact .none (fun h => by simp)
  · exact (O.perm _).mem_iff.2 (SSet.mem_elems.2 h)
  · simp [setIndexedBatch, Batch.at_singleton, WriteOp.at]

/-! ### Programs -/

theorem if_vpDelete (ix : SSet Identifier) (i : Uuid) (m : Identifier) : (vpDelete X ix i m).AllIf (Has n) P (Keeps X R n) := by
  unfold vpDelete
  refine Prog.AllIf.bind (Q := fun l => l = [] ∨ ∃ h, l = [.delete .vertexPropertyValues (vhKey m h i)]) ?_
    (fun b hb => keeps_vpDelete i m b hb)
  split
  · refine (rd_vpGet _ _).thenIf ?_
    intro r
    cases r with
    | none => exact Or.inl rfl
    | some v => exact Or.inr ⟨_, by rw [vpvDelete, vpvKey_eq]⟩
  · exact Or.inl rfl

theorem if_epDelete (ix : SSet Identifier) (i : Edge) (m : Identifier) : (epDelete X ix i m).AllIf (Has n) P (Keeps X R n) := by
  unfold epDelete
  refine Prog.AllIf.bind (Q := fun l => l = [] ∨ ∃ h, l = [.delete .edgePropertyValues (ehKey X m h i)]) ?_
    (fun b hb => keeps_epDelete i m b hb)
  split
  · refine (rd_epGet _ _).thenIf ?_
    intro r
    cases r with
    | none => exact Or.inl rfl
    | some v => exact Or.inr ⟨_, by rw [epvDelete, epvKey_eq]⟩
  · exact Or.inl rfl

theorem if_vpSet (hR : Enters X V R) {ix : SSet Identifier} (hi : Has n ix) (i : Uuid) (m : Identifier) (x : Json) (hx : V x) :
    (vpSet X ix i m x).AllIf (Has n) P (Keeps X R n) := by
  unfold vpSet
  refine Prog.AllIf.bind (Q := Keeps X R n) ?_ (fun b hb => ?_)
  · split
    · exact if_vpDelete _ _ _
    · exact Keeps.nil
  · show Keeps X R n (if _ then _ else _)
    split
    · rw [List.append_assoc]
      exact hb.append (keeps_vpPut hR i m x hx)
    next h => exact hb.append (keeps_vpPut_other i m _ (fun e => h (e ▸ hi)))

theorem if_epSet (hR : Enters X V R) {ix : SSet Identifier} (hi : Has n ix) (i : Edge) (m : Identifier) (x : Json) (hx : V x) :
    (epSet X ix i m x).AllIf (Has n) P (Keeps X R n) := by
  unfold epSet
  refine Prog.AllIf.bind (Q := Keeps X R n) ?_ (fun b hb => ?_)
  · split
    · exact if_epDelete _ _ _
    · exact Keeps.nil
  · show Keeps X R n (if _ then _ else _)
    split
    · rw [List.append_assoc]
      exact hb.append (keeps_epPut hR i m x hx)
    next h => exact hb.append (keeps_epPut_other i m _ (fun e => h (e ▸ hi)))

theorem keeps_edges {b : Batch} (h : ∀ op ∈ b, (∃ e v, op = .put .edgeRanges e v ∨ op = .put .reversedEdgeRanges e v) ∨
    ∃ e, op = .delete .edgeRanges e ∨ op = .delete .reversedEdgeRanges e) : Keeps X R n b := by
  have key : ∀ cf, cf ≠ .edgeRanges → cf ≠ .reversedEdgeRanges → ∀ k, b.at cf k = none := by
    intro cf h1 h2 k
    induction b with
    | nil => rfl
    | cons op r ih =>
      rw [Batch.at_cons, ih (fun o ho => h o (List.mem_cons_of_mem _ ho)), Option.none_or]
      rcases h op List.mem_cons_self with ⟨e, v, rfl | rfl⟩ | ⟨e, rfl | rfl⟩
      · show (if _ then _ else _) = _; rw [if_neg (fun e => h1 e.1.symm)]
      · show (if _ then _ else _) = _; rw [if_neg (fun e => h2 e.1.symm)]
      · show (if _ then _ else _) = _; rw [if_neg (fun e => h1 e.1.symm)]
      · show (if _ then _ else _) = _; rw [if_neg (fun e => h2 e.1.symm)]
  exact .other (key _ (by simp) (by simp)) (key _ (by simp) (by simp)) (key _ (by simp) (by simp)) (key _ (by simp) (by simp))
    (key _ (by simp) (by simp))

theorem keeps_edgeSet (e : Edge) : Keeps X R n (edgeRangeSet X .edgeRanges e ++ edgeRangeSet X .reversedEdgeRanges e.reversed) := by
  refine keeps_edges (fun op h => ?_)
  simp only [edgeRangeSet, List.singleton_append, List.mem_cons, List.not_mem_nil, or_false] at h
  rcases h with rfl | rfl
  · exact Or.inl ⟨_, _, Or.inl rfl⟩
  · exact Or.inl ⟨_, _, Or.inr rfl⟩

theorem keeps_edgeDelete (e : Edge) :
    Keeps X R n (edgeRangeDelete X .edgeRanges e ++ edgeRangeDelete X .reversedEdgeRanges e.reversed) := by
  refine keeps_edges (fun op h => ?_)
  simp only [edgeRangeDelete, List.singleton_append, List.mem_cons, List.not_mem_nil, or_false] at h
  rcases h with rfl | rfl
  · exact Or.inr ⟨_, Or.inl rfl⟩
  · exact Or.inr ⟨_, Or.inr rfl⟩

theorem if_edgeSet (e : Edge) : (edgeSet X e).AllIf (Has n) P (Keeps X R n) := by
  unfold edgeSet
  refine (rd_edgeContains _ _).thenIf ?_
  intro r
  show Keeps X R n _
  rw [List.append_assoc]
  refine Keeps.append ?_ (keeps_edgeSet e)
  split
  · exact keeps_edgeDelete e
  · exact .nil

theorem if_edgeDelete (ix : SSet Identifier) (e : Edge) : (edgeDelete X ix e).AllIf (Has n) P (Keeps X R n) := by
  unfold edgeDelete
  refine (rd_epIterate _).thenIf ?_
  intro l
  refine Prog.AllIf.bind (Q := Keeps X R n) (.forItems .nil (fun _ _ => .append) (fun _ _ => if_epDelete _ _ _)) ?_
  intro b hb
  exact (keeps_edgeDelete e).append hb

theorem keeps_vertex {op : WriteOp} (h : (∃ k v, op = .put .vertices k v) ∨ ∃ k, op = .delete .vertices k) : Keeps X R n [op] := by
  have key : ∀ cf, cf ≠ .vertices → ∀ k, Batch.at [op] cf k = none := by
    intro cf h1 k
    rw [Batch.at_singleton]
    rcases h with ⟨e, v, rfl⟩ | ⟨e, rfl⟩
    · show (if _ then _ else _) = _; rw [if_neg (fun e => h1 e.1.symm)]
    · show (if _ then _ else _) = _; rw [if_neg (fun e => h1 e.1.symm)]
  exact .other (key _ (by simp)) (key _ (by simp)) (key _ (by simp)) (key _ (by simp)) (key _ (by simp))

theorem if_vertexDelete (ix : SSet Identifier) (id : Uuid) : (vertexDelete X ix id).AllIf (Has n) P (Keeps X R n) := by
  have he : ∀ (l : DynIter Edge), (Prog.forItems (fun e => do
      Prog.lift (debugAssert X (e.outboundId = id))
      edgeDelete X ix e) l).AllIf (Has n) P (Keeps X R n) := by
    intro l
    refine .forItems .nil (fun _ _ => .append) (fun e _ => ?_)
    exact (Prog.Reading.lift _).thenIf (fun _ => if_edgeDelete _ _)
  unfold vertexDelete
  refine (rd_vpIterate _).thenIf (fun l => ?_)
  refine Prog.AllIf.bind (Q := Keeps X R n) (.forItems .nil (fun _ _ => .append) (fun _ _ => if_vpDelete _ _ _)) ?_
  intro b1 h1
  refine (rd_edgeIterateRoot _ _).thenIf (fun l => ?_)
  refine (he l).bind (fun b2 h2 => ?_)
  refine (rd_edgeIterateRoot _ _).thenIf (fun l => ?_)
  refine (he l).bind (fun b3 h3 => ?_)
  exact (((keeps_vertex (Or.inr ⟨_, rfl⟩)).append h1).append h2).append h3

theorem if_locked {f : SSet Identifier → Prog Batch} (h : ∀ ix, Has n ix → (f ix).AllIf (Has n) (Keeps X R n) (Keeps X R n)) :
    (locked f).AllIf (Has n) (Keeps X R n) (fun _ => True) :=
  fun ix hi => (h ix hi).bind (fun _ hb => ⟨hb, trivial⟩)

theorem if_indexProperty (O : IdentOrder) (m : Identifier) :
    (indexProperty X O m).AllIf (Has n) (Keeps X R n) (fun _ => True) := by
  intro ix hi
  have ha : Has n (ix.add m) := by
    unfold Has at *
    rw [SSet.contains_add, hi, Bool.or_true]
  show Prog.AllIf _ _ _ (if _ then _ else _)
  split
  · trivial
  · refine ⟨ha, (rd_vertexIterate Uuid.nil).thenIf (fun l => ?_)⟩
    refine Prog.AllIf.bind (Q := Keeps X R n) (.forItems .nil (fun _ _ => .append) (fun v _ => ?_)) (fun b1 h1 => ?_)
    · refine (rd_vpGet _ _).thenIf (fun r => ?_)
      cases r with
      | none => exact Keeps.nil
      | some x => exact keeps_vpvSet _ _ _
    · refine (rd_edgeIterateAll _).thenIf (fun l => ?_)
      refine Prog.AllIf.bind (Q := Keeps X R n) (.forItems .nil (fun _ _ => .append) (fun v _ => ?_)) (fun b2 h2 => ?_)
      · refine (rd_epGet _ _).thenIf (fun r => ?_)
        cases r with
        | none => exact Keeps.nil
        | some x => exact keeps_epvSet _ _ _
      · exact ⟨((keeps_setIndexed O ha).append h1).append h2, trivial⟩

/-- **All batches a call may write keep the index of `n` complete, whatever happens meanwhile.** -/
theorem if_call (hR : Enters X V R) (O : IdentOrder) (op : Op) (hv : op.ValuesOk V) :
    (callProg X O op).AllIf (Has n) (Keeps X R n) (fun _ => True) := by
  have map : ∀ {α : Type} {p : Prog α} (f : α → Reply), p.AllIf (Has n) (Keeps X R n) (fun _ => True) →
      (p >>= fun a => (pure (f a) : Prog Reply)).AllIf (Has n) (Keeps X R n) (fun _ => True) :=
    fun f h => h.bind (fun _ _ => trivial)
  have cv : ∀ v, (createVertex X v).AllIf (Has n) (Keeps X R n) (fun _ => True) := by
    intro v
    refine (rd_vertexExists _).thenIf (fun r => ?_)
    split
    · trivial
    · exact ⟨keeps_vertex (Or.inl ⟨_, _, rfl⟩), trivial⟩
  cases op with
  | sync => trivial
  | createVertex v => exact map _ (cv v)
  | createVertexFromType id t =>
    refine map _ ((cv _).bind (fun b _ => ?_))
    cases b <;> trivial
  | createEdge e =>
    refine map _ ?_
    refine (rd_vertexExists _).thenIf (fun r => ?_)
    split
    · trivial
    · refine (rd_vertexExists _).thenIf (fun r => ?_)
      split
      · trivial
      · exact (if_edgeSet (R := R) e).bind (fun b hb => ⟨hb, trivial⟩)
  | get q =>
    show (Prog.AllIf _ _ _ (queryP X q [] >>= _))
    exact (rd_query q []).thenIf (fun _ => trivial)
  | delete q =>
    refine map _ ((rd_lastOutput q).thenIf (fun v => ?_))
    cases v with
    | vertices vs => exact if_locked (fun _ _ => .forAll .nil (fun _ _ => .append) (fun _ _ => if_vertexDelete _ _))
    | edges es =>
      refine if_locked (fun ix _ => .forAll .nil (fun _ _ => .append) (fun e _ => ?_))
      refine (rd_vertexGet _).thenIf (fun r => ?_)
      cases r with
      | none => exact Keeps.nil
      | some t => exact if_edgeDelete _ _
    | vertexProperties l => exact if_locked (fun _ _ => .forAll .nil (fun _ _ => .append) (fun _ _ => if_vpDelete _ _ _))
    | edgeProperties l => exact if_locked (fun _ _ => .forAll .nil (fun _ _ => .append) (fun _ _ => if_epDelete _ _ _))
    | count n => trivial
  | setProperties q m x =>
    refine map _ ((rd_lastOutput q).thenIf (fun v => ?_))
    cases v with
    | vertices vs => exact if_locked (fun _ hi => .forAll .nil (fun _ _ => .append) (fun _ _ => if_vpSet hR hi _ _ _ hv))
    | edges es => exact if_locked (fun _ hi => .forAll .nil (fun _ _ => .append) (fun _ _ => if_epSet hR hi _ _ _ hv))
    | _ => trivial
  | bulkInsert items =>
    refine map _ (if_locked (fun ix hi => .forAll .nil (fun _ _ => .append) (fun i hm => ?_)))
    have hvi := hv i hm
    cases i with
    | vertex v => exact keeps_vertex (Or.inl ⟨_, _, rfl⟩)
    | edge e => exact if_edgeSet e
    | vertexProperty id m v => exact if_vpSet hR hi _ _ _ hvi
    | edgeProperty e m v => exact if_epSet hR hi _ _ _ hvi
  | indexProperty m => exact map _ (if_indexProperty O m)

/-! ### Executions -/

structure KeptInv (X : Cfg) (R : Json → UInt64 → Prop) (n : Identifier) (S : Conc) : Prop where
  has : Has n S.db.indexed
  complete : Complete X R n S.db.kv
  calls : ∀ c p, S.calls c = .running p → p.AllIf (Has n) (Keeps X R n) (fun _ => True)
  log : ∀ x ∈ S.log, Keeps X R n x.2

theorem KeptInv.silent {S S' : Conc} (H : KeptInv X R n S) {c : Nat} {p' : Prog Reply}
    (hp' : p'.AllIf (Has n) (Keeps X R n) (fun _ => True)) (h1 : S'.calls = setAt S.calls c (.running p'))
    (h2 : Has n S'.db.indexed) (h3 : Complete X R n S'.db.kv) (h4 : ∀ x ∈ S'.log, Keeps X R n x.2) : KeptInv X R n S' := by
  refine ⟨h2, h3, ?_, h4⟩
  intro i q hi
  rw [h1] at hi
  rcases setAt_eq hi with ⟨_, h5⟩ | ⟨_, h5⟩
  · cases h5; exact hp'
  · exact H.calls i q h5

theorem KeptInv.step (hR : Enters X V R) {e : List Ev} {S S' : Conc} (H : KeptInv X R n S) (hs : Conc.FaultyStep X S e S')
    (ho : OkCalls V e) : KeptInv X R n S' := by
  cases hs with
  | fine hs =>
    cases hs with
    | call c O op hc => exact H.silent (if_call hR O op (ho c op (by simp))) rfl H.has H.complete H.log
    | get c cf k n hc => exact H.silent (H.calls c _ hc _) rfl H.has H.complete H.log
    | scan c cf k n hc => exact H.silent (H.calls c _ hc _) rfl H.has H.complete H.log
    | write c b n hc =>
      have := H.calls c _ hc
      refine H.silent (p' := n ()) this.2 rfl H.has (H.complete.write this.1) ?_
      intro x hx
      rcases List.mem_append.1 hx with hx | hx
      · exact H.log x hx
      · rw [List.mem_singleton] at hx; subst hx; exact this.1
    | readLock c _ n hc _ => exact H.silent (H.calls c _ hc _ H.has) rfl H.has H.complete H.log
    | writeLock c n hc _ _ => exact H.silent (H.calls c _ hc _ H.has) rfl H.has H.complete H.log
    | setIndexed c ix n hc =>
      have := H.calls c _ hc
      exact H.silent (p' := n ()) this.2 rfl this.1 H.complete H.log
    | unlock c r hc hw => exact ⟨H.has, H.complete, H.calls, H.log⟩
    | unlockRead c r hc hw => exact ⟨H.has, H.complete, H.calls, H.log⟩
    | ret c r hc hw hr =>
      refine ⟨H.has, H.complete, ?_, H.log⟩
      intro i q hi
      rcases setAt_eq hi with ⟨_, h4⟩ | ⟨_, h4⟩
      · cases h4
      · exact H.calls i q h4
  | getFails c cf k n hc => exact H.silent (p' := .done (.error ioFault)) trivial rfl H.has H.complete H.log
  | scanFails c i cf lo n hc => exact H.silent (H.calls c _ hc _) rfl H.has H.complete H.log
  | writeFails c b n hc => exact H.silent (p' := .done (.error ioFault)) trivial rfl H.has H.complete H.log
  | flushFails c hc => exact H.silent (p' := .done (.error ioFault)) trivial rfl H.has H.complete H.log

theorem KeptInv.exec (hR : Enters X V R) {s : Rocks} (h1 : Has n s.indexed) (h2 : Complete X R n s.kv) {h : List Ev} {S : Conc}
    (hx : Conc.FaultyExec X s h S) (ho : OkCalls V h) : KeptInv X R n S := by
  induction hx with
  | nil => exact ⟨h1, h2, (fun c p h => by cases h), (fun x h => (nomatch h))⟩
  | snoc hx hs ih =>
    exact (ih (fun c op hm => ho c op (List.mem_append_left _ hm))).step hR hs (fun c op hm => ho c op (List.mem_append_right _ hm))

theorem Complete.replay {kv : KV} (h : Complete X R n kv) {l : List (Nat × Batch)} (hl : ∀ x ∈ l, Keeps X R n x.2) :
    Complete X R n (l.foldl (fun kv x => kv.write x.2) kv) := by
  induction l generalizing kv with
  | nil => exact h
  | cons a r ih => exact ih (h.write (hl a List.mem_cons_self)) (fun x hx => hl x (List.mem_cons_of_mem _ hx))

/-! ### Sessions -/

theorem WfInv.faulty {s : Rocks} {h : List Ev} {S : Conc} (hw : Wf X s.kv) (hv : Values X V s.kv)
    (hx : Conc.FaultyExec X s h S) (ho : OkCalls V h) : WfInv X V S ∧ ∀ x ∈ S.log, BatchOk X V x.2 := by
  induction hx with
  | nil => exact ⟨⟨hw, hv, by intro c p h; cases h⟩, fun x h => (nomatch h)⟩
  | @snoc h S S' e hx hs ih =>
    obtain ⟨H, L⟩ := ih (fun c op hc => ho c op (List.mem_append_left _ hc))
    have he : OkCalls V e := fun c op hc => ho c op (List.mem_append_right _ hc)
    have same := And.intro H.wf H.values
    cases hs with
    | fine hs =>
      refine ⟨H.step hs he, ?_⟩
      cases hs with
      | write c b n hc =>
        intro x hx
        rcases List.mem_append.1 hx with hx | hx
        · exact L x hx
        · rw [List.mem_singleton] at hx; subst hx; exact (H.all c _ hc).1
      | _ => exact L
    | getFails c cf k n hc => exact ⟨H.silent (p' := .done (.error ioFault)) trivial rfl same, L⟩
    | scanFails c i cf lo n hc => exact ⟨H.silent (H.all c _ hc _) rfl same, L⟩
    | writeFails c b n hc => exact ⟨H.silent (p' := .done (.error ioFault)) trivial rfl same, L⟩
    | flushFails c hc => exact ⟨H.silent (p' := .done (.error ioFault)) trivial rfl same, L⟩

theorem Wf.replay {kv : KV} (h : Wf X kv ∧ Values X V kv) {l : List (Nat × Batch)} (hl : ∀ x ∈ l, BatchOk X V x.2) :
    Wf X (l.foldl (fun kv x => kv.write x.2) kv) ∧ Values X V (l.foldl (fun kv x => kv.write x.2) kv) := by
  induction l generalizing kv with
  | nil => exact h
  | cons a r ih =>
    have := hl a List.mem_cons_self
    exact ih ⟨h.1.write this, h.2.write this⟩ (fun x hx => hl x (List.mem_cons_of_mem _ hx))

/-- What the record of the indexed names gives. -/
theorem decodeIdents_list {l : List Identifier} (hl : l.length < 2 ^ 64) : decodeIdents (encodeIdents l) = .ok (identSet l) := by
  have h1 : ((encodeIdents l).take 8) = le64 l.length := by
    rw [encodeIdents, List.take_append_of_le_length (by simp [le64_length]), List.take_of_length_le (by simp [le64_length])]
  have h2 : ((encodeIdents l).drop 8) = l.flatMap (fun i => le64 i.bytes.length ++ i.bytes) ++ [] := by
    have := List.drop_left (l₁ := le64 l.length) (l₂ := l.flatMap (fun i => le64 i.bytes.length ++ i.bytes))
    rw [le64_length] at this
    rw [List.append_nil]; exact this
  unfold decodeIdents
  rw [if_neg (by simp [encodeIdents, le64_length]), h1, h2, leVal_le64 hl, decodeIdentList_append]
  rfl

theorem length_le_encodeIdents (l : List Identifier) : l.length ≤ (encodeIdents l).length := by
  rw [encodeIdents, List.length_append]
  have : l.length ≤ (l.flatMap (fun i => le64 i.bytes.length ++ i.bytes)).length := by
    induction l with
    | nil => simp
    | cons a r ih =>
      rw [List.flatMap_cons, List.length_append, List.length_append, le64_length, List.length_cons]
      omega
  omega

/-- Opening keeps `n` among the indexed names, and everything else. -/
theorem Complete.opens {kv : KV} (h : Complete X R n kv)
    (hm : ∀ b, (kv .metadata).get metaKey = some b → b.length < 2 ^ 64) {t : Rocks} (ht : (newDb (Dir.full kv)).2 = .ok t) :
    t.kv = kv ∧ Has n t.indexed := by
  obtain ⟨l, hl, hg⟩ := h.m
  have h1 : (getIndexed.run ⟨kv, SMap.empty⟩).2 = .ok (identSet l) := by
    rw [getIndexed_some (s := ⟨kv, SMap.empty⟩) hg]
    exact decodeIdents_list (Nat.lt_of_le_of_lt (length_le_encodeIdents l) (hm _ hg))
  rw [newDb_full] at ht
  simp only [load, Dir.full, h1] at ht
  cases ht
  exact ⟨rfl, (contains_identSet l n).2 hl⟩

theorem OkCalls.mono {V' : Json → Prop} {h : List Ev} (ho : OkCalls V h) (hv : ∀ x, V x → V' x) : OkCalls V' h := by
  intro c op hm
  have := ho c op hm
  cases op with
  | setProperties q m x => exact hv _ this
  | bulkInsert items =>
    intro i hi
    have := this i hi
    cases i with
    | vertexProperty _ _ x => exact hv _ this
    | edgeProperty _ _ x => exact hv _ this
    | _ => trivial
  | _ => trivial

/-- What is known about a state from the index of `n`. -/
structure Kept (X : Cfg) (R : Json → UInt64 → Prop) (n : Identifier) (s : Rocks) : Prop where
  wf : Wf X s.kv
  values : Values X (CanRead X) s.kv
  has : Has n s.indexed
  complete : Complete X R n s.kv

theorem Kept.exec (hR : Enters X V R) (hc : ∀ x, V x → CanRead X x) {s : Rocks} (h : Kept X R n s) {hh : List Ev} {S : Conc}
    (hx : Conc.FaultyExec X s hh S) (ho : OkCalls V hh) : Kept X R n S.db := by
  have H := KeptInv.exec hR h.has h.complete hx ho
  have W := (WfInv.faulty h.wf h.values hx (ho.mono hc)).1
  exact ⟨W.wf, W.values, H.has, H.complete⟩

theorem Kept.sessions (hR : Enters X V R) (hc : ∀ x, V x → CanRead X x) {s t : Rocks} (h : Kept X R n s) {hs : List (List Ev)} (hl : Sessions X s hs t)
    (ho : ∀ h ∈ hs, OkCalls V h) : Kept X R n t := by
  induction hl with
  | none => exact h
  | @again hs t u h' S k _ hx hm ht ih =>
    have K := ih (fun a ha => ho a (List.mem_append_left _ ha))
    have hok : OkCalls V h' := ho h' (by simp)
    have H := KeptInv.exec hR K.has K.complete hx hok
    have W := WfInv.faulty K.wf K.values hx (hok.mono hc)
    have C := K.complete.replay (l := S.log.take k) (fun x hx => H.log x (List.mem_of_mem_take hx))
    have D := Wf.replay ⟨K.wf, K.values⟩ (l := S.log.take k) (fun x hx => W.2 x (List.mem_of_mem_take hx))
    obtain ⟨h1, h2⟩ := C.opens hm ht
    exact ⟨h1 ▸ D.1, h1 ▸ D.2, h2, h1 ▸ C⟩

/-! ### Queries -/

theorem Kept.lists {s : Rocks} (h : Kept X R n s) : (rocksStoreFrom X (CanRead X) s).ListsOwners n s := by
  have F := conformsFrom X s ⟨h.wf, h.values⟩
  have hr : (rocksStoreFrom X (CanRead X) s).Reach s := ⟨[], rfl, rfl, fun _ h => (nomatch h)⟩
  have hn : ((rocksStoreFrom X (CanRead X) s).graph s).indexed n = true := h.has
  intro env
  refine ⟨?_, ?_⟩
  · have := F.answers hr env (.vertexWithPropertyPresence n)
    simp only [Answers] at this
    rw [if_pos hn] at this
    obtain ⟨l, hl, he⟩ := this
    refine ⟨_, by rw [F.value_eq hr, he]; rfl, fun v hv hp => ?_⟩
    rw [lookup_iff, hl.1]
    refine ⟨?_, hv⟩
    show (listed (s.kv .vertexPropertyValues) n v.id.bytes && _) = true
    rw [Bool.and_eq_true, vlisted_iff s h.wf, vertex_isSome s h.wf, Option.isSome_iff_ne_none]
    refine ⟨?_, by
      have hv' : (graph X s).vertex v.id = some v.t := hv
      rw [hv']; simp⟩
    have hp' : (graph X s).vprop v.id n ≠ none := hp
    simp only [graph] at hp'
    cases hb : (s.kv .vertexProperties).get (vpKey X v.id n) with
    | none => rw [hb] at hp'; exact absurd rfl hp'
    | some b =>
      rw [hb] at hp'
      cases hw : X.codec.dec b with
      | none => exact absurd hw hp'
      | some w =>
        obtain ⟨u, _, hu⟩ := h.complete.v _ b w hb hw
        exact ⟨u, hu⟩
  · have := F.answers hr env (.edgeWithPropertyPresence n)
    simp only [Answers] at this
    rw [if_pos hn] at this
    obtain ⟨l, hl, he⟩ := this
    refine ⟨_, by rw [F.value_eq hr, he]; rfl, fun e _ hp => ?_⟩
    rw [hl.1]
    show listed (s.kv .edgePropertyValues) n (edgeKey X e) = true
    rw [elisted_iff s h.wf]
    have hp' : (graph X s).eprop e n ≠ none := hp
    simp only [graph] at hp'
    cases hb : (s.kv .edgeProperties).get (epKey X e n) with
    | none => rw [hb] at hp'; exact absurd rfl hp'
    | some b =>
      rw [hb] at hp'
      cases hw : X.codec.dec b with
      | none => exact absurd hw hp'
      | some w =>
        obtain ⟨u, _, hu⟩ := h.complete.e _ b w hb hw
        exact ⟨u, hu⟩

theorem Kept.listsValues {s : Rocks} (h : Kept X (fun w k => X.H w.stream = k) n s) :
    (rocksStoreFrom X (CanRead X) s).ListsValueOwners n s := by
  have F := conformsFrom X s ⟨h.wf, h.values⟩
  have hr : (rocksStoreFrom X (CanRead X) s).Reach s := ⟨[], rfl, rfl, fun _ h => (nomatch h)⟩
  have hn : ((rocksStoreFrom X (CanRead X) s).graph s).indexed n = true := h.has
  intro env x
  refine ⟨?_, ?_⟩
  · have := F.answers hr env (.vertexWithPropertyValue n x)
    simp only [Answers] at this
    rw [if_pos hn] at this
    obtain ⟨l, hl, he⟩ := this
    refine ⟨_, by rw [F.value_eq hr, he]; rfl, fun v hv hp => ?_⟩
    rw [lookup_iff, hl.1]
    refine ⟨?_, hv⟩
    show (vEntry s n (X.H x.stream) v.id && _) = true
    rw [Bool.and_eq_true, vertex_isSome s h.wf, Option.isSome_iff_ne_none]
    refine ⟨?_, by
      have hv' : (graph X s).vertex v.id = some v.t := hv
      rw [hv']; simp⟩
    have hp' : (graph X s).vprop v.id n = some x := hp
    simp only [graph] at hp'
    cases hb : (s.kv .vertexProperties).get (vpKey X v.id n) with
    | none => rw [hb] at hp'; cases hp'
    | some b =>
      rw [hb] at hp'
      obtain ⟨u, rfl, hu⟩ := h.complete.v _ b x hb hp'
      exact hu
  · have := F.answers hr env (.edgeWithPropertyValue n x)
    simp only [Answers] at this
    rw [if_pos hn] at this
    obtain ⟨l, hl, he⟩ := this
    refine ⟨_, by rw [F.value_eq hr, he]; rfl, fun e _ hp => ?_⟩
    rw [hl.1]
    show eEntry X s n (X.H x.stream) e = true
    have hp' : (graph X s).eprop e n = some x := hp
    simp only [graph] at hp'
    cases hb : (s.kv .edgeProperties).get (epKey X e n) with
    | none => rw [hb] at hp'; cases hp'
    | some b =>
      rw [hb] at hp'
      obtain ⟨u, rfl, hu⟩ := h.complete.e _ b x hb hp'
      exact hu

theorem Kept.mono {R' : Json → UInt64 → Prop} {s : Rocks} (h : Kept X R n s) (hr : ∀ w k, R w k → R' w k) : Kept X R' n s :=
  ⟨h.wf, h.values, h.has, ⟨fun i b w hb hw => let ⟨u, a, c⟩ := h.complete.v i b w hb hw; ⟨u, hr _ _ a, c⟩,
    fun i b w hb hw => let ⟨u, a, c⟩ := h.complete.e i b w hb hw; ⟨u, hr _ _ a, c⟩, h.complete.m⟩⟩

/-- Where it begins: histories that keep the index exact. -/
theorem kept_of_cinv {s : Rocks} (h : CInv X s) (hm : MetaOk s) (hn : Has n s.indexed) (hV : Values X (CanRead X) s.kv) :
    Kept X (fun w k => X.H w.stream = k) n s := by
  refine ⟨h.inv.wf, hV, hn, ⟨fun i b w hb hw => ?_, fun e b w hb hw => ?_, ?_⟩⟩
  · refine ⟨_, rfl, (h.idx.v n _ i).2 ⟨hn, w, ?_, rfl⟩⟩
    simp only [graph]; rw [hb]; exact hw
  · refine ⟨_, rfl, (h.idx.e n _ e).2 ⟨hn, w, ?_, rfl⟩⟩
    simp only [graph]; rw [hb]; exact hw
  · rcases hm with ⟨_, h2⟩ | ⟨l, hp, hg⟩
    · rw [Has, h2] at hn; cases hn
    · exact ⟨l, hp.mem_iff.2 (SSet.mem_elems.2 hn), hg⟩

end Rocks
end IndraDB
