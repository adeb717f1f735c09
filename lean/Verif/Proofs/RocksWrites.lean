import Verif.Proofs.RocksBatches
import Verif.Spec.RocksSem
/-
The exact effect of the RocksDB datastore's write methods, run without interference.
-/
set_option linter.unusedSimpArgs false
set_option linter.unusedVariables false
namespace IndraDB

/-- The batch does `x` to the key if `p`, and nothing otherwise. -/
def Acts (b : Batch) (cf : CF) (k : Bytes) (x : Option Bytes) (p : Prop) : Prop :=
  (p → b.at cf k = some x) ∧ (¬ p → b.at cf k = none)

namespace Acts
variable {a b : Batch} {cf : CF} {k : Bytes} {x : Option Bytes} {p q : Prop}

theorem iff (h : Acts b cf k x p) (e : p ↔ q) : Acts b cf k x q :=
  ⟨fun hq => h.1 (e.2 hq), fun hq => h.2 (fun hp => hq (e.1 hp))⟩

theorem nil : Acts [] cf k x False := ⟨fun h => h.elim, fun _ => rfl⟩

theorem append (ha : Acts a cf k x p) (hb : Acts b cf k x q) : Acts (a ++ b) cf k x (p ∨ q) := by
  classical
  constructor
  · intro h
    rw [Batch.at_append]
    by_cases hq : q
    · rw [hb.1 hq]; rfl
    · rw [hb.2 hq, ha.1 (h.resolve_right hq)]; rfl
  · intro h
    rw [Batch.at_append, hb.2 (fun hq => h (Or.inr hq)), ha.2 (fun hp => h (Or.inl hp))]; rfl

theorem flatMap {α : Type} {f : α → Batch} {p : α → Prop} {l : List α} (h : ∀ a ∈ l, Acts (f a) cf k x (p a)) :
    Acts (l.flatMap f) cf k x (∃ a ∈ l, p a) := by
  induction l with
  | nil => exact nil.iff (by simp)
  | cons a r ih =>
    rw [List.flatMap_cons]
    refine ((h a (by simp)).append (ih (fun y hy => h y (by simp [hy])))).iff ?_
    simp

theorem get (h : Acts b cf k x p) (kv : KV) : ((kv.write b) cf).get k = x ∧ p ∨ ¬ p ∧ ((kv.write b) cf).get k = (kv cf).get k := by
  classical
  rw [KV.write_get]
  by_cases hp : p
  · left; rw [h.1 hp]; exact ⟨rfl, hp⟩
  · right; rw [h.2 hp]; exact ⟨hp, rfl⟩

theorem none_iff : Acts b cf k x False ↔ b.at cf k = none := ⟨fun h => h.2 (fun h => h), fun h => ⟨fun f => f.elim, fun _ => h⟩⟩

end Acts

namespace Rocks
variable {X : Cfg}

/-- Selection of keys by what they stand for. -/
structure Sel where
  v : Uuid → Prop
  e : Edge → Prop
  vp : Uuid → Identifier → Prop
  ep : Edge → Identifier → Prop
  vi : Identifier → UInt64 → Uuid → Prop
  ei : Identifier → UInt64 → Edge → Prop

/-- The batch deletes exactly the selected keys. -/
structure Drops (X : Cfg) (b : Batch) (S : Sel) : Prop where
  v : ∀ i, Acts b .vertices (vertexKey X i) none (S.v i)
  e : ∀ e, Acts b .edgeRanges (edgeKey X e) none (S.e e)
  vp : ∀ i n, Acts b .vertexProperties (vpKey X i n) none (S.vp i n)
  ep : ∀ e n, Acts b .edgeProperties (epKey X e n) none (S.ep e n)
  vi : ∀ n h i, Acts b .vertexPropertyValues (vhKey n h i) none (S.vi n h i)
  ei : ∀ n h e, Acts b .edgePropertyValues (ehKey X n h e) none (S.ei n h e)
  md : ∀ k, b.at .metadata k = none

/-- Pointwise union. -/
def Sel.or (S T : Sel) : Sel :=
  ⟨fun i => S.v i ∨ T.v i, fun e => S.e e ∨ T.e e, fun i n => S.vp i n ∨ T.vp i n, fun e n => S.ep e n ∨ T.ep e n,
    fun n h i => S.vi n h i ∨ T.vi n h i, fun n h e => S.ei n h e ∨ T.ei n h e⟩

/-- Union over a list. -/
def Sel.any {α : Type} (l : List α) (S : α → Sel) : Sel :=
  ⟨fun i => ∃ a ∈ l, (S a).v i, fun e => ∃ a ∈ l, (S a).e e, fun i n => ∃ a ∈ l, (S a).vp i n,
    fun e n => ∃ a ∈ l, (S a).ep e n, fun n h i => ∃ a ∈ l, (S a).vi n h i, fun n h e => ∃ a ∈ l, (S a).ei n h e⟩

/-- Nothing. -/
def Sel.none : Sel := ⟨fun _ => False, fun _ => False, fun _ _ => False, fun _ _ => False, fun _ _ _ => False, fun _ _ _ => False⟩

theorem Drops.append {a b : Batch} {S T : Sel} (ha : Drops X a S) (hb : Drops X b T) : Drops X (a ++ b) (S.or T) where
  v i := (ha.v i).append (hb.v i)
  e e := (ha.e e).append (hb.e e)
  vp i n := (ha.vp i n).append (hb.vp i n)
  ep e n := (ha.ep e n).append (hb.ep e n)
  vi n h i := (ha.vi n h i).append (hb.vi n h i)
  ei n h e := (ha.ei n h e).append (hb.ei n h e)
  md k := by rw [Batch.at_append, ha.md, hb.md]; rfl

theorem Drops.nil : Drops X [] Sel.none where
  v i := Acts.nil
  e i := Acts.nil
  vp i n := Acts.nil
  ep i n := Acts.nil
  vi i n h := Acts.nil
  ei i n h := Acts.nil
  md k := rfl

theorem Drops.flatMap {α : Type} {f : α → Batch} {S : α → Sel} {l : List α} (h : ∀ a ∈ l, Drops X (f a) (S a)) :
    Drops X (l.flatMap f) (Sel.any l S) where
  v i := Acts.flatMap (fun a ha => (h a ha).v i)
  e i := Acts.flatMap (fun a ha => (h a ha).e i)
  vp i n := Acts.flatMap (fun a ha => (h a ha).vp i n)
  ep i n := Acts.flatMap (fun a ha => (h a ha).ep i n)
  vi i n x := Acts.flatMap (fun a ha => (h a ha).vi i n x)
  ei i n x := Acts.flatMap (fun a ha => (h a ha).ei i n x)
  md k := Batch.at_flatMap_none (fun a ha => (h a ha).md k)

/-- Pointwise equivalence. -/
structure Sel.Eqv (S T : Sel) : Prop where
  v : ∀ i, S.v i ↔ T.v i
  e : ∀ e, S.e e ↔ T.e e
  vp : ∀ i n, S.vp i n ↔ T.vp i n
  ep : ∀ e n, S.ep e n ↔ T.ep e n
  vi : ∀ n h i, S.vi n h i ↔ T.vi n h i
  ei : ∀ n h e, S.ei n h e ↔ T.ei n h e

theorem Drops.eqv {b : Batch} {S T : Sel} (h : Drops X b S) (e : S.Eqv T) : Drops X b T where
  v i := (h.v i).iff (e.v i)
  e i := (h.e i).iff (e.e i)
  vp i n := (h.vp i n).iff (e.vp i n)
  ep i n := (h.ep i n).iff (e.ep i n)
  vi i n x := (h.vi i n x).iff (e.vi i n x)
  ei i n x := (h.ei i n x).iff (e.ei i n x)
  md := h.md

section
variable (s : Rocks) (hw : Wf X s.kv) (hr : Readable X s.kv)

/-- Is there a value with hash `h`? -/
def HasHash (X : Cfg) (o : Option Json) (h : UInt64) : Prop := ∃ w, o = some w ∧ X.H w.stream = h

/-- Deleting property `n` of vertex `id`. -/
def selVp (X : Cfg) (s : Rocks) (ix : SSet Identifier) (id : Uuid) (n : Identifier) : Sel :=
  { Sel.none with
    vp := fun i m => i = id ∧ m = n
    vi := fun m h i => i = id ∧ m = n ∧ ix.contains n = true ∧ HasHash X ((graph X s).vprop i m) h }

/-- Deleting property `n` of edge `e`. -/
def selEp (X : Cfg) (s : Rocks) (ix : SSet Identifier) (e : Edge) (n : Identifier) : Sel :=
  { Sel.none with
    ep := fun f m => f = e ∧ m = n
    ei := fun m h f => f = e ∧ m = n ∧ ix.contains n = true ∧ HasHash X ((graph X s).eprop f m) h }

theorem acts_single {op : WriteOp} {cf : CF} {k : Bytes} {x : Option Bytes} {p : Prop}
    (h1 : p → op.at cf k = some x) (h2 : ¬ p → op.at cf k = none) : Acts [op] cf k x p := by
  unfold Acts; rw [Batch.at_singleton]; exact ⟨h1, h2⟩

theorem drops_vp (id : Uuid) (n : Identifier) : Drops X [.delete .vertexProperties (vpKey X id n)]
    { Sel.none with vp := fun i m => i = id ∧ m = n } where
  v i := acts_single (fun h => h.elim) (fun _ => by simp [WriteOp.at])
  e i := acts_single (fun h => h.elim) (fun _ => by simp [WriteOp.at])
  vp i m := acts_single (fun h => by simp [WriteOp.at, vpKey_inj, h.1, h.2])
    (fun h => by simp only [WriteOp.at, vpKey_inj, true_and]; rw [if_neg (fun ⟨a, b⟩ => h ⟨a.symm, b.symm⟩)])
  ep i n := acts_single (fun h => h.elim) (fun _ => by simp [WriteOp.at])
  vi i n x := acts_single (fun h => h.elim) (fun _ => by simp [WriteOp.at])
  ei i n x := acts_single (fun h => h.elim) (fun _ => by simp [WriteOp.at])
  md k := by simp [Batch.at_singleton, WriteOp.at]

theorem drops_ep (e : Edge) (n : Identifier) : Drops X [.delete .edgeProperties (epKey X e n)]
    { Sel.none with ep := fun i m => i = e ∧ m = n } where
  v i := acts_single (fun h => h.elim) (fun _ => by simp [WriteOp.at])
  e i := acts_single (fun h => h.elim) (fun _ => by simp [WriteOp.at])
  ep i m := acts_single (fun h => by simp [WriteOp.at, epKey_inj, h.1, h.2])
    (fun h => by simp only [WriteOp.at, epKey_inj, true_and]; rw [if_neg (fun ⟨a, b⟩ => h ⟨a.symm, b.symm⟩)])
  vp i n := acts_single (fun h => h.elim) (fun _ => by simp [WriteOp.at])
  vi i n x := acts_single (fun h => h.elim) (fun _ => by simp [WriteOp.at])
  ei i n x := acts_single (fun h => h.elim) (fun _ => by simp [WriteOp.at])
  md k := by simp [Batch.at_singleton, WriteOp.at]

theorem drops_vpv (id : Uuid) (n : Identifier) (v : Json) : Drops X (vpvDelete X id n v)
    { Sel.none with vi := fun m h i => i = id ∧ m = n ∧ X.H v.stream = h } where
  v i := acts_single (fun h => h.elim) (fun _ => by simp [WriteOp.at])
  e i := acts_single (fun h => h.elim) (fun _ => by simp [WriteOp.at])
  vp i n := acts_single (fun h => h.elim) (fun _ => by simp [WriteOp.at])
  ep i n := acts_single (fun h => h.elim) (fun _ => by simp [WriteOp.at])
  vi m x i := acts_single (fun ⟨a, b, c⟩ => by simp [WriteOp.at, vpvKey_eq, vhKey_inj, a, b, c])
    (fun h => by simp only [WriteOp.at, vpvKey_eq, vhKey_inj, true_and]; rw [if_neg (fun ⟨a, b, c⟩ => h ⟨c.symm, a.symm, b⟩)])
  ei i n x := acts_single (fun h => h.elim) (fun _ => by simp [WriteOp.at])
  md k := by simp [vpvDelete, Batch.at_singleton, WriteOp.at]

theorem drops_epv (e : Edge) (n : Identifier) (v : Json) : Drops X (epvDelete X e n v)
    { Sel.none with ei := fun m h i => i = e ∧ m = n ∧ X.H v.stream = h } where
  v i := acts_single (fun h => h.elim) (fun _ => by simp [WriteOp.at])
  e i := acts_single (fun h => h.elim) (fun _ => by simp [WriteOp.at])
  vp i n := acts_single (fun h => h.elim) (fun _ => by simp [WriteOp.at])
  ep i n := acts_single (fun h => h.elim) (fun _ => by simp [WriteOp.at])
  ei m x i := acts_single (fun ⟨a, b, c⟩ => by simp [WriteOp.at, epvKey_eq, ehKey_inj, a, b, c])
    (fun h => by simp only [WriteOp.at, epvKey_eq, ehKey_inj, true_and]; rw [if_neg (fun ⟨a, b, c⟩ => h ⟨c.symm, a.symm, b⟩)])
  vi i n x := acts_single (fun h => h.elim) (fun _ => by simp [WriteOp.at])
  md k := by simp [epvDelete, Batch.at_singleton, WriteOp.at]

include hr in
theorem vpDelete_run (ix : SSet Identifier) (id : Uuid) (n : Identifier) :
    ∃ b, (vpDelete X ix id n).run s = (s, .ok b) ∧ Drops X b (selVp X s ix id n) := by
  have fin : ∀ b0, Drops X b0 { Sel.none with vi := (selVp X s ix id n).vi } →
      Drops X (b0 ++ [.delete .vertexProperties (vpKey X id n)]) (selVp X s ix id n) := fun b0 h0 =>
    (h0.append (drops_vp id n)).eqv
      ⟨fun _ => by simp [Sel.or, Sel.none, selVp], fun _ => by simp [Sel.or, Sel.none, selVp],
       fun _ _ => by simp [Sel.or, Sel.none, selVp], fun _ _ => by simp [Sel.or, Sel.none, selVp],
       fun _ _ _ => by simp [Sel.or, Sel.none, selVp], fun _ _ _ => by simp [Sel.or, Sel.none, selVp]⟩
  have e0 : (¬ (ix.contains n = true) ∨ (graph X s).vprop id n = none) →
      Drops X [] { Sel.none with vi := (selVp X s ix id n).vi } := fun hn => Drops.nil.eqv
    ⟨fun _ => Iff.rfl, fun _ => Iff.rfl, fun _ _ => Iff.rfl, fun _ _ => Iff.rfl, fun m h i => by
      simp only [Sel.none, selVp, false_iff]
      rintro ⟨rfl, rfl, h1, w, h2, _⟩
      rcases hn with hn | hn
      · exact hn h1
      · rw [hn] at h2; exact absurd h2 (by simp), fun _ _ _ => Iff.rfl⟩
  unfold vpDelete
  by_cases hn : ix.contains n = true
  · rw [if_pos hn]
    cases hv : (graph X s).vprop id n with
    | none =>
      refine ⟨_, ?_, fin [] (e0 (Or.inr hv))⟩
      rw [Prog.run_bind_ok ((Prog.run_bind_ok (vpGet_run id n s hr)).trans (by rw [hv]; rfl))]; rfl
    | some v =>
      refine ⟨_, ?_, fin (vpvDelete X id n v) ((drops_vpv id n v).eqv ⟨fun _ => Iff.rfl, fun _ => Iff.rfl,
        fun _ _ => Iff.rfl, fun _ _ => Iff.rfl, fun m h i => ?_, fun _ _ _ => Iff.rfl⟩)⟩
      · rw [Prog.run_bind_ok ((Prog.run_bind_ok (vpGet_run id n s hr)).trans (by rw [hv]; rfl))]; rfl
      · simp only [Sel.none, selVp]
        constructor
        · rintro ⟨rfl, rfl, rfl⟩; exact ⟨rfl, rfl, hn, v, hv, rfl⟩
        · rintro ⟨rfl, rfl, _, w, h1, rfl⟩
          rw [hv] at h1; cases h1; exact ⟨rfl, rfl, rfl⟩
  · rw [if_neg hn]
    exact ⟨_, rfl, fin [] (e0 (Or.inl hn))⟩

include hr in
theorem epDelete_run (ix : SSet Identifier) (e : Edge) (n : Identifier) :
    ∃ b, (epDelete X ix e n).run s = (s, .ok b) ∧ Drops X b (selEp X s ix e n) := by
  have fin : ∀ b0, Drops X b0 { Sel.none with ei := (selEp X s ix e n).ei } →
      Drops X (b0 ++ [.delete .edgeProperties (epKey X e n)]) (selEp X s ix e n) := fun b0 h0 =>
    (h0.append (drops_ep e n)).eqv
      ⟨fun _ => by simp [Sel.or, Sel.none, selEp], fun _ => by simp [Sel.or, Sel.none, selEp],
       fun _ _ => by simp [Sel.or, Sel.none, selEp], fun _ _ => by simp [Sel.or, Sel.none, selEp],
       fun _ _ _ => by simp [Sel.or, Sel.none, selEp], fun _ _ _ => by simp [Sel.or, Sel.none, selEp]⟩
  have e0 : (¬ (ix.contains n = true) ∨ (graph X s).eprop e n = none) →
      Drops X [] { Sel.none with ei := (selEp X s ix e n).ei } := fun hn => Drops.nil.eqv
    ⟨fun _ => Iff.rfl, fun _ => Iff.rfl, fun _ _ => Iff.rfl, fun _ _ => Iff.rfl, fun _ _ _ => Iff.rfl, fun m h i => by
      simp only [Sel.none, selEp, false_iff]
      rintro ⟨rfl, rfl, h1, w, h2, _⟩
      rcases hn with hn | hn
      · exact hn h1
      · rw [hn] at h2; cases h2⟩
  unfold epDelete
  by_cases hn : ix.contains n = true
  · rw [if_pos hn]
    cases hv : (graph X s).eprop e n with
    | none =>
      refine ⟨_, ?_, fin [] (e0 (Or.inr hv))⟩
      rw [Prog.run_bind_ok ((Prog.run_bind_ok (epGet_run e n s hr)).trans (by rw [hv]; rfl))]; rfl
    | some v =>
      refine ⟨_, ?_, fin (epvDelete X e n v) ((drops_epv e n v).eqv ⟨fun _ => Iff.rfl, fun _ => Iff.rfl,
        fun _ _ => Iff.rfl, fun _ _ => Iff.rfl, fun _ _ _ => Iff.rfl, fun m h i => ?_⟩)⟩
      · rw [Prog.run_bind_ok ((Prog.run_bind_ok (epGet_run e n s hr)).trans (by rw [hv]; rfl))]; rfl
      · simp only [Sel.none, selEp]
        constructor
        · rintro ⟨rfl, rfl, rfl⟩; exact ⟨rfl, rfl, hn, v, hv, rfl⟩
        · rintro ⟨rfl, rfl, _, w, h1, rfl⟩
          rw [hv] at h1; cases h1; exact ⟨rfl, rfl, rfl⟩
  · rw [if_neg hn]
    exact ⟨_, rfl, fin [] (e0 (Or.inl hn))⟩

/-- Deleting the edges and edge properties selected by `p`. -/
def selEdges (X : Cfg) (s : Rocks) (ix : SSet Identifier) (p : Edge → Prop) : Sel :=
  { Sel.none with
    e := p
    ep := fun f n => p f ∧ (graph X s).eprop f n ≠ none
    ei := fun n h f => p f ∧ ix.contains n = true ∧ HasHash X ((graph X s).eprop f n) h }

theorem drops_edge (e : Edge) :
    Drops X (edgeRangeDelete X .edgeRanges e ++ edgeRangeDelete X .reversedEdgeRanges e.reversed)
      { Sel.none with e := fun f => f = e } := by
  have h1 : Drops X (edgeRangeDelete X .edgeRanges e) { Sel.none with e := fun f => f = e } := {
    v := fun i => acts_single (fun h => h.elim) (fun _ => by simp [WriteOp.at])
    e := fun i => acts_single (fun (h : i = e) => by simp [WriteOp.at, edgeKey_inj, h])
      (fun h => by simp only [WriteOp.at, edgeKey_inj, true_and]; rw [if_neg (fun a => h a.symm)])
    vp := fun i n => acts_single (fun h => h.elim) (fun _ => by simp [WriteOp.at])
    ep := fun i n => acts_single (fun h => h.elim) (fun _ => by simp [WriteOp.at])
    vi := fun i n x => acts_single (fun h => h.elim) (fun _ => by simp [WriteOp.at])
    ei := fun i n x => acts_single (fun h => h.elim) (fun _ => by simp [WriteOp.at])
    md := fun k => by simp [edgeRangeDelete, Batch.at_singleton, WriteOp.at] }
  have h2 : Drops X (edgeRangeDelete X .reversedEdgeRanges e.reversed) Sel.none := {
    v := fun i => acts_single (fun h => h.elim) (fun _ => by simp [WriteOp.at])
    e := fun i => acts_single (fun h => h.elim) (fun _ => by simp [WriteOp.at])
    vp := fun i n => acts_single (fun h => h.elim) (fun _ => by simp [WriteOp.at])
    ep := fun i n => acts_single (fun h => h.elim) (fun _ => by simp [WriteOp.at])
    vi := fun i n x => acts_single (fun h => h.elim) (fun _ => by simp [WriteOp.at])
    ei := fun i n x => acts_single (fun h => h.elim) (fun _ => by simp [WriteOp.at])
    md := fun k => by simp [edgeRangeDelete, Batch.at_singleton, WriteOp.at] }
  exact (h1.append h2).eqv ⟨fun _ => by simp [Sel.or, Sel.none], fun _ => by simp [Sel.or, Sel.none],
    fun _ _ => by simp [Sel.or, Sel.none], fun _ _ => by simp [Sel.or, Sel.none],
    fun _ _ _ => by simp [Sel.or, Sel.none], fun _ _ _ => by simp [Sel.or, Sel.none]⟩

/-- A loop all rounds of which delete something. -/
theorem forAll_run {α : Type} {f : α → Prog Batch} {S : α → Sel} {l : List α} {s : Rocks}
    (h : ∀ a ∈ l, ∃ b, (f a).run s = (s, .ok b) ∧ Drops X b (S a)) :
    ∃ b, (Prog.forAll f l).run s = (s, .ok b) ∧ Drops X b (Sel.any l S) := by
  classical
  let g : α → Batch := fun a => if ha : a ∈ l then (h a ha).choose else []
  have hg : ∀ a (ha : a ∈ l), (f a).run s = (s, .ok (g a)) ∧ Drops X (g a) (S a) := by
    intro a ha
    have := (h a ha).choose_spec
    simp only [g, dif_pos ha]; exact this
  exact ⟨_, Prog.run_forAll (fun a ha => (hg a ha).1), Drops.flatMap (fun a ha => (hg a ha).2)⟩

theorem forItems_run {α : Type} {f : α → Prog Batch} {S : α → Sel} {l : List α} {s : Rocks}
    (h : ∀ a ∈ l, ∃ b, (f a).run s = (s, .ok b) ∧ Drops X b (S a)) :
    ∃ b, (Prog.forItems f (l.map .ok)).run s = (s, .ok b) ∧ Drops X b (Sel.any l S) := by
  rw [Prog.forItems_ok]; exact forAll_run h

include hw hr in
theorem edgeDelete_run (ix : SSet Identifier) (e : Edge) :
    ∃ b, (edgeDelete X ix e).run s = (s, .ok b) ∧ Drops X b (selEdges X s ix (fun f => f = e)) := by
  obtain ⟨l, h1, _, h3⟩ := epIterate_run e s hw hr
  obtain ⟨b, hb, hd⟩ := forItems_run (X := X) (f := fun p : Edge × Identifier × Json => epDelete X ix p.1 p.2.1)
    (S := fun p => selEp X s ix p.1 p.2.1) (l := l) (s := s) (fun p _ => epDelete_run s hr ix p.1 p.2.1)
  refine ⟨_, ?_, ((drops_edge e).append hd).eqv ?_⟩
  · unfold edgeDelete
    rw [Prog.run_bind_ok h1, Prog.run_bind_ok hb]; rfl
  · refine ⟨fun _ => by simp [Sel.or, Sel.none, Sel.any, selEp, selEdges], fun _ => by simp [Sel.or, Sel.none, Sel.any, selEp, selEdges],
      fun _ _ => by simp [Sel.or, Sel.none, Sel.any, selEp, selEdges], fun f n => ?_,
      fun _ _ _ => by simp [Sel.or, Sel.none, Sel.any, selEp, selEdges], fun n h f => ?_⟩
    · simp only [Sel.or, Sel.none, Sel.any, selEp, selEdges, false_or]
      constructor
      · rintro ⟨⟨f', n', v⟩, hp, rfl, rfl⟩
        obtain ⟨rfl, h⟩ := (h3 _).1 hp
        exact ⟨rfl, by rw [h]; simp⟩
      · rintro ⟨rfl, h⟩
        obtain ⟨v, hv⟩ := Option.ne_none_iff_exists'.1 h
        exact ⟨(f, n, v), (h3 _).2 ⟨rfl, hv⟩, rfl, rfl⟩
    · simp only [Sel.or, Sel.none, Sel.any, selEp, selEdges, false_or]
      constructor
      · rintro ⟨⟨f', n', v⟩, hp, rfl, rfl, h4, h5⟩
        exact ⟨((h3 _).1 hp).1, h4, h5⟩
      · rintro ⟨rfl, h4, h5⟩
        obtain ⟨v, hv, hh⟩ := h5
        exact ⟨(f, n, v), (h3 _).2 ⟨rfl, hv⟩, rfl, rfl, h4, v, hv, hh⟩

/-- Deleting vertex `id`. -/
def selVertex (X : Cfg) (s : Rocks) (ix : SSet Identifier) (id : Uuid) : Sel :=
  let p := fun f : Edge => f.outboundId = id ∧ ((graph X s).edge f = true ∨ (graph X s).edge f.reversed = true)
  { selEdges X s ix p with
    v := fun i => i = id
    vp := fun i n => i = id ∧ (graph X s).vprop i n ≠ none
    vi := fun n h i => i = id ∧ ix.contains n = true ∧ HasHash X ((graph X s).vprop i n) h }

theorem drops_vertex (id : Uuid) : Drops X [.delete .vertices (vertexKey X id)] { Sel.none with v := fun i => i = id } where
  v i := acts_single (fun (h : i = id) => by simp [WriteOp.at, vertexKey_inj, h])
    (fun h => by simp only [WriteOp.at, vertexKey_inj, true_and]; rw [if_neg (fun a => h a.symm)])
  e i := acts_single (fun h => h.elim) (fun _ => by simp [WriteOp.at])
  vp i n := acts_single (fun h => h.elim) (fun _ => by simp [WriteOp.at])
  ep i n := acts_single (fun h => h.elim) (fun _ => by simp [WriteOp.at])
  vi i n x := acts_single (fun h => h.elim) (fun _ => by simp [WriteOp.at])
  ei i n x := acts_single (fun h => h.elim) (fun _ => by simp [WriteOp.at])
  md k := by simp [Batch.at_singleton, WriteOp.at]

include hw hr in
/-- Deleting all edges listed from a root in one of the edge tables. -/
theorem edgesDelete_run (ix : SSet Identifier) (id : Uuid) (l : List Edge) (hl : ∀ e ∈ l, e.outboundId = id) :
    ∃ b, (Prog.forItems (fun e => do
      Prog.lift (debugAssert X (e.outboundId = id))
      edgeDelete X ix e) (l.map .ok)).run s = (s, .ok b) ∧ Drops X b (selEdges X s ix (fun f => f ∈ l)) := by
  obtain ⟨b, hb, hd⟩ := forItems_run (X := X) (f := fun e : Edge => do
      Prog.lift (debugAssert X (e.outboundId = id))
      edgeDelete X ix e) (S := fun e => selEdges X s ix (fun f => f = e)) (l := l) (s := s) (by
    intro e he
    obtain ⟨b, hb, hd⟩ := edgeDelete_run s hw hr ix e
    refine ⟨b, ?_, hd⟩
    have : (Prog.lift (debugAssert X (decide (e.outboundId = id)))).run s = (s, .ok ()) := by
      rw [debugAssert_true _ (by simp [hl e he])]; rfl
    rw [Prog.run_bind_ok this, hb])
  refine ⟨b, hb, hd.eqv ?_⟩
  refine ⟨fun _ => by simp [Sel.any, selEdges, Sel.none], fun _ => by simp [Sel.any, selEdges, Sel.none],
    fun _ _ => by simp [Sel.any, selEdges, Sel.none], fun f n => ?_, fun _ _ _ => by simp [Sel.any, selEdges, Sel.none],
    fun n h f => ?_⟩ <;>
  · simp only [Sel.any, selEdges]
    constructor
    · rintro ⟨a, ha, rfl, h⟩; exact ⟨ha, h⟩
    · rintro ⟨ha, h⟩; exact ⟨_, ha, rfl, h⟩

include hw hr in
theorem vertexDelete_run (ix : SSet Identifier) (id : Uuid) :
    ∃ b, (vertexDelete X ix id).run s = (s, .ok b) ∧ Drops X b (selVertex X s ix id) := by
  obtain ⟨l1, r1, _, m1⟩ := vpIterate_run id s hw hr
  obtain ⟨b1, hb1, hd1⟩ := forItems_run (X := X) (f := fun p : Uuid × Identifier × Json => vpDelete X ix p.1 p.2.1)
    (S := fun p => selVp X s ix p.1 p.2.1) (l := l1) (s := s) (fun p _ => vpDelete_run s hr ix p.1 p.2.1)
  obtain ⟨l2, r2, m2⟩ := edgeIterateRoot_run .edgeRanges id s hw.edges
  obtain ⟨b2, hb2, hd2⟩ := edgesDelete_run s hw hr ix id l2 (fun e he => ((m2 e).1 he).2)
  obtain ⟨l3, r3, m3⟩ := edgeIterateRoot_run .reversedEdgeRanges id s hw.reversed
  obtain ⟨b3, hb3, hd3⟩ := edgesDelete_run s hw hr ix id l3 (fun e he => ((m3 e).1 he).2)
  have hp : ∀ f, (f.outboundId = id ∧ ((graph X s).edge f = true ∨ (graph X s).edge f.reversed = true)) ↔
      (f ∈ l2 ∨ f ∈ l3) := by
    intro f
    rw [m2, m3, hw.mirror]
    simp only [graph]
    constructor
    · rintro ⟨h, h' | h'⟩
      · exact Or.inl ⟨h', h⟩
      · exact Or.inr ⟨h', h⟩
    · rintro (⟨h, h'⟩ | ⟨h, h'⟩)
      · exact ⟨h', Or.inl h⟩
      · exact ⟨h', Or.inr h⟩
  refine ⟨_, ?_, ((((drops_vertex id).append hd1).append hd2).append hd3).eqv ?_⟩
  · unfold vertexDelete
    rw [Prog.run_bind_ok r1, Prog.run_bind_ok hb1, Prog.run_bind_ok r2, Prog.run_bind_ok hb2, Prog.run_bind_ok r3,
      Prog.run_bind_ok hb3]; rfl
  · constructor
    · intro i; simp [Sel.or, Sel.none, Sel.any, selVp, selEdges, selVertex]
    · intro f
      simp only [Sel.or, Sel.none, Sel.any, selVp, selEdges, selVertex, hp]
      simp
    · intro i n
      simp only [Sel.or, Sel.none, Sel.any, selVp, selEdges, selVertex, false_or, or_false]
      constructor
      · rintro ⟨⟨j, m, v⟩, h1, rfl, rfl⟩
        obtain ⟨rfl, h⟩ := (m1 _).1 h1
        exact ⟨rfl, by rw [h]; simp⟩
      · rintro ⟨rfl, h⟩
        obtain ⟨v, hv⟩ := Option.ne_none_iff_exists'.1 h
        exact ⟨(i, n, v), (m1 _).2 ⟨rfl, hv⟩, rfl, rfl⟩
    · intro f n
      simp only [Sel.or, Sel.none, Sel.any, selVp, selEdges, selVertex, hp]
      constructor
      · rintro ((⟨h⟩ | h) | h)
        · simp at h
        · exact ⟨Or.inl h.1, h.2⟩
        · exact ⟨Or.inr h.1, h.2⟩
      · rintro ⟨h | h, h'⟩
        · exact Or.inl (Or.inr ⟨h, h'⟩)
        · exact Or.inr ⟨h, h'⟩
    · intro n h i
      simp only [Sel.or, Sel.none, Sel.any, selVp, selEdges, selVertex, false_or, or_false]
      constructor
      · rintro ⟨⟨j, m, v⟩, h1, rfl, rfl, h2, h3⟩
        exact ⟨((m1 _).1 h1).1, h2, h3⟩
      · rintro ⟨rfl, h2, v, hv, hh⟩
        exact ⟨(i, n, v), (m1 _).2 ⟨rfl, hv⟩, rfl, rfl, h2, v, hv, hh⟩
    · intro n h f
      simp only [Sel.or, Sel.none, Sel.any, selVp, selEdges, selVertex, hp]
      constructor
      · rintro ((⟨h⟩ | h) | h)
        · simp at h
        · exact ⟨Or.inl h.1, h.2⟩
        · exact ⟨Or.inr h.1, h.2⟩
      · rintro ⟨h | h, h'⟩
        · exact Or.inl (Or.inr ⟨h, h'⟩)
        · exact Or.inr ⟨h, h'⟩

/-! ### The graph after a batch -/

theorem after_vertex {b : Batch} {i : Uuid} {p q : Prop} [Decidable q] (h : Acts b .vertices (vertexKey X i) none p)
    (h1 : p → q) (h2 : q → p ∨ (graph X s).vertex i = none) :
    (graph X { s with kv := s.kv.write b }).vertex i = if q then none else (graph X s).vertex i := by
  rcases h.get s.kv with ⟨h, hp⟩ | ⟨hp, h⟩
  · rw [if_pos (h1 hp)]; simp only [graph, h]; rfl
  · have : (graph X { s with kv := s.kv.write b }).vertex i = (graph X s).vertex i := by simp only [graph, h]
    rw [this]
    by_cases hq : q
    · rw [if_pos hq]; exact (h2 hq).resolve_left hp
    · rw [if_neg hq]

theorem after_edge {b : Batch} {e : Edge} {p q : Prop} [Decidable q] (h : Acts b .edgeRanges (edgeKey X e) none p)
    (h1 : p → q) (h2 : q → p ∨ (graph X s).edge e = false) :
    (graph X { s with kv := s.kv.write b }).edge e = if q then false else (graph X s).edge e := by
  rcases h.get s.kv with ⟨h, hp⟩ | ⟨hp, h⟩
  · rw [if_pos (h1 hp)]; simp only [graph, SMap.contains, h]; rfl
  · have : (graph X { s with kv := s.kv.write b }).edge e = (graph X s).edge e := by simp only [graph, SMap.contains, h]
    rw [this]
    by_cases hq : q
    · rw [if_pos hq]; exact (h2 hq).resolve_left hp
    · rw [if_neg hq]

theorem after_vprop {b : Batch} {i : Uuid} {n : Identifier} {p q : Prop} [Decidable q]
    (h : Acts b .vertexProperties (vpKey X i n) none p) (h1 : p → q) (h2 : q → p ∨ (graph X s).vprop i n = none) :
    (graph X { s with kv := s.kv.write b }).vprop i n = if q then none else (graph X s).vprop i n := by
  rcases h.get s.kv with ⟨h, hp⟩ | ⟨hp, h⟩
  · rw [if_pos (h1 hp)]; simp only [graph, h]; rfl
  · have : (graph X { s with kv := s.kv.write b }).vprop i n = (graph X s).vprop i n := by simp only [graph, h]
    rw [this]
    by_cases hq : q
    · rw [if_pos hq]; exact (h2 hq).resolve_left hp
    · rw [if_neg hq]

theorem after_eprop {b : Batch} {i : Edge} {n : Identifier} {p q : Prop} [Decidable q]
    (h : Acts b .edgeProperties (epKey X i n) none p) (h1 : p → q) (h2 : q → p ∨ (graph X s).eprop i n = none) :
    (graph X { s with kv := s.kv.write b }).eprop i n = if q then none else (graph X s).eprop i n := by
  rcases h.get s.kv with ⟨h, hp⟩ | ⟨hp, h⟩
  · rw [if_pos (h1 hp)]; simp only [graph, h]; rfl
  · have : (graph X { s with kv := s.kv.write b }).eprop i n = (graph X s).eprop i n := by simp only [graph, h]
    rw [this]
    by_cases hq : q
    · rw [if_pos hq]; exact (h2 hq).resolve_left hp
    · rw [if_neg hq]

theorem after_vEntry {b : Batch} {i : Uuid} {n : Identifier} {h : UInt64} {p : Prop} {x : Option Bytes}
    (ha : Acts b .vertexPropertyValues (vhKey n h i) x p) :
    (p ∧ vEntry { s with kv := s.kv.write b } n h i = x.isSome) ∨
    (¬ p ∧ vEntry { s with kv := s.kv.write b } n h i = vEntry s n h i) := by
  rcases ha.get s.kv with ⟨h, hp⟩ | ⟨hp, h⟩
  · left; exact ⟨hp, by simp only [vEntry, SMap.contains, h]⟩
  · right; exact ⟨hp, by simp only [vEntry, SMap.contains, h]⟩

theorem after_eEntry {b : Batch} {i : Edge} {n : Identifier} {h : UInt64} {p : Prop} {x : Option Bytes}
    (ha : Acts b .edgePropertyValues (ehKey X n h i) x p) :
    (p ∧ eEntry X { s with kv := s.kv.write b } n h i = x.isSome) ∨
    (¬ p ∧ eEntry X { s with kv := s.kv.write b } n h i = eEntry X s n h i) := by
  rcases ha.get s.kv with ⟨h, hp⟩ | ⟨hp, h⟩
  · left; exact ⟨hp, by simp only [eEntry, SMap.contains, h]⟩
  · right; exact ⟨hp, by simp only [eEntry, SMap.contains, h]⟩

/-- The locked programs. -/
theorem locked_run {f : SSet Identifier → Prog Batch} {b : Batch} (h : (f s.indexed).run s = (s, .ok b)) :
    (locked f).run s = ({ s with kv := s.kv.write b }, .ok ()) := by
  unfold locked
  rw [Prog.run_readLock, Prog.run_bind_ok h, Prog.run_writeBatch]

/-! ### Deleting -/

/-- The index lists exactly the properties of indexed names, by the hash of their value. -/
structure Idx (X : Cfg) (s : Rocks) : Prop where
  v : ∀ n h i, vEntry s n h i = true ↔ s.indexed.contains n = true ∧ HasHash X ((graph X s).vprop i n) h
  e : ∀ n h e, eEntry X s n h e = true ↔ s.indexed.contains n = true ∧ HasHash X ((graph X s).eprop e n) h

/-- Deletions that delete index entries along with properties keep the index exact. -/
theorem Idx.drops {b : Batch} {S : Sel} (hd : Drops X b S)
    (hv : ∀ n h i, s.indexed.contains n = true → HasHash X ((graph X s).vprop i n) h → (S.vi n h i ↔ S.vp i n))
    (he : ∀ n h i, s.indexed.contains n = true → HasHash X ((graph X s).eprop i n) h → (S.ei n h i ↔ S.ep i n))
    (hi : Idx X s) : Idx X { s with kv := s.kv.write b } := by
  constructor
  · intro n h i
    have h0 := hi.v n h i
    have hg := (hd.vp i n).get s.kv
    show _ ↔ s.indexed.contains n = true ∧ _
    rcases after_vEntry s (hd.vi n h i) with ⟨h1, h2⟩ | ⟨h1, h2⟩ <;> rcases hg with ⟨h3, h4⟩ | ⟨h4, h3⟩
    · rw [h2]; simp [HasHash, graph, h3]
    · rw [h2]
      have hq : (graph X { s with kv := s.kv.write b }).vprop i n = (graph X s).vprop i n := by simp only [graph, h3]
      rw [hq]
      simp only [Option.isSome_none, Bool.false_eq_true, false_iff]
      rintro ⟨h5, h6⟩
      exact h4 ((hv n h i h5 h6).1 h1)
    · rw [h2, h0]
      have hq : (graph X { s with kv := s.kv.write b }).vprop i n = none := by simp only [graph, h3]; rfl
      rw [hq]
      constructor
      · rintro ⟨h5, h6⟩; exact absurd ((hv n h i h5 h6).2 h4) h1
      · rintro ⟨_, w, hw, _⟩; cases hw
    · rw [h2, h0]
      have hq : (graph X { s with kv := s.kv.write b }).vprop i n = (graph X s).vprop i n := by simp only [graph, h3]
      rw [hq]
  · intro n h i
    have h0 := hi.e n h i
    have hg := (hd.ep i n).get s.kv
    show _ ↔ s.indexed.contains n = true ∧ _
    rcases after_eEntry s (hd.ei n h i) with ⟨h1, h2⟩ | ⟨h1, h2⟩ <;> rcases hg with ⟨h3, h4⟩ | ⟨h4, h3⟩
    · rw [h2]; simp [HasHash, graph, h3]
    · rw [h2]
      have hq : (graph X { s with kv := s.kv.write b }).eprop i n = (graph X s).eprop i n := by simp only [graph, h3]
      rw [hq]
      simp only [Option.isSome_none, Bool.false_eq_true, false_iff]
      rintro ⟨h5, h6⟩
      exact h4 ((he n h i h5 h6).1 h1)
    · rw [h2, h0]
      have hq : (graph X { s with kv := s.kv.write b }).eprop i n = none := by simp only [graph, h3]; rfl
      rw [hq]
      constructor
      · rintro ⟨h5, h6⟩; exact absurd ((he n h i h5 h6).2 h4) h1
      · rintro ⟨_, w, hw, _⟩; cases hw
    · rw [h2, h0]
      have hq : (graph X { s with kv := s.kv.write b }).eprop i n = (graph X s).eprop i n := by simp only [graph, h3]
      rw [hq]

theorem HasHash.ne {o : Option Json} {h : UInt64} (hh : HasHash X o h) : o ≠ none := by
  obtain ⟨w, rfl, _⟩ := hh; simp

/-- What a write method does: succeeds, changes the graph by `φ`, keeps the indexed names and metadata, and keeps the index
exact. -/
structure Writes (X : Cfg) (s : Rocks) (g' : Graph) (u : Rocks × Res Unit) : Prop where
  ok : u.2 = .ok ()
  indexed : u.1.indexed = s.indexed
  graph : graph X u.1 = g'
  md : ∀ k, (u.1.kv .metadata).get k = (s.kv .metadata).get k

theorem md_of {b : Batch} (h : ∀ k, b.at .metadata k = none) (k : Bytes) :
    ((s.kv.write b) .metadata).get k = (s.kv .metadata).get k := by
  rw [KV.write_get, h]; rfl

include hw hr in
theorem deleteVertices_run (vs : List Vertex) :
    Writes X s ((graph X s).rocksDropVertices (vs.map (·.id))) ((deleteVertices X vs).run s) ∧
    (Idx X s → Idx X ((deleteVertices X vs).run s).1) := by
  classical
  obtain ⟨b, hb, hd⟩ := forAll_run (X := X) (f := fun v : Vertex => vertexDelete X s.indexed v.id)
    (S := fun v => selVertex X s s.indexed v.id) (l := vs) (s := s) (fun v _ => vertexDelete_run s hw hr s.indexed v.id)
  have hrun : (deleteVertices X vs).run s = ({ s with kv := s.kv.write b }, .ok ()) := locked_run s hb
  rw [hrun]
  refine ⟨⟨rfl, rfl, ?_, md_of s hd.md⟩, ?_⟩
  · apply Graph.ext
    · funext i
      refine after_vertex s (hd.v i) ?_ ?_
      · rintro ⟨a, ha, h⟩; exact List.mem_map.2 ⟨a, ha, Eq.symm h⟩
      · intro h; obtain ⟨a, ha, h⟩ := List.mem_map.1 h; exact Or.inl ⟨a, ha, h.symm⟩
    · funext e
      refine after_edge s (hd.e e) ?_ ?_
      · rintro ⟨a, ha, h, _⟩; exact List.mem_map.2 ⟨a, ha, Eq.symm h⟩
      · intro h
        obtain ⟨a, ha, h⟩ := List.mem_map.1 h
        cases he : (graph X s).edge e with
        | false => exact Or.inr rfl
        | true => exact Or.inl ⟨a, ha, h.symm, Or.inl he⟩
    · funext i n
      refine after_vprop s (hd.vp i n) ?_ ?_
      · rintro ⟨a, ha, h, _⟩; exact List.mem_map.2 ⟨a, ha, Eq.symm h⟩
      · intro h
        obtain ⟨a, ha, h⟩ := List.mem_map.1 h
        by_cases he : (graph X s).vprop i n = none
        · exact Or.inr he
        · exact Or.inl ⟨a, ha, h.symm, he⟩
    · funext e n
      refine after_eprop s (hd.ep e n) ?_ ?_
      · rintro ⟨a, ha, ⟨h, h'⟩, _⟩; exact ⟨List.mem_map.2 ⟨a, ha, Eq.symm h⟩, h'⟩
      · rintro ⟨h, h'⟩
        obtain ⟨a, ha, h⟩ := List.mem_map.1 h
        by_cases he : (graph X s).eprop e n = none
        · exact Or.inr he
        · exact Or.inl ⟨a, ha, ⟨h.symm, h'⟩, he⟩
    · rfl
  · refine Idx.drops s hd ?_ ?_
    · intro n h i hn hh
      simp only [Sel.any, selVertex, hn, hh, true_and, and_true]
      simp [hh.ne]
    · intro n h i hn hh
      simp only [Sel.any, selVertex, selEdges, hn, hh, true_and, and_true]
      simp [hh.ne]

include hw hr in
theorem deleteEdges_run (es : List Edge) :
    Writes X s ((graph X s).rocksDropEdges es) ((deleteEdges X es).run s) ∧
    (Idx X s → Idx X ((deleteEdges X es).run s).1) := by
  classical
  let p : Edge → Edge → Prop := fun e f => f = e ∧ ((graph X s).vertex e.outboundId).isSome = true
  obtain ⟨b, hb, hd⟩ := forAll_run (X := X) (f := fun e : Edge => do
      match ← vertexGet X e.outboundId with
      | some _ => edgeDelete X s.indexed e
      | none => return [])
    (S := fun e => selEdges X s s.indexed (p e)) (l := es) (s := s) (by
      intro e _
      cases hv : (graph X s).vertex e.outboundId with
      | none =>
        refine ⟨[], ?_, Drops.nil.eqv ⟨fun _ => Iff.rfl, fun f => ?_, fun _ _ => Iff.rfl, fun f n => ?_,
          fun _ _ _ => Iff.rfl, fun n h f => ?_⟩⟩
        · rw [Prog.run_bind_ok (vertexGet_run e.outboundId s hw), hv]; rfl
        all_goals simp [Sel.none, selEdges, p, hv]
      | some t =>
        obtain ⟨b, hb, hd⟩ := edgeDelete_run s hw hr s.indexed e
        refine ⟨b, ?_, hd.eqv ⟨fun _ => Iff.rfl, fun f => ?_, fun _ _ => Iff.rfl, fun f n => ?_,
          fun _ _ _ => Iff.rfl, fun n h f => ?_⟩⟩
        · rw [Prog.run_bind_ok (vertexGet_run e.outboundId s hw), hv]; exact hb
        all_goals simp [Sel.none, selEdges, p, hv])
  have hrun : (deleteEdges X es).run s = ({ s with kv := s.kv.write b }, .ok ()) := locked_run s hb
  rw [hrun]
  have hmem : ∀ f, (∃ e, e ∈ es ∧ p e f) ↔ f ∈ es.filter (fun e => ((graph X s).vertex e.outboundId).isSome) := by
    intro f
    rw [List.mem_filter]
    constructor
    · rintro ⟨e, he, rfl, h⟩; exact ⟨he, h⟩
    · rintro ⟨h1, h2⟩; exact ⟨f, h1, rfl, h2⟩
  refine ⟨⟨rfl, rfl, ?_, md_of s hd.md⟩, ?_⟩
  · apply Graph.ext
    · funext i
      exact (after_vertex s (hd.v i) (q := False) (fun ⟨_, _, h⟩ => h) (fun h => h.elim)).trans (if_neg (fun h => h))
    · funext e
      exact after_edge s (hd.e e) (hmem e).1 (fun h => Or.inl ((hmem e).2 h))
    · funext i n
      exact (after_vprop s (hd.vp i n) (q := False) (fun ⟨_, _, h⟩ => h) (fun h => h.elim)).trans (if_neg (fun h => h))
    · funext e n
      refine after_eprop s (hd.ep e n) ?_ ?_
      · rintro ⟨a, ha, h, _⟩; exact (hmem e).1 ⟨a, ha, h⟩
      · intro h
        obtain ⟨a, ha, h⟩ := (hmem e).2 h
        by_cases he : (graph X s).eprop e n = none
        · exact Or.inr he
        · exact Or.inl ⟨a, ha, h, he⟩
    · rfl
  · refine Idx.drops s hd ?_ ?_
    · intro n h i hn hh
      simp [Sel.any, selEdges, Sel.none]
    · intro n h i hn hh
      simp only [Sel.any, selEdges, hn, hh, true_and, and_true]
      simp [hh.ne]

include hr in
theorem deleteVertexProperties_run (ps : List (Uuid × Identifier)) :
    Writes X s ((graph X s).dropVProps ps) ((deleteVertexProperties X ps).run s) ∧
    (Idx X s → Idx X ((deleteVertexProperties X ps).run s).1) := by
  classical
  obtain ⟨b, hb, hd⟩ := forAll_run (X := X) (f := fun p : Uuid × Identifier => vpDelete X s.indexed p.1 p.2)
    (S := fun p => selVp X s s.indexed p.1 p.2) (l := ps) (s := s) (fun p _ => vpDelete_run s hr s.indexed p.1 p.2)
  have hrun : (deleteVertexProperties X ps).run s = ({ s with kv := s.kv.write b }, .ok ()) := locked_run s hb
  rw [hrun]
  refine ⟨⟨rfl, rfl, ?_, md_of s hd.md⟩, ?_⟩
  · apply Graph.ext
    · funext i
      exact (after_vertex s (hd.v i) (q := False) (fun ⟨_, _, h⟩ => h) (fun h => h.elim)).trans (if_neg (fun h => h))
    · funext i
      exact (after_edge s (hd.e i) (q := False) (fun ⟨_, _, h⟩ => h) (fun h => h.elim)).trans (if_neg (fun h => h))
    · funext i n
      refine after_vprop s (hd.vp i n) ?_ ?_
      · rintro ⟨a, ha, h1, h2⟩; rw [h1, h2]; exact ha
      · intro h; exact Or.inl ⟨_, h, rfl, rfl⟩
    · funext i n
      exact (after_eprop s (hd.ep i n) (q := False) (fun ⟨_, _, h⟩ => h) (fun h => h.elim)).trans (if_neg (fun h => h))
    · rfl
  · refine Idx.drops s hd ?_ ?_
    · intro n h i hn hh
      simp only [Sel.any, selVp]
      constructor
      · rintro ⟨a, ha, h1, h2, _⟩; exact ⟨a, ha, h1, h2⟩
      · rintro ⟨a, ha, h1, h2⟩; exact ⟨a, ha, h1, h2, by rw [← h2]; exact hn, hh⟩
    · intro n h i hn hh
      simp [Sel.any, selVp, Sel.none]

include hr in
theorem deleteEdgeProperties_run (ps : List (Edge × Identifier)) :
    Writes X s ((graph X s).dropEProps ps) ((deleteEdgeProperties X ps).run s) ∧
    (Idx X s → Idx X ((deleteEdgeProperties X ps).run s).1) := by
  classical
  obtain ⟨b, hb, hd⟩ := forAll_run (X := X) (f := fun p : Edge × Identifier => epDelete X s.indexed p.1 p.2)
    (S := fun p => selEp X s s.indexed p.1 p.2) (l := ps) (s := s) (fun p _ => epDelete_run s hr s.indexed p.1 p.2)
  have hrun : (deleteEdgeProperties X ps).run s = ({ s with kv := s.kv.write b }, .ok ()) := locked_run s hb
  rw [hrun]
  refine ⟨⟨rfl, rfl, ?_, md_of s hd.md⟩, ?_⟩
  · apply Graph.ext
    · funext i
      exact (after_vertex s (hd.v i) (q := False) (fun ⟨_, _, h⟩ => h) (fun h => h.elim)).trans (if_neg (fun h => h))
    · funext i
      exact (after_edge s (hd.e i) (q := False) (fun ⟨_, _, h⟩ => h) (fun h => h.elim)).trans (if_neg (fun h => h))
    · funext i n
      exact (after_vprop s (hd.vp i n) (q := False) (fun ⟨_, _, h⟩ => h) (fun h => h.elim)).trans (if_neg (fun h => h))
    · funext i n
      refine after_eprop s (hd.ep i n) ?_ ?_
      · rintro ⟨a, ha, h1, h2⟩; rw [h1, h2]; exact ha
      · intro h; exact Or.inl ⟨_, h, rfl, rfl⟩
    · rfl
  · refine Idx.drops s hd ?_ ?_
    · intro n h i hn hh
      simp [Sel.any, selEp, Sel.none]
    · intro n h i hn hh
      simp only [Sel.any, selEp]
      constructor
      · rintro ⟨a, ha, h1, h2, _⟩; exact ⟨a, ha, h1, h2⟩
      · rintro ⟨a, ha, h1, h2⟩; exact ⟨a, ha, h1, h2, by rw [← h2]; exact hn, hh⟩

end
end Rocks
end IndraDB
