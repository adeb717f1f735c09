import Verif.Proofs.RocksWrites
/-
The exact effect of creating and setting.
-/
set_option linter.unusedSimpArgs false
set_option linter.unusedVariables false
namespace IndraDB

theorem Acts.override {a b : Batch} {cf : CF} {k : Bytes} {x y : Option Bytes} {p q : Prop} (ha : Acts a cf k x p)
    (hb : Acts b cf k y q) (h : p → q) : Acts (a ++ b) cf k y q := by
  constructor
  · intro hq; rw [Batch.at_append, hb.1 hq]; rfl
  · intro hq; rw [Batch.at_append, hb.2 hq, ha.2 (fun hp => hq (h hp))]; rfl

theorem Acts.thenNone {a b : Batch} {cf : CF} {k : Bytes} {x : Option Bytes} {p : Prop} (ha : Acts a cf k x p)
    (hb : b.at cf k = none) : Acts (a ++ b) cf k x p := by
  constructor
  · intro hp; rw [Batch.at_append, hb, ha.1 hp]; rfl
  · intro hp; rw [Batch.at_append, hb, ha.2 hp]; rfl

theorem Acts.ofNone {b : Batch} {cf : CF} {k : Bytes} {x : Option Bytes} {p : Prop} (h : b.at cf k = none) (hp : ¬ p) :
    Acts b cf k x p := ⟨fun h' => absurd h' hp, fun _ => h⟩

namespace Rocks
variable {X : Cfg}

/-! ### Setting properties -/

/-- The batch sets the vertex properties selected by `p` to `v`, and updates the index entries; `old` are the values it
replaces. -/
structure SetsV (X : Cfg) (ix : SSet Identifier) (old : Uuid → Identifier → Option Json) (b : Batch)
    (p : Uuid → Identifier → Prop) (v : Json) : Prop where
  vs : ∀ k, b.at .vertices k = none
  e : ∀ k, b.at .edgeRanges k = none
  ep : ∀ k, b.at .edgeProperties k = none
  ei : ∀ k, b.at .edgePropertyValues k = none
  md : ∀ k, b.at .metadata k = none
  vp : ∀ i m, Acts b .vertexProperties (vpKey X i m) (some (X.codec.enc v)) (p i m)
  new : ∀ m i, Acts b .vertexPropertyValues (vhKey m (X.H v.stream) i) (some []) (p i m ∧ ix.contains m = true)
  gone : ∀ m h i, X.H v.stream ≠ h →
    Acts b .vertexPropertyValues (vhKey m h i) none (p i m ∧ ix.contains m = true ∧ HasHash X (old i m) h)

/-- The same for edges. -/
structure SetsE (X : Cfg) (ix : SSet Identifier) (old : Edge → Identifier → Option Json) (b : Batch)
    (p : Edge → Identifier → Prop) (v : Json) : Prop where
  vs : ∀ k, b.at .vertices k = none
  e : ∀ k, b.at .edgeRanges k = none
  vp : ∀ k, b.at .vertexProperties k = none
  vi : ∀ k, b.at .vertexPropertyValues k = none
  md : ∀ k, b.at .metadata k = none
  ep : ∀ i m, Acts b .edgeProperties (epKey X i m) (some (X.codec.enc v)) (p i m)
  new : ∀ m i, Acts b .edgePropertyValues (ehKey X m (X.H v.stream) i) (some []) (p i m ∧ ix.contains m = true)
  gone : ∀ m h i, X.H v.stream ≠ h →
    Acts b .edgePropertyValues (ehKey X m h i) none (p i m ∧ ix.contains m = true ∧ HasHash X (old i m) h)

theorem SetsV.flatMap {α : Type} {ix : SSet Identifier} {old : Uuid → Identifier → Option Json} {f : α → Batch}
    {p : α → Uuid → Identifier → Prop} {v : Json} {l : List α} (h : ∀ a ∈ l, SetsV X ix old (f a) (p a) v) :
    SetsV X ix old (l.flatMap f) (fun i m => ∃ a ∈ l, p a i m) v where
  vs k := Batch.at_flatMap_none (fun a ha => (h a ha).vs k)
  e k := Batch.at_flatMap_none (fun a ha => (h a ha).e k)
  ep k := Batch.at_flatMap_none (fun a ha => (h a ha).ep k)
  ei k := Batch.at_flatMap_none (fun a ha => (h a ha).ei k)
  md k := Batch.at_flatMap_none (fun a ha => (h a ha).md k)
  vp i m := Acts.flatMap (fun a ha => (h a ha).vp i m)
  new m i := (Acts.flatMap (fun a ha => (h a ha).new m i)).iff
    ⟨fun ⟨a, ha, h1, h2⟩ => ⟨⟨a, ha, h1⟩, h2⟩, fun ⟨⟨a, ha, h1⟩, h2⟩ => ⟨a, ha, h1, h2⟩⟩
  gone m x i hx := (Acts.flatMap (fun a ha => (h a ha).gone m x i hx)).iff
    ⟨fun ⟨a, ha, h1, h2⟩ => ⟨⟨a, ha, h1⟩, h2⟩, fun ⟨⟨a, ha, h1⟩, h2⟩ => ⟨a, ha, h1, h2⟩⟩

theorem SetsE.flatMap {α : Type} {ix : SSet Identifier} {old : Edge → Identifier → Option Json} {f : α → Batch}
    {p : α → Edge → Identifier → Prop} {v : Json} {l : List α} (h : ∀ a ∈ l, SetsE X ix old (f a) (p a) v) :
    SetsE X ix old (l.flatMap f) (fun i m => ∃ a ∈ l, p a i m) v where
  vs k := Batch.at_flatMap_none (fun a ha => (h a ha).vs k)
  e k := Batch.at_flatMap_none (fun a ha => (h a ha).e k)
  vp k := Batch.at_flatMap_none (fun a ha => (h a ha).vp k)
  vi k := Batch.at_flatMap_none (fun a ha => (h a ha).vi k)
  md k := Batch.at_flatMap_none (fun a ha => (h a ha).md k)
  ep i m := Acts.flatMap (fun a ha => (h a ha).ep i m)
  new m i := (Acts.flatMap (fun a ha => (h a ha).new m i)).iff
    ⟨fun ⟨a, ha, h1, h2⟩ => ⟨⟨a, ha, h1⟩, h2⟩, fun ⟨⟨a, ha, h1⟩, h2⟩ => ⟨a, ha, h1, h2⟩⟩
  gone m x i hx := (Acts.flatMap (fun a ha => (h a ha).gone m x i hx)).iff
    ⟨fun ⟨a, ha, h1, h2⟩ => ⟨⟨a, ha, h1⟩, h2⟩, fun ⟨⟨a, ha, h1⟩, h2⟩ => ⟨a, ha, h1, h2⟩⟩

section
variable (s : Rocks) (hw : Wf X s.kv) (hr : Readable X s.kv)

theorem at_none_of_key {b : Batch} {cf : CF} (h : ∀ op ∈ b, ∀ k, op.at cf k = none) (k : Bytes) : b.at cf k = none := by
  induction b with
  | nil => rfl
  | cons op r ih =>
    rw [Batch.at_cons, ih (fun o ho => h o (by simp [ho])), h op (by simp)]; rfl

/-- The families touched by deleting one vertex property. -/
theorem vpDelete_only {ix : SSet Identifier} {id : Uuid} {n : Identifier} {b : Batch} {t : Rocks}
    (h : (vpDelete X ix id n).run s = (t, .ok b)) (cf : CF) (h1 : cf ≠ .vertexProperties) (h2 : cf ≠ .vertexPropertyValues) :
    ∀ k, b.at cf k = none := by
  have : (vpDelete X ix id n).All (fun _ => True) (fun b => ∀ op ∈ b, ∀ k, op.at cf k = none) := by
    have hd : ∀ op ∈ [WriteOp.delete .vertexProperties (vpKey X id n)], ∀ k, op.at cf k = none := by
      simp only [List.mem_singleton, forall_eq]; intro k; simp [WriteOp.at, h1.symm]
    unfold vpDelete
    refine Prog.All.bind (Q := fun b => ∀ op ∈ b, ∀ k, op.at cf k = none) ?_ (fun b hb => ?_)
    · split
      · refine (quiet_vpGet _ _).then ?_
        intro r
        cases r with
        | none => exact fun op h => by simp at h
        | some v => show ∀ op ∈ [_], _; simp only [List.mem_singleton, forall_eq]; intro k; simp [WriteOp.at, h2.symm]
      · exact fun op h => by simp at h
    · intro op ho
      rcases List.mem_append.1 ho with ho | ho
      · exact hb op ho
      · exact hd op ho
  have := (this.run (Inv := fun _ => True) (fun _ _ _ _ => trivial) s trivial).2 b (by rw [h])
  exact at_none_of_key this

theorem epDelete_only {ix : SSet Identifier} {id : Edge} {n : Identifier} {b : Batch} {t : Rocks}
    (h : (epDelete X ix id n).run s = (t, .ok b)) (cf : CF) (h1 : cf ≠ .edgeProperties) (h2 : cf ≠ .edgePropertyValues) :
    ∀ k, b.at cf k = none := by
  have : (epDelete X ix id n).All (fun _ => True) (fun b => ∀ op ∈ b, ∀ k, op.at cf k = none) := by
    have hd : ∀ op ∈ [WriteOp.delete .edgeProperties (epKey X id n)], ∀ k, op.at cf k = none := by
      simp only [List.mem_singleton, forall_eq]; intro k; simp [WriteOp.at, h1.symm]
    unfold epDelete
    refine Prog.All.bind (Q := fun b => ∀ op ∈ b, ∀ k, op.at cf k = none) ?_ (fun b hb => ?_)
    · split
      · refine (quiet_epGet _ _).then ?_
        intro r
        cases r with
        | none => exact fun op h => by simp at h
        | some v => show ∀ op ∈ [_], _; simp only [List.mem_singleton, forall_eq]; intro k; simp [WriteOp.at, h2.symm]
      · exact fun op h => by simp at h
    · intro op ho
      rcases List.mem_append.1 ho with ho | ho
      · exact hb op ho
      · exact hd op ho
  have := (this.run (Inv := fun _ => True) (fun _ _ _ _ => trivial) s trivial).2 b (by rw [h])
  exact at_none_of_key this

include hr in
theorem vpSet_run (ix : SSet Identifier) (id : Uuid) (n : Identifier) (v : Json) :
    ∃ b, (vpSet X ix id n v).run s = (s, .ok b) ∧
      SetsV X ix (graph X s).vprop b (fun i m => i = id ∧ m = n) v := by
  have hput : ∀ i m, Acts [WriteOp.put .vertexProperties (vpKey X id n) (X.codec.enc v)] .vertexProperties (vpKey X i m)
      (some (X.codec.enc v)) (i = id ∧ m = n) := fun i m =>
    acts_single (fun h => by simp [WriteOp.at, vpKey_inj, h.1, h.2])
      (fun h => by simp only [WriteOp.at, vpKey_inj, true_and]; rw [if_neg (fun ⟨a, b⟩ => h ⟨a.symm, b.symm⟩)])
  have hput' : ∀ cf k, cf ≠ .vertexProperties →
      Batch.at [WriteOp.put .vertexProperties (vpKey X id n) (X.codec.enc v)] cf k = none := by
    intro cf k h; simp [Batch.at_singleton, WriteOp.at, h.symm]
  by_cases hn : ix.contains n = true
  · obtain ⟨b0, h0, hd⟩ := vpDelete_run s hr ix id n
    have hidx : ∀ m h i, Acts (vpvSet X id n v) .vertexPropertyValues (vhKey m h i) (some [])
        (i = id ∧ m = n ∧ X.H v.stream = h) := fun m h i =>
      acts_single (fun ⟨a, b, c⟩ => by simp [WriteOp.at, vpvKey_eq, vhKey_inj, a, b, c])
        (fun h => by simp only [WriteOp.at, vpvKey_eq, vhKey_inj, true_and]; rw [if_neg (fun ⟨a, b, c⟩ => h ⟨c.symm, a.symm, b⟩)])
    have hidx' : ∀ cf k, cf ≠ .vertexPropertyValues → Batch.at (vpvSet X id n v) cf k = none := by
      intro cf k h; simp [vpvSet, Batch.at_singleton, WriteOp.at, h.symm]
    refine ⟨b0 ++ [.put .vertexProperties (vpKey X id n) (X.codec.enc v)] ++ vpvSet X id n v, ?_, ?_⟩
    · unfold vpSet
      rw [if_pos hn, Prog.run_bind_ok h0]
      simp only [hn, if_true]; rfl
    · have out : ∀ cf k, cf ≠ .vertexProperties → cf ≠ .vertexPropertyValues →
          Batch.at (b0 ++ [.put .vertexProperties (vpKey X id n) (X.codec.enc v)] ++ vpvSet X id n v) cf k = none := by
        intro cf k h1 h2
        rw [Batch.at_append, Batch.at_append, hidx' _ _ h2, hput' _ _ h1, vpDelete_only s h0 cf h1 h2]; rfl
      refine ⟨fun k => out _ _ (by simp) (by simp), fun k => out _ _ (by simp) (by simp),
        fun k => out _ _ (by simp) (by simp), fun k => out _ _ (by simp) (by simp),
        fun k => out _ _ (by simp) (by simp), fun i m => ?_, fun m i => ?_, fun m h i hx => ?_⟩
      · refine ((hd.vp i m).override (hput i m) (fun h => h)).thenNone (hidx' _ _ (by simp))
      · refine (((hd.vi m _ i).thenNone (hput' _ _ (by simp))).override (hidx m _ i) ?_).iff ?_
        · rintro ⟨h1, h2, _⟩; exact ⟨h1, h2, rfl⟩
        · constructor
          · rintro ⟨h1, h2, _⟩; exact ⟨⟨h1, h2⟩, by rw [h2]; exact hn⟩
          · rintro ⟨⟨h1, h2⟩, _⟩; exact ⟨h1, h2, rfl⟩
      · refine (((hd.vi m h i).thenNone (hput' _ _ (by simp))).thenNone ?_).iff ?_
        · exact (hidx m h i).2 (fun ⟨_, _, h'⟩ => hx h')
        · constructor
          · rintro ⟨h1, h2, h3, h4⟩; exact ⟨⟨h1, h2⟩, by rw [h2]; exact h3, h4⟩
          · rintro ⟨⟨h1, h2⟩, h3, h4⟩; exact ⟨h1, h2, hn, h4⟩
  · refine ⟨[] ++ [.put .vertexProperties (vpKey X id n) (X.codec.enc v)], ?_, ?_⟩
    · unfold vpSet
      rw [if_neg hn, Prog.run_bind_ok (Prog.run_pure _ _)]
      simp only [hn, if_false]; rfl
    · refine ⟨fun k => hput' _ _ (by simp), fun k => hput' _ _ (by simp), fun k => hput' _ _ (by simp),
        fun k => hput' _ _ (by simp), fun k => hput' _ _ (by simp), fun i m => hput i m, fun m i => ?_, fun m h i hx => ?_⟩
      · exact .ofNone (hput' _ _ (by simp)) (fun ⟨⟨_, h⟩, h'⟩ => hn (by rw [← h]; exact h'))
      · exact .ofNone (hput' _ _ (by simp)) (fun ⟨⟨_, h⟩, h', _⟩ => hn (by rw [← h]; exact h'))

include hr in
theorem epSet_run (ix : SSet Identifier) (id : Edge) (n : Identifier) (v : Json) :
    ∃ b, (epSet X ix id n v).run s = (s, .ok b) ∧
      SetsE X ix (graph X s).eprop b (fun i m => i = id ∧ m = n) v := by
  have hput : ∀ i m, Acts [WriteOp.put .edgeProperties (epKey X id n) (X.codec.enc v)] .edgeProperties (epKey X i m)
      (some (X.codec.enc v)) (i = id ∧ m = n) := fun i m =>
    acts_single (fun h => by simp [WriteOp.at, epKey_inj, h.1, h.2])
      (fun h => by simp only [WriteOp.at, epKey_inj, true_and]; rw [if_neg (fun ⟨a, b⟩ => h ⟨a.symm, b.symm⟩)])
  have hput' : ∀ cf k, cf ≠ .edgeProperties →
      Batch.at [WriteOp.put .edgeProperties (epKey X id n) (X.codec.enc v)] cf k = none := by
    intro cf k h; simp [Batch.at_singleton, WriteOp.at, h.symm]
  by_cases hn : ix.contains n = true
  · obtain ⟨b0, h0, hd⟩ := epDelete_run s hr ix id n
    have hidx : ∀ m h i, Acts (epvSet X id n v) .edgePropertyValues (ehKey X m h i) (some [])
        (i = id ∧ m = n ∧ X.H v.stream = h) := fun m h i =>
      acts_single (fun ⟨a, b, c⟩ => by simp [WriteOp.at, epvKey_eq, ehKey_inj, a, b, c])
        (fun h => by simp only [WriteOp.at, epvKey_eq, ehKey_inj, true_and]; rw [if_neg (fun ⟨a, b, c⟩ => h ⟨c.symm, a.symm, b⟩)])
    have hidx' : ∀ cf k, cf ≠ .edgePropertyValues → Batch.at (epvSet X id n v) cf k = none := by
      intro cf k h; simp [epvSet, Batch.at_singleton, WriteOp.at, h.symm]
    refine ⟨b0 ++ [.put .edgeProperties (epKey X id n) (X.codec.enc v)] ++ epvSet X id n v, ?_, ?_⟩
    · unfold epSet
      rw [if_pos hn, Prog.run_bind_ok h0]
      simp only [hn, if_true]; rfl
    · have out : ∀ cf k, cf ≠ .edgeProperties → cf ≠ .edgePropertyValues →
          Batch.at (b0 ++ [.put .edgeProperties (epKey X id n) (X.codec.enc v)] ++ epvSet X id n v) cf k = none := by
        intro cf k h1 h2
        rw [Batch.at_append, Batch.at_append, hidx' _ _ h2, hput' _ _ h1, epDelete_only s h0 cf h1 h2]; rfl
      refine ⟨fun k => out _ _ (by simp) (by simp), fun k => out _ _ (by simp) (by simp),
        fun k => out _ _ (by simp) (by simp), fun k => out _ _ (by simp) (by simp),
        fun k => out _ _ (by simp) (by simp), fun i m => ?_, fun m i => ?_, fun m h i hx => ?_⟩
      · refine ((hd.ep i m).override (hput i m) (fun h => h)).thenNone (hidx' _ _ (by simp))
      · refine (((hd.ei m _ i).thenNone (hput' _ _ (by simp))).override (hidx m _ i) ?_).iff ?_
        · rintro ⟨h1, h2, _⟩; exact ⟨h1, h2, rfl⟩
        · constructor
          · rintro ⟨h1, h2, _⟩; exact ⟨⟨h1, h2⟩, by rw [h2]; exact hn⟩
          · rintro ⟨⟨h1, h2⟩, _⟩; exact ⟨h1, h2, rfl⟩
      · refine (((hd.ei m h i).thenNone (hput' _ _ (by simp))).thenNone ?_).iff ?_
        · exact (hidx m h i).2 (fun ⟨_, _, h'⟩ => hx h')
        · constructor
          · rintro ⟨h1, h2, h3, h4⟩; exact ⟨⟨h1, h2⟩, by rw [h2]; exact h3, h4⟩
          · rintro ⟨⟨h1, h2⟩, h3, h4⟩; exact ⟨h1, h2, hn, h4⟩
  · refine ⟨[] ++ [.put .edgeProperties (epKey X id n) (X.codec.enc v)], ?_, ?_⟩
    · unfold epSet
      rw [if_neg hn, Prog.run_bind_ok (Prog.run_pure _ _)]
      simp only [hn, if_false]; rfl
    · refine ⟨fun k => hput' _ _ (by simp), fun k => hput' _ _ (by simp), fun k => hput' _ _ (by simp),
        fun k => hput' _ _ (by simp), fun k => hput' _ _ (by simp), fun i m => hput i m, fun m i => ?_, fun m h i hx => ?_⟩
      · exact .ofNone (hput' _ _ (by simp)) (fun ⟨⟨_, h⟩, h'⟩ => hn (by rw [← h]; exact h'))
      · exact .ofNone (hput' _ _ (by simp)) (fun ⟨⟨_, h⟩, h', _⟩ => hn (by rw [← h]; exact h'))

/-! ### Effects -/

theorem after_at_none {b : Batch} {cf : CF} (h : ∀ k, b.at cf k = none) : (s.kv.write b) cf = s.kv cf := by
  apply SMap.ext_get
  intro k
  rw [KV.write_get, h]; rfl

theorem stored_of_read {v : Json} (h : CanRead X v) : X.codec.dec (X.codec.enc v) = some (X.stored v) := by
  obtain ⟨w, hw⟩ := h
  simp [Cfg.stored, hw]

theorem SetsV.graph {ix : SSet Identifier} {old : Uuid → Identifier → Option Json} {b : Batch}
    {p : Uuid → Identifier → Prop} [∀ i m, Decidable (p i m)] {v : Json} (h : SetsV X ix old b p v) (hv : CanRead X v) :
    Rocks.graph X { s with kv := s.kv.write b } = { Rocks.graph X s with
      vprop := fun i m => if p i m then some (X.stored v) else (Rocks.graph X s).vprop i m } := by
  apply Graph.ext
  · funext i; simp only [Rocks.graph, after_at_none s h.vs]
  · funext i; simp only [Rocks.graph, after_at_none s h.e]
  · funext i m
    show (Rocks.graph X _).vprop i m = _
    rcases (h.vp i m).get s.kv with ⟨h1, h2⟩ | ⟨h2, h1⟩
    · show _ = if p i m then _ else _
      rw [if_pos h2]; simp only [Rocks.graph, h1, Option.bind_some, stored_of_read hv]
    · show _ = if p i m then _ else _
      rw [if_neg h2]; simp only [Rocks.graph, h1]
  · funext i m; simp only [Rocks.graph, after_at_none s h.ep]
  · rfl

theorem SetsE.graph {ix : SSet Identifier} {old : Edge → Identifier → Option Json} {b : Batch}
    {p : Edge → Identifier → Prop} [∀ i m, Decidable (p i m)] {v : Json} (h : SetsE X ix old b p v) (hv : CanRead X v) :
    Rocks.graph X { s with kv := s.kv.write b } = { Rocks.graph X s with
      eprop := fun i m => if p i m then some (X.stored v) else (Rocks.graph X s).eprop i m } := by
  apply Graph.ext
  · funext i; simp only [Rocks.graph, after_at_none s h.vs]
  · funext i; simp only [Rocks.graph, after_at_none s h.e]
  · funext i m; simp only [Rocks.graph, after_at_none s h.vp]
  · funext i m
    show (Rocks.graph X _).eprop i m = _
    rcases (h.ep i m).get s.kv with ⟨h1, h2⟩ | ⟨h2, h1⟩
    · show _ = if p i m then _ else _
      rw [if_pos h2]; simp only [Rocks.graph, h1, Option.bind_some, stored_of_read hv]
    · show _ = if p i m then _ else _
      rw [if_neg h2]; simp only [Rocks.graph, h1]
  · rfl

theorem SetsV.idx {old : Uuid → Identifier → Option Json} {b : Batch} {p : Uuid → Identifier → Prop}
    {v : Json} (h : SetsV X s.indexed old b p v) (hv : CanRead X v) (hs : SameHash X v)
    (ho : ∀ i m, p i m → old i m = (Rocks.graph X s).vprop i m) (hi : Idx X s) :
    Idx X { s with kv := s.kv.write b } := by
  classical
  have hg := h.graph s hv
  constructor
  · intro n x i
    rw [hg]
    show _ ↔ s.indexed.contains n = true ∧ HasHash X (if p i n then _ else _) x
    by_cases hx : X.H v.stream = x
    · subst hx
      rcases after_vEntry s (h.new n i) with ⟨h1, h2⟩ | ⟨h1, h2⟩
      · rw [h2, if_pos h1.1]
        simp only [Option.isSome_some, true_iff]
        exact ⟨h1.2, _, rfl, hs⟩
      · rw [h2]
        by_cases hp : p i n
        · rw [if_pos hp]
          have hn : ¬ s.indexed.contains n = true := fun h => h1 ⟨hp, h⟩
          rw [hi.v]
          exact ⟨fun h => absurd h.1 hn, fun h => absurd h.1 hn⟩
        · rw [if_neg hp]; exact hi.v _ _ _
    · rcases after_vEntry s (h.gone n x i hx) with ⟨h1, h2⟩ | ⟨h1, h2⟩
      · rw [h2, if_pos h1.1]
        simp only [Option.isSome_none, Bool.false_eq_true, false_iff]
        rintro ⟨_, w, hw, hh⟩
        cases hw
        exact hx (hs.symm.trans hh)
      · rw [h2, hi.v]
        by_cases hp : p i n
        · rw [if_pos hp]
          constructor
          · rintro ⟨h3, h4⟩
            exact absurd ⟨hp, h3, by rw [ho _ _ hp]; exact h4⟩ h1
          · rintro ⟨_, w, hw, hh⟩
            cases hw
            exact absurd (hs.symm.trans hh) hx
        · rw [if_neg hp]
  · intro n x e
    rw [hg]
    show eEntry X _ n x e = true ↔ s.indexed.contains n = true ∧ _
    rw [show eEntry X { s with kv := s.kv.write b } n x e = eEntry X s n x e by
      simp only [eEntry, after_at_none s h.ei]]
    exact hi.e _ _ _

theorem SetsE.idx {old : Edge → Identifier → Option Json} {b : Batch} {p : Edge → Identifier → Prop}
    {v : Json} (h : SetsE X s.indexed old b p v) (hv : CanRead X v) (hs : SameHash X v)
    (ho : ∀ i m, p i m → old i m = (Rocks.graph X s).eprop i m) (hi : Idx X s) :
    Idx X { s with kv := s.kv.write b } := by
  classical
  have hg := h.graph s hv
  constructor
  · intro n x e
    rw [hg]
    show vEntry _ n x e = true ↔ s.indexed.contains n = true ∧ _
    rw [show vEntry { s with kv := s.kv.write b } n x e = vEntry s n x e by
      simp only [vEntry, after_at_none s h.vi]]
    exact hi.v _ _ _
  · intro n x i
    rw [hg]
    show _ ↔ s.indexed.contains n = true ∧ HasHash X (if p i n then _ else _) x
    by_cases hx : X.H v.stream = x
    · subst hx
      rcases after_eEntry s (h.new n i) with ⟨h1, h2⟩ | ⟨h1, h2⟩
      · rw [h2, if_pos h1.1]
        simp only [Option.isSome_some, true_iff]
        exact ⟨h1.2, _, rfl, hs⟩
      · rw [h2]
        by_cases hp : p i n
        · rw [if_pos hp]
          have hn : ¬ s.indexed.contains n = true := fun h => h1 ⟨hp, h⟩
          rw [hi.e]
          exact ⟨fun h => absurd h.1 hn, fun h => absurd h.1 hn⟩
        · rw [if_neg hp]; exact hi.e _ _ _
    · rcases after_eEntry s (h.gone n x i hx) with ⟨h1, h2⟩ | ⟨h1, h2⟩
      · rw [h2, if_pos h1.1]
        simp only [Option.isSome_none, Bool.false_eq_true, false_iff]
        rintro ⟨_, w, hw, hh⟩
        cases hw
        exact hx (hs.symm.trans hh)
      · rw [h2, hi.e]
        by_cases hp : p i n
        · rw [if_pos hp]
          constructor
          · rintro ⟨h3, h4⟩
            exact absurd ⟨hp, h3, by rw [ho _ _ hp]; exact h4⟩ h1
          · rintro ⟨_, w, hw, hh⟩
            cases hw
            exact absurd (hs.symm.trans hh) hx
        · rw [if_neg hp]

/-- Run a loop whose rounds are known. -/
theorem forAll_choose {α : Type} {f : α → Prog Batch} {Q : α → Batch → Prop} {l : List α} {s : Rocks}
    (h : ∀ a ∈ l, ∃ b, (f a).run s = (s, .ok b) ∧ Q a b) :
    ∃ g : α → Batch, (Prog.forAll f l).run s = (s, .ok (l.flatMap g)) ∧ ∀ a ∈ l, Q a (g a) := by
  classical
  let g : α → Batch := fun a => if ha : a ∈ l then (h a ha).choose else []
  have hg : ∀ a (ha : a ∈ l), (f a).run s = (s, .ok (g a)) ∧ Q a (g a) := by
    intro a ha
    have := (h a ha).choose_spec
    simp only [g, dif_pos ha]; exact this
  exact ⟨g, Prog.run_forAll (fun a ha => (hg a ha).1), fun a ha => (hg a ha).2⟩

include hr in
theorem setVertexProperties_run (ids : List Uuid) (n : Identifier) (v : Json) (hv : CanRead X v) :
    Writes X s ((graph X s).putVProps ids n (X.stored v)) ((setVertexProperties X ids n v).run s) ∧
    (SameHash X v → Idx X s → Idx X ((setVertexProperties X ids n v).run s).1) := by
  obtain ⟨g, hb, hg⟩ := forAll_choose (f := fun id : Uuid => vpSet X s.indexed id n v)
    (Q := fun id b => SetsV X s.indexed (graph X s).vprop b (fun i m => i = id ∧ m = n) v) (l := ids) (s := s)
    (fun id _ => vpSet_run s hr s.indexed id n v)
  have hrun : (setVertexProperties X ids n v).run s = ({ s with kv := s.kv.write (ids.flatMap g) }, .ok ()) := locked_run s hb
  have hset := SetsV.flatMap hg
  rw [hrun]
  refine ⟨⟨rfl, rfl, ?_, md_of s hset.md⟩, fun hs hi => hset.idx s hv hs (fun _ _ _ => rfl) hi⟩
  rw [hset.graph s hv]
  simp only [Graph.putVProps]
  congr 1
  funext i m
  have : (∃ a, a ∈ ids ∧ i = a ∧ m = n) ↔ (i ∈ ids ∧ m = n) :=
    ⟨fun ⟨a, ha, h1, h2⟩ => ⟨by rw [h1]; exact ha, h2⟩, fun ⟨h1, h2⟩ => ⟨i, h1, rfl, h2⟩⟩
  simp only [this]

include hr in
theorem setEdgeProperties_run (es : List Edge) (n : Identifier) (v : Json) (hv : CanRead X v) :
    Writes X s ((graph X s).putEProps es n (X.stored v)) ((setEdgeProperties X es n v).run s) ∧
    (SameHash X v → Idx X s → Idx X ((setEdgeProperties X es n v).run s).1) := by
  obtain ⟨g, hb, hg⟩ := forAll_choose (f := fun id : Edge => epSet X s.indexed id n v)
    (Q := fun id b => SetsE X s.indexed (graph X s).eprop b (fun i m => i = id ∧ m = n) v) (l := es) (s := s)
    (fun id _ => epSet_run s hr s.indexed id n v)
  have hrun : (setEdgeProperties X es n v).run s = ({ s with kv := s.kv.write (es.flatMap g) }, .ok ()) := locked_run s hb
  have hset := SetsE.flatMap hg
  rw [hrun]
  refine ⟨⟨rfl, rfl, ?_, md_of s hset.md⟩, fun hs hi => hset.idx s hv hs (fun _ _ _ => rfl) hi⟩
  rw [hset.graph s hv]
  simp only [Graph.putEProps]
  congr 1
  funext i m
  have : (∃ a, a ∈ es ∧ i = a ∧ m = n) ↔ (i ∈ es ∧ m = n) :=
    ⟨fun ⟨a, ha, h1, h2⟩ => ⟨by rw [h1]; exact ha, h2⟩, fun ⟨h1, h2⟩ => ⟨i, h1, rfl, h2⟩⟩
  simp only [this]

/-! ### Creating -/

/-- The batch adds edge `e` and touches no other table. -/
structure PutsEdge (X : Cfg) (b : Batch) (e : Edge) : Prop where
  other : ∀ cf k, cf ≠ .edgeRanges → cf ≠ .reversedEdgeRanges → b.at cf k = none
  e : ∀ f, Acts b .edgeRanges (edgeKey X f) (some []) (f = e)

theorem edgeSet_run (e : Edge) : ∃ b, (edgeSet X e).run s = (s, .ok b) ∧ PutsEdge X b e := by
  have hput : ∀ f, Acts (edgeRangeSet X .edgeRanges e ++ edgeRangeSet X .reversedEdgeRanges e.reversed) .edgeRanges
      (edgeKey X f) (some []) (f = e) := by
    intro f
    have : Acts (edgeRangeSet X .edgeRanges e) .edgeRanges (edgeKey X f) (some []) (f = e) :=
      acts_single (fun h => by simp [WriteOp.at, h]) (fun h => by
        simp only [WriteOp.at, edgeKey_inj, true_and]; rw [if_neg (fun h' => h h'.symm)])
    exact this.thenNone (by simp [edgeRangeSet, Batch.at_singleton, WriteOp.at])
  have hdel : ∀ f, Acts (edgeRangeDelete X .edgeRanges e ++ edgeRangeDelete X .reversedEdgeRanges e.reversed) .edgeRanges
      (edgeKey X f) none (f = e) := by
    intro f
    have : Acts (edgeRangeDelete X .edgeRanges e) .edgeRanges (edgeKey X f) none (f = e) :=
      acts_single (fun h => by simp [WriteOp.at, h]) (fun h => by
        simp only [WriteOp.at, edgeKey_inj, true_and]; rw [if_neg (fun h' => h h'.symm)])
    exact this.thenNone (by simp [edgeRangeDelete, Batch.at_singleton, WriteOp.at])
  have hput' : ∀ cf k, cf ≠ .edgeRanges → cf ≠ .reversedEdgeRanges →
      Batch.at (edgeRangeSet X .edgeRanges e ++ edgeRangeSet X .reversedEdgeRanges e.reversed) cf k = none := by
    intro cf k h1 h2
    simp [edgeRangeSet, Batch.at_cons, WriteOp.at, h1.symm, h2.symm]
  have hdel' : ∀ cf k, cf ≠ .edgeRanges → cf ≠ .reversedEdgeRanges →
      Batch.at (edgeRangeDelete X .edgeRanges e ++ edgeRangeDelete X .reversedEdgeRanges e.reversed) cf k = none := by
    intro cf k h1 h2
    simp [edgeRangeDelete, Batch.at_cons, WriteOp.at, h1.symm, h2.symm]
  refine ⟨_, rfl, ?_, ?_⟩
  · intro cf k h1 h2
    rw [List.append_assoc, Batch.at_append, hput' cf k h1 h2]
    split
    · rw [hdel' cf k h1 h2]; rfl
    · rfl
  · intro f
    rw [List.append_assoc]
    split
    · exact (hdel f).override (hput f) (fun h => h)
    · exact hput f

/-- Batches that touch neither properties nor indexes keep the index exact. -/
theorem Idx.untouched {b : Batch} (h : ∀ cf k, cf ≠ .vertices → cf ≠ .edgeRanges → cf ≠ .reversedEdgeRanges → b.at cf k = none)
    (hi : Idx X s) : Idx X { s with kv := s.kv.write b } := by
  have h1 := after_at_none s (fun k => h .vertexProperties k (by simp) (by simp) (by simp))
  have h2 := after_at_none s (fun k => h .edgeProperties k (by simp) (by simp) (by simp))
  have h3 := after_at_none s (fun k => h .vertexPropertyValues k (by simp) (by simp) (by simp))
  have h4 := after_at_none s (fun k => h .edgePropertyValues k (by simp) (by simp) (by simp))
  constructor
  · intro n x i
    have := hi.v n x i
    simp only [vEntry, graph, h1, h3] at this ⊢
    exact this
  · intro n x i
    have := hi.e n x i
    simp only [eEntry, graph, h2, h4] at this ⊢
    exact this

theorem PutsEdge.graph {b : Batch} {e : Edge} (h : PutsEdge X b e) :
    Rocks.graph X { s with kv := s.kv.write b } = (Rocks.graph X s).putEdge e := by
  apply Graph.ext
  · funext i; simp only [Rocks.graph, Graph.putEdge, after_at_none s (fun k => h.other .vertices k (by simp) (by simp))]
  · funext f
    show (Rocks.graph X _).edge f = _
    rcases (h.e f).get s.kv with ⟨h1, h2⟩ | ⟨h2, h1⟩
    · subst h2; simp [Rocks.graph, Graph.putEdge, SMap.contains, h1]
    · simp [Rocks.graph, Graph.putEdge, SMap.contains, h1, h2]
  · funext i m
    simp only [Rocks.graph, Graph.putEdge, after_at_none s (fun k => h.other .vertexProperties k (by simp) (by simp))]
  · funext i m
    simp only [Rocks.graph, Graph.putEdge, after_at_none s (fun k => h.other .edgeProperties k (by simp) (by simp))]
  · rfl

theorem vertexCreate_other (v : Vertex) (cf : CF) (k : Bytes) (h : cf ≠ .vertices) : Batch.at (vertexCreate X v) cf k = none := by
  simp [vertexCreate, Batch.at_singleton, WriteOp.at, h.symm]

theorem vertexCreate_graph (v : Vertex) :
    Rocks.graph X { s with kv := s.kv.write (vertexCreate X v) } = (Rocks.graph X s).putVertex v.id v.t := by
  have hb : build X.H [.identifier v.t] = identBytes v.t := by simp [build]
  apply Graph.ext
  · funext i
    show ((s.kv.write (vertexCreate X v) .vertices).get (vertexKey X i)).bind _ = _
    have : Acts (vertexCreate X v) .vertices (vertexKey X i) (some (identBytes v.t)) (i = v.id) :=
      acts_single (fun h => by simp [WriteOp.at, h, hb]) (fun h => by
        simp only [WriteOp.at, vertexKey_inj, true_and]; rw [if_neg (fun h' => h h'.symm)])
    rcases this.get s.kv with ⟨h1, h2⟩ | ⟨h2, h1⟩
    · rw [h1]; simp [Graph.putVertex, h2, readIdentifier_self, Except.toOption]
    · rw [h1]; simp [Graph.putVertex, h2, Rocks.graph]
  · funext i; simp only [Rocks.graph, Graph.putVertex, after_at_none s (fun k => vertexCreate_other v .edgeRanges k (by simp))]
  · funext i m; simp only [Rocks.graph, Graph.putVertex, after_at_none s (fun k => vertexCreate_other v .vertexProperties k (by simp))]
  · funext i m; simp only [Rocks.graph, Graph.putVertex, after_at_none s (fun k => vertexCreate_other v .edgeProperties k (by simp))]
  · rfl

include hw in
theorem createVertex_run (v : Vertex) :
    ((createVertex X v).run s).2 = .ok ((graph X s).vertex v.id == none) ∧
    ((createVertex X v).run s).1.indexed = s.indexed ∧
    graph X ((createVertex X v).run s).1 = (graph X s).createVertex v ∧
    (∀ cf k, cf ≠ .vertices → (((createVertex X v).run s).1.kv cf).get k = (s.kv cf).get k) ∧
    (Idx X s → Idx X ((createVertex X v).run s).1) := by
  have hex := vertex_isSome s hw v.id
  unfold createVertex
  rw [Prog.run_bind_ok (vertexExists_run v.id s), hex]
  cases hv : (graph X s).vertex v.id with
  | some t =>
    simp only [Option.isSome_some, if_true]
    refine ⟨rfl, rfl, ?_, fun _ _ _ => rfl, fun h => h⟩
    show graph X s = _
    rw [Graph.createVertex, if_neg (by rw [hv]; simp)]
  | none =>
    simp only [Option.isSome_none, Bool.false_eq_true, if_false]
    rw [Prog.run_bind_ok (Prog.run_writeBatch _ _)]
    refine ⟨rfl, rfl, ?_, fun cf k h => ?_, fun h => ?_⟩
    · rw [Graph.createVertex, if_pos hv]; exact vertexCreate_graph s v
    · show ((s.kv.write _) cf).get k = _
      rw [KV.write_get, vertexCreate_other v cf k h]; rfl
    · exact Idx.untouched s (fun cf k h1 _ _ => vertexCreate_other v cf k h1) h

include hw in
theorem createEdge_run (e : Edge) :
    ((createEdge X e).run s).2 = .ok ((graph X s).hasEndpoints e) ∧
    ((createEdge X e).run s).1.indexed = s.indexed ∧
    graph X ((createEdge X e).run s).1 = (graph X s).createEdge e ∧
    (∀ k, (((createEdge X e).run s).1.kv .metadata).get k = (s.kv .metadata).get k) ∧
    (Idx X s → Idx X ((createEdge X e).run s).1) := by
  have hex := vertex_isSome s hw e.outboundId
  have hex' := vertex_isSome s hw e.inboundId
  unfold createEdge
  rw [Prog.run_bind_ok (vertexExists_run e.outboundId s), hex]
  cases hv : ((graph X s).vertex e.outboundId).isSome with
  | false =>
    simp only [Bool.not_false, if_true]
    refine ⟨?_, rfl, ?_, fun _ => rfl, fun h => h⟩
    · simp [Graph.hasEndpoints, hv]
    · show graph X s = _
      rw [Graph.createEdge, if_neg (by simp [Graph.hasEndpoints, hv])]
  | true =>
    simp only [Bool.not_true, Bool.false_eq_true, if_false]
    rw [Prog.run_bind_ok (vertexExists_run e.inboundId s), hex']
    cases hv' : ((graph X s).vertex e.inboundId).isSome with
    | false =>
      simp only [Bool.not_false, if_true]
      refine ⟨?_, rfl, ?_, fun _ => rfl, fun h => h⟩
      · simp [Graph.hasEndpoints, hv']
      · show graph X s = _
        rw [Graph.createEdge, if_neg (by simp [Graph.hasEndpoints, hv'])]
    | true =>
      simp only [Bool.not_true, Bool.false_eq_true, if_false]
      obtain ⟨b, hb, hp⟩ := edgeSet_run (X := X) s e
      rw [Prog.run_bind_ok hb, Prog.run_bind_ok (Prog.run_writeBatch _ _)]
      refine ⟨?_, rfl, ?_, md_of s (fun k => hp.other _ k (by simp) (by simp)), fun h => ?_⟩
      · simp [Graph.hasEndpoints, hv, hv']
      · rw [Graph.createEdge, if_pos (by simp [Graph.hasEndpoints, hv, hv'])]; exact hp.graph s
      · exact Idx.untouched s (fun cf k _ h1 h2 => hp.other cf k h1 h2) h

/-! ### Bulk insertion -/

/-- What the batch of one bulk item does; `s` is the state before the whole call, which all reads see. -/
def ItemBatch (X : Cfg) (s : Rocks) : BulkInsertItem → Batch → Prop
  | .vertex v, b => b = vertexCreate X v
  | .edge e, b => PutsEdge X b e
  | .vertexProperty id n v, b => SetsV X s.indexed (graph X s).vprop b (fun i m => i = id ∧ m = n) v
  | .edgeProperty e n v, b => SetsE X s.indexed (graph X s).eprop b (fun i m => i = e ∧ m = n) v

include hr in
theorem bulkItem_run (item : BulkInsertItem) : ∃ b, (bulkItem X s.indexed item).run s = (s, .ok b) ∧ ItemBatch X s item b := by
  cases item with
  | vertex v => exact ⟨_, rfl, rfl⟩
  | edge e => exact edgeSet_run s e
  | vertexProperty id n v => exact vpSet_run s hr s.indexed id n v
  | edgeProperty e n v => exact epSet_run s hr s.indexed e n v

theorem ItemBatch.md {item : BulkInsertItem} {b : Batch} (h : ItemBatch X s item b) (k : Bytes) : b.at .metadata k = none := by
  cases item with
  | vertex v => cases h; exact vertexCreate_other v _ k (by simp)
  | edge e => exact PutsEdge.other h _ k (by simp) (by simp)
  | vertexProperty id n v => exact SetsV.md h k
  | edgeProperty e n v => exact SetsE.md h k

/-- The effect of one item's batch on any later state. -/
theorem ItemBatch.graph {item : BulkInsertItem} {b : Batch} (h : ItemBatch X s item b) (hv : item.Values (CanRead X))
    (t : Rocks) : Rocks.graph X { t with kv := t.kv.write b } = (Rocks.graph X t).rocksBulkItem X.stored item := by
  cases item with
  | vertex v => cases h; exact vertexCreate_graph t v
  | edge e => exact PutsEdge.graph t h
  | vertexProperty id n v =>
    rw [SetsV.graph t h hv]
    simp only [Graph.rocksBulkItem, Graph.putVProps, List.mem_singleton]
  | edgeProperty e n v =>
    rw [SetsE.graph t h hv]
    simp only [Graph.rocksBulkItem, Graph.putEProps, List.mem_singleton]

theorem items_graph (g : BulkInsertItem → Batch) (items : List BulkInsertItem) (h : ∀ i ∈ items, ItemBatch X s i (g i))
    (hv : ∀ i ∈ items, i.Values (CanRead X)) : ∀ t : Rocks,
    graph X { t with kv := t.kv.write (items.flatMap g) } = items.foldl (Graph.rocksBulkItem X.stored) (graph X t) := by
  induction items with
  | nil => intro t; rfl
  | cons i r ih =>
    intro t
    rw [List.flatMap_cons, KV.write_append, List.foldl_cons]
    have := ih (fun j hj => h j (by simp [hj])) (fun j hj => hv j (by simp [hj])) { t with kv := t.kv.write (g i) }
    rw [ItemBatch.graph s (h i (by simp)) (hv i (by simp)) t] at this
    exact this

end

section
variable (s : Rocks) (hw : Wf X s.kv) (hr : Readable X s.kv)

/-- The properties of the targets are the same in both graphs. -/
def SameAt (g g' : Graph) (items : List BulkInsertItem) : Prop := ∀ i ∈ items,
  (∀ id n v, i = .vertexProperty id n v → g'.vprop id n = g.vprop id n) ∧
  (∀ e n v, i = .edgeProperty e n v → g'.eprop e n = g.eprop e n)

theorem ItemBatch.idx {item : BulkInsertItem} {b : Batch} (h : ItemBatch X s item b) (hv : item.Values (CanRead X))
    (hh : item.Values (SameHash X)) (t : Rocks) (ht : t.indexed = s.indexed)
    (hs : SameAt (Rocks.graph X s) (Rocks.graph X t) [item]) (hi : Idx X t) : Idx X { t with kv := t.kv.write b } := by
  have hs := hs item (by simp)
  cases item with
  | vertex v => cases h; exact Idx.untouched t (fun cf k h1 _ _ => vertexCreate_other v cf k h1) hi
  | edge e => exact Idx.untouched t (fun cf k _ h1 h2 => PutsEdge.other h cf k h1 h2) hi
  | vertexProperty id n v =>
    have h' : SetsV X t.indexed (Rocks.graph X s).vprop b (fun i m => i = id ∧ m = n) v := by rw [ht]; exact h
    exact h'.idx t hv hh (fun i m hm => by rw [hm.1, hm.2, hs.1 id n v rfl]) hi
  | edgeProperty e n v =>
    have h' : SetsE X t.indexed (Rocks.graph X s).eprop b (fun i m => i = e ∧ m = n) v := by rw [ht]; exact h
    exact h'.idx t hv hh (fun i m hm => by rw [hm.1, hm.2, hs.2 e n v rfl]) hi

/-- An item changes only its target. -/
theorem rocksBulkItem_other (st : Json → Json) (g : Graph) (item : BulkInsertItem) :
    (∀ id n, item.target ≠ some (.inl id, n) → (g.rocksBulkItem st item).vprop id n = g.vprop id n) ∧
    (∀ e n, item.target ≠ some (.inr e, n) → (g.rocksBulkItem st item).eprop e n = g.eprop e n) := by
  cases item with
  | vertex v => exact ⟨fun _ _ _ => rfl, fun _ _ _ => rfl⟩
  | edge v => exact ⟨fun _ _ _ => rfl, fun _ _ _ => rfl⟩
  | vertexProperty id n v =>
    refine ⟨fun i m h => ?_, fun _ _ _ => rfl⟩
    simp only [Graph.rocksBulkItem, Graph.putVProps, List.mem_singleton]
    rw [if_neg]
    rintro ⟨rfl, rfl⟩
    exact h rfl
  | edgeProperty id n v =>
    refine ⟨fun _ _ _ => rfl, fun i m h => ?_⟩
    simp only [Graph.rocksBulkItem, Graph.putEProps, List.mem_singleton]
    rw [if_neg]
    rintro ⟨rfl, rfl⟩
    exact h rfl

theorem items_idx (g : BulkInsertItem → Batch) (items : List BulkInsertItem) (h : ∀ i ∈ items, ItemBatch X s i (g i))
    (hv : ∀ i ∈ items, i.Values (CanRead X)) (hh : ∀ i ∈ items, i.Values (SameHash X))
    (hn : (items.filterMap BulkInsertItem.target).Nodup) : ∀ t : Rocks, t.indexed = s.indexed →
    SameAt (graph X s) (graph X t) items → Idx X t → Idx X { t with kv := t.kv.write (items.flatMap g) } := by
  induction items with
  | nil => intro t _ _ hi; exact hi
  | cons i r ih =>
    intro t ht hs hi
    rw [List.flatMap_cons, KV.write_append]
    have h1 : Idx X { t with kv := t.kv.write (g i) } :=
      ItemBatch.idx s (h i (by simp)) (hv i (by simp)) (hh i (by simp)) t ht
        (fun j hj => hs j (by simp at hj; simp [hj])) hi
    have hn' : (r.filterMap BulkInsertItem.target).Nodup := by
      rw [List.filterMap_cons] at hn
      cases hi : i.target with
      | none => rw [hi] at hn; exact hn
      | some x => rw [hi] at hn; exact (List.nodup_cons.1 hn).2
    have hne : ∀ j ∈ r, ∀ x, j.target = some x → i.target ≠ some x := by
      intro j hj x hx hi
      rw [List.filterMap_cons, hi] at hn
      exact (List.nodup_cons.1 hn).1 (List.mem_filterMap.2 ⟨j, hj, hx⟩)
    refine ih (fun j hj => h j (by simp [hj])) (fun j hj => hv j (by simp [hj])) (fun j hj => hh j (by simp [hj])) hn'
      { t with kv := t.kv.write (g i) } ht ?_ h1
    rw [ItemBatch.graph s (h i (by simp)) (hv i (by simp)) t]
    intro j hj
    obtain ⟨hs1, hs2⟩ := hs j (by simp [hj])
    have ho := rocksBulkItem_other X.stored (graph X t) i
    constructor
    · rintro id n v rfl
      rw [ho.1 id n (hne _ hj _ rfl)]
      exact hs1 id n v rfl
    · rintro id n v rfl
      rw [ho.2 id n (hne _ hj _ rfl)]
      exact hs2 id n v rfl

include hr in
theorem bulkInsert_run (items : List BulkInsertItem) (hv : ∀ i ∈ items, i.Values (CanRead X)) :
    Writes X s (items.foldl (Graph.rocksBulkItem X.stored) (graph X s)) ((bulkInsert X items).run s) ∧
    ((∀ i ∈ items, i.Values (SameHash X)) → (items.filterMap BulkInsertItem.target).Nodup → Idx X s →
      Idx X ((bulkInsert X items).run s).1) := by
  obtain ⟨g, hb, hg⟩ := forAll_choose (f := bulkItem X s.indexed) (Q := ItemBatch X s) (l := items) (s := s)
    (fun i _ => bulkItem_run s hr i)
  have hrun : (bulkInsert X items).run s = ({ s with kv := s.kv.write (items.flatMap g) }, .ok ()) := locked_run s hb
  rw [hrun]
  refine ⟨⟨rfl, rfl, items_graph s g items hg hv s, md_of s (fun k => ?_)⟩, fun hh hn hi => ?_⟩
  · exact Batch.at_flatMap_none (fun a ha => ItemBatch.md s (hg a ha) k)
  · exact items_idx s g items hg hv hh hn s rfl (fun i _ => ⟨fun _ _ _ _ => rfl, fun _ _ _ _ => rfl⟩) hi

end
end Rocks
end IndraDB
