import Verif.Proofs.Store
import Verif.Proofs.RocksIndex
/-
One call on the RocksDB datastore, and histories of calls.
-/
set_option linter.unusedSimpArgs false
namespace IndraDB
namespace Rocks
variable {X : Cfg}

/-- The metadata table holds the set of indexed names. -/
def MetaOk (s : Rocks) : Prop :=
  ((s.kv .metadata).get metaKey = none ∧ s.indexed = SMap.empty) ∨
  ∃ l : List Identifier, l.Perm s.indexed.elems ∧ (s.kv .metadata).get metaKey = some (encodeIdents l)

/-- The invariant of states reached by histories of calls that write readable values. -/
structure Inv (X : Cfg) (s : Rocks) : Prop where
  wf : Wf X s.kv
  values : Values X (CanRead X) s.kv

theorem Inv.init : Inv X Rocks.init := ⟨Wf.empty, Values.empty⟩
theorem MetaOk.init : MetaOk Rocks.init := Or.inl ⟨rfl, rfl⟩

/-- The invariant, and the set of indexed names is stored if `M`. -/
structure InvM (X : Cfg) (M : Prop) (s : Rocks) : Prop extends Inv X s where
  md : M → MetaOk s

/-- What the call must satisfy so that the index stays exact: values keep their hash when read back; no two property
items of one bulk insertion have the same owner and name; a property is indexed when no property lacks its owner. -/
def IdxOk (X : Cfg) (g : Graph) : Op → Prop
  | .setProperties _ _ x => SameHash X x
  | .bulkInsert items => (∀ i ∈ items, i.Values (SameHash X)) ∧ (items.filterMap BulkInsertItem.target).Nodup
  | .indexProperty _ => g.NoOrphans
  | _ => True

/-- Outcome of one call. -/
structure StepOk (X : Cfg) (s : Rocks) (op : Op) (t : Rocks) (r : Res Reply) : Prop where
  stepWith : StepWith (Sem.rocks X) (graph X s) (eval (reads X s)) op (graph X t) r
  inv : InvM X (MetaOk s) t
  idx : IdxOk X (graph X s) op → Idx X s → Idx X t

theorem MetaOk.same {s t : Rocks} (h : MetaOk s) (h1 : t.indexed = s.indexed)
    (h2 : ∀ k, (t.kv .metadata).get k = (s.kv .metadata).get k) : MetaOk t := by
  unfold MetaOk; rw [h1, h2]; exact h

/-- Every program that writes well-formed batches keeps the first two invariants. -/
theorem inv_of_all {α : Type} {p : Prog α} {s : Rocks} (h : p.All (BatchOk X (CanRead X)) (fun _ => True))
    (hw : Wf X s.kv) (hv : Values X (CanRead X) s.kv) : Wf X (p.run s).1.kv ∧ Values X (CanRead X) (p.run s).1.kv :=
  (h.run (Inv := fun kv => Wf X kv ∧ Values X (CanRead X) kv) (fun _ _ hb hi => ⟨hi.1.write hb, hi.2.write hb⟩) s ⟨hw, hv⟩).1

/-- **One call on the RocksDB datastore.** -/
theorem dbStep_spec (O : IdentOrder) (op : Op) (s : Rocks) (hi : Inv X s) (hv : op.ValuesOk (CanRead X)) :
    StepOk X s op (step X O op s).1 (step X O op s).2 := by
  obtain ⟨hw, hval⟩ := hi
  have hmd : MetaOk s → MetaOk s := id
  have hr : Readable X s.kv := hval.readable
  -- a write with reply `unit`
  have wr : ∀ (g : Graph) (p : Prog Unit) (P : Prop), (Writes X s g (p.run s) ∧ (P → Idx X s → Idx X (p.run s).1)) →
      p.All (BatchOk X (CanRead X)) (fun _ => True) →
      (Upd.map (fun _ => Reply.unit) (p.run s)).2 = .ok .unit ∧ graph X (Upd.map (fun _ => Reply.unit) (p.run s)).1 = g ∧
        InvM X (MetaOk s) (Upd.map (fun _ => Reply.unit) (p.run s)).1 ∧
        (P → Idx X s → Idx X (Upd.map (fun _ => Reply.unit) (p.run s)).1) := by
    rintro g p P ⟨h1, h2⟩ h3
    have h4 := inv_of_all h3 hw hval
    refine ⟨by simp [Upd.map, h1.ok, Except.map], h1.graph, ⟨⟨h4.1, h4.2⟩, fun hmd => hmd.same h1.indexed h1.md⟩, h2⟩
  have self : ∀ r, StepWith (Sem.rocks X) (graph X s) (eval (reads X s)) op (graph X s) r → StepOk X s op s r :=
    fun r h => ⟨h, ⟨⟨hw, hval⟩, hmd⟩, fun _ h => h⟩
  have triv : ∀ {p : Prog Unit} {g : Graph}, (Writes X s g (p.run s) ∧ (Idx X s → Idx X (p.run s).1)) →
      Writes X s g (p.run s) ∧ (True → Idx X s → Idx X (p.run s).1) := fun h => ⟨h.1, fun _ => h.2⟩
  unfold step
  cases op with
  | sync => exact self _ ⟨rfl, rfl⟩
  | createVertex v =>
    obtain ⟨h1, h2, h3, h4, h5⟩ := createVertex_run s hw v
    have h6 := inv_of_all (all_createVertex (X := X) (V := CanRead X) v) hw hval
    exact ⟨⟨h3, by simp [dbStep, txn, Upd.map, h1, Except.map]⟩,
      ⟨⟨h6.1, h6.2⟩, fun hmd => hmd.same h2 (fun k => h4 _ k (by decide))⟩, fun _ => h5⟩
  | createVertexFromType id t =>
    obtain ⟨h1, h2, h3, h4, h5⟩ := createVertex_run s hw ⟨id, t⟩
    have h6 := inv_of_all (all_createVertex (X := X) (V := CanRead X) ⟨id, t⟩) hw hval
    have hs : (dbStep (txn X O) (.createVertexFromType id t) s).1 = ((createVertex X ⟨id, t⟩).run s).1 ∧
        (dbStep (txn X O) (.createVertexFromType id t) s).2 =
          if (graph X s).vertex id = none then .ok (.uuid id) else .error (.err .uuidTaken) := by
      simp only [dbStep, dbCreateVertexFromType, txn]
      generalize (createVertex X ⟨id, t⟩).run s = u at h1
      obtain ⟨m', res⟩ := u
      simp only at h1
      subst h1
      by_cases hv : (graph X s).vertex id = none
      · simp [hv, Upd.map, Except.map]
      · have : ((graph X s).vertex id == none) = false := by
          cases hh : (graph X s).vertex id with
          | none => exact absurd hh hv
          | some t => rfl
        simp [this, hv, Upd.map, Except.map]
    refine ⟨⟨by rw [hs.1]; exact h3, hs.2⟩, ?_, fun _ => by rw [hs.1]; exact h5⟩
    rw [hs.1]
    exact ⟨⟨h6.1, h6.2⟩, fun hmd => hmd.same h2 (fun k => h4 _ k (by decide))⟩
  | createEdge e =>
    obtain ⟨h1, h2, h3, h4, h5⟩ := createEdge_run s hw e
    have h6 := inv_of_all (all_createEdge (X := X) (V := CanRead X) e) hw hval
    exact ⟨⟨h3, by simp [dbStep, txn, Upd.map, h1, Except.map]⟩, ⟨⟨h6.1, h6.2⟩, fun hmd => hmd.same h2 h4⟩, fun _ => h5⟩
  | get q =>
    refine self _ ⟨rfl, ?_⟩
    simp only [dbStep, txn, getQuery_eq]
    cases eval (reads X s) q <;> rfl
  | delete q =>
    have hl : lastOutput (reads X s) q = (eval (reads X s) q).map (·.2) := lastOutput_eq _ q
    have hsw : ∀ m' r, (match eval (reads X s) q with
      | .error f => m' = graph X s ∧ r = .error f
      | .ok (_, v) => DeleteValue (Sem.rocks X) (graph X s) v m' r) → StepWith (Sem.rocks X) (graph X s) (eval (reads X s)) (.delete q) m' r := fun _ _ h => h
    generalize eval (reads X s) q = a at hsw hl self
    simp only [dbStep, dbDelete]
    have hT : (txn X O).reads s = reads X s := rfl
    rw [hT, hl]
    have self' : ∀ r, (match a with
      | .error f => graph X s = graph X s ∧ r = .error f
      | .ok (_, v) => DeleteValue (Sem.rocks X) (graph X s) v (graph X s) r) → StepOk X s (.delete q) s r :=
      fun r h => ⟨hsw _ _ h, ⟨⟨hw, hval⟩, hmd⟩, fun _ h => h⟩
    cases a with
    | error f => exact self' _ ⟨rfl, rfl⟩
    | ok p =>
      obtain ⟨inc, v⟩ := p
      simp only [Except.map]
      cases v with
      | vertices vs =>
        obtain ⟨h1, h2, h3, h4⟩ := wr _ _ _ (triv (deleteVertices_run s hw hr vs)) (all_deleteVertices vs)
        exact ⟨hsw _ _ ⟨h2, h1⟩, h3, fun _ => h4 trivial⟩
      | edges es =>
        obtain ⟨h1, h2, h3, h4⟩ := wr _ _ _ (triv (deleteEdges_run s hw hr es)) (all_deleteEdges es)
        exact ⟨hsw _ _ ⟨h2, h1⟩, h3, fun _ => h4 trivial⟩
      | vertexProperties l =>
        obtain ⟨h1, h2, h3, h4⟩ := wr _ _ _ (triv (deleteVertexProperties_run s hr (vertexPropertyKeys l)))
          (all_deleteVertexProperties _)
        exact ⟨hsw _ _ ⟨h2, h1⟩, h3, fun _ => h4 trivial⟩
      | edgeProperties l =>
        obtain ⟨h1, h2, h3, h4⟩ := wr _ _ _ (triv (deleteEdgeProperties_run s hr (edgePropertyKeys l)))
          (all_deleteEdgeProperties _)
        exact ⟨hsw _ _ ⟨h2, h1⟩, h3, fun _ => h4 trivial⟩
      | count n => exact self' _ ⟨rfl, rfl⟩
  | setProperties q n x =>
    have hl : lastOutput (reads X s) q = (eval (reads X s) q).map (·.2) := lastOutput_eq _ q
    have hsw : ∀ m' r, (match eval (reads X s) q with
      | .error f => m' = graph X s ∧ r = .error f
      | .ok (_, v) => SetValue (Sem.rocks X) (graph X s) n x v m' r) → StepWith (Sem.rocks X) (graph X s) (eval (reads X s)) (.setProperties q n x) m' r := fun _ _ h => h
    generalize eval (reads X s) q = a at hsw hl self
    simp only [dbStep, dbSetProperties]
    have hT : (txn X O).reads s = reads X s := rfl
    rw [hT, hl]
    have self' : ∀ r, (match a with
      | .error f => graph X s = graph X s ∧ r = .error f
      | .ok (_, v) => SetValue (Sem.rocks X) (graph X s) n x v (graph X s) r) → StepOk X s (.setProperties q n x) s r :=
      fun r h => ⟨hsw _ _ h, ⟨⟨hw, hval⟩, hmd⟩, fun _ h => h⟩
    cases a with
    | error f => exact self' _ ⟨rfl, rfl⟩
    | ok p =>
      obtain ⟨inc, v⟩ := p
      simp only [Except.map]
      cases v with
      | vertices vs =>
        obtain ⟨h1, h2, h3, h4⟩ := wr _ _ _ (setVertexProperties_run s hr (vs.map (·.id)) n x hv)
          (all_setVertexProperties _ n x hv)
        exact ⟨hsw _ _ ⟨h2, h1⟩, h3, h4⟩
      | edges es =>
        obtain ⟨h1, h2, h3, h4⟩ := wr _ _ _ (setEdgeProperties_run s hr es n x hv) (all_setEdgeProperties _ n x hv)
        exact ⟨hsw _ _ ⟨h2, h1⟩, h3, h4⟩
      | _ => exact self' _ ⟨rfl, rfl⟩
  | bulkInsert items =>
    have hb := bulkInsert_run s hr items hv
    obtain ⟨h1, h2, h3, h4⟩ := wr _ _ ((∀ i ∈ items, i.Values (SameHash X)) ∧
      (items.filterMap BulkInsertItem.target).Nodup) ⟨hb.1, fun h => hb.2 h.1 h.2⟩ (all_bulkInsert items hv)
    exact ⟨⟨h2, h1⟩, h3, h4⟩
  | indexProperty n =>
    by_cases hn : s.indexed.contains n = true
    · have h := indexProperty_again (X := X) s O n hn
      have hs : dbStep (txn X O) (.indexProperty n) s = (s, .ok .unit) := by
        show Upd.map _ ((indexProperty X O n).run s) = _
        rw [h]; rfl
      rw [hs]
      refine self _ ⟨?_, rfl⟩
      refine Graph.ext rfl rfl rfl rfl ?_
      funext m
      show s.indexed.contains m = ((graph X s).addIndex n).indexed m
      simp only [Graph.addIndex]
      by_cases hm : m = n
      · subst hm; simp [hn]
      · simp [hm, graph]
    · obtain ⟨t, h, hI⟩ := indexProperty_run s hw hr O n hn
      have hs : dbStep (txn X O) (.indexProperty n) s = (t, .ok .unit) := by
        show Upd.map _ ((indexProperty X O n).run s) = _
        rw [h]; rfl
      rw [hs]
      have h6 := inv_of_all (all_indexProperty (X := X) (V := CanRead X) O n) hw hval
      rw [h] at h6
      refine ⟨⟨hI.graph, rfl⟩, ⟨⟨h6.1, h6.2⟩, fun _ => Or.inr ⟨_, ?_, hI.md⟩⟩, fun ho hi => hI.idx hn ho hi⟩
      rw [hI.indexed]; exact O.perm _

end Rocks

/-- The RocksDB datastore as a black box, starting in state `s₀`, for histories that write values in `V`. -/
def rocksStoreFrom (X : Cfg) (V : Json → Prop) (s₀ : Rocks) : Store where
  State := Rocks
  Env := IdentOrder
  init := s₀
  step := fun O op s => Rocks.step X O op s
  graph := Rocks.graph X
  index := fun _ => Rocks.index X
  alive := fun _ => true
  okValue := V

/-- The RocksDB datastore as a black box, for histories that write values in `V`. -/
abbrev rocksStoreOf (X : Cfg) (V : Json → Prop) : Store := rocksStoreFrom X V Rocks.init

/-- The RocksDB datastore, for histories that write values that can be read back. -/
abbrev rocksStore (X : Cfg) : Store := rocksStoreOf X (Rocks.CanRead X)

namespace Rocks
variable {X : Cfg}

theorem inv_run {s₀ : Rocks} (hist : List (IdentOrder × Op)) : ∀ s, Inv X s →
    (rocksStoreFrom X (CanRead X) s₀).OkHist hist → Inv X ((rocksStoreFrom X (CanRead X) s₀).run hist s) := by
  induction hist with
  | nil => intro s hi _; exact hi
  | cons a r ih =>
    intro s hi ho
    exact ih _ (dbStep_spec a.1 a.2 s hi (ho a List.mem_cons_self)).inv.toInv (fun p hp => ho p (List.mem_cons_of_mem _ hp))

theorem inv_reach_from {s₀ s : Rocks} (h₀ : Inv X s₀) (h : (rocksStoreFrom X (CanRead X) s₀).Reach s) : Inv X s := by
  obtain ⟨hist, rfl, _, ho⟩ := h
  exact inv_run hist _ h₀ ho

theorem inv_reach {s : Rocks} (h : (rocksStore X).Reach s) : Inv X s := inv_reach_from Inv.init h

theorem md_run {s₀ : Rocks} (hist : List (IdentOrder × Op)) : ∀ s, Inv X s → MetaOk s →
    (rocksStoreFrom X (CanRead X) s₀).OkHist hist → MetaOk ((rocksStoreFrom X (CanRead X) s₀).run hist s) := by
  induction hist with
  | nil => intro s _ hm _; exact hm
  | cons a r ih =>
    intro s hi hm ho
    have h := (dbStep_spec a.1 a.2 s hi (ho a List.mem_cons_self)).inv
    exact ih _ h.toInv (h.md hm) (fun p hp => ho p (List.mem_cons_of_mem _ hp))

theorem md_reach {s : Rocks} (h : (rocksStore X).Reach s) : MetaOk s := by
  obtain ⟨hist, rfl, _, ho⟩ := h
  exact md_run hist _ Inv.init MetaOk.init ho

theorem step_no_panic (O : IdentOrder) (op : Op) (s : Rocks) (hi : Inv X s) (hv : op.ValuesOk (CanRead X)) :
    (step X O op s).2 ≠ .error .panic := by
  have h := (dbStep_spec O op s hi hv).stepWith
  have hF := faithful s hi.wf hi.values.readable
  have hq : ∀ q, eval (reads X s) q ≠ .error .panic := by
    intro q hq
    have ha := eval_answers hF q
    rcases answers_error q _ ha _ hq with h | h | ⟨_, x, _, h⟩
    · cases h
    · cases h
    · cases h
  intro he
  rw [he] at h
  cases op with
  | sync => cases h.2
  | createVertex v => cases h.2
  | createVertexFromType id t =>
    have := h.2
    split at this <;> cases this
  | createEdge e => cases h.2
  | get q =>
    have := h.2
    cases hh : eval (reads X s) q with
    | ok p => rw [hh] at this; cases this
    | error f => rw [hh] at this; exact hq q (by rw [hh]; cases this; rfl)
  | delete q =>
    simp only [StepWith] at h
    generalize hh : eval (reads X s) q = a at h
    cases a with
    | error f => exact hq q (by rw [hh]; cases h.2; rfl)
    | ok p =>
      obtain ⟨inc, v⟩ := p
      cases v <;> cases h.2
  | setProperties q n x =>
    simp only [StepWith] at h
    generalize hh : eval (reads X s) q = a at h
    cases a with
    | error f => exact hq q (by rw [hh]; cases h.2; rfl)
    | ok p =>
      obtain ⟨inc, v⟩ := p
      cases v <;> cases h.2
  | bulkInsert items => cases h.2
  | indexProperty n => cases h.2

/-- The RocksDB datastore conforms to its semantics, from every state that satisfies the invariant. -/
def conformsFrom (X : Cfg) (s₀ : Rocks) (h₀ : Inv X s₀) :
    Conforms (rocksStoreFrom X (CanRead X) s₀) (conv X) (Sem.rocks X) where
  reads := fun _ s => reads X s
  get_eq := fun _ _ _ _ => rfl
  faithful := fun s hr _ => faithful s (inv_reach_from h₀ hr).wf (inv_reach_from h₀ hr).values.readable
  step := fun s hr O op hv => Or.inl (dbStep_spec O op s (inv_reach_from h₀ hr) hv).stepWith
  step_noWrite := by
    intro s hr O op h
    show StepWith _ _ _ _ (graph X (dbStep (txn X O) op s).1) (dbStep (txn X O) op s).2
    rcases h with ⟨q, rfl, ⟨f, hq⟩ | ⟨⟨inc, v⟩, hq, hk⟩⟩ | ⟨q, n, x, rfl, ⟨f, hq⟩ | ⟨⟨inc, v⟩, hq, hk1, hk2⟩⟩
    · have hl : lastOutput ((txn X O).reads s) q = .error f := by
        have := lastOutput_eq (reads X s) q; rw [hq] at this; exact this
      simp only [StepWith, hq, dbStep, dbDelete, hl]; exact ⟨rfl, rfl⟩
    · have hl : lastOutput ((txn X O).reads s) q = .ok v := by
        have := lastOutput_eq (reads X s) q; rw [hq] at this; exact this
      cases v <;> simp [Output.kind] at hk
      simp only [StepWith, hq, dbStep, dbDelete, hl]; exact ⟨rfl, rfl⟩
    · have hl : lastOutput ((txn X O).reads s) q = .error f := by
        have := lastOutput_eq (reads X s) q; rw [hq] at this; exact this
      simp only [StepWith, hq, dbStep, dbSetProperties, hl]; exact ⟨rfl, rfl⟩
    · have hl : lastOutput ((txn X O).reads s) q = .ok v := by
        have := lastOutput_eq (reads X s) q; rw [hq] at this; exact this
      cases v <;> simp [Output.kind] at hk1 hk2 <;>
      · simp only [StepWith, hq, dbStep, dbSetProperties, hl]; exact ⟨rfl, rfl⟩
  sem_index := by
    refine ⟨fun _ _ => rfl, fun _ _ => rfl, ?_⟩
    intro g i
    cases i <;> rfl
  alive_back := fun _ _ _ _ => rfl
  alive_ok := fun s hr O op hv _ => step_no_panic O op s (inv_reach_from h₀ hr) hv

/-- The RocksDB datastore conforms to its semantics. -/
def conforms (X : Cfg) : Conforms (rocksStore X) (conv X) (Sem.rocks X) := conformsFrom X Rocks.init Inv.init

end Rocks
end IndraDB
