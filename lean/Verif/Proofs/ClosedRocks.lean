import Verif.Proofs.Closed
import Verif.Proofs.RocksIndex
/-
The RocksDB datastore returns only identifiers and values that were put in.
-/
namespace IndraDB
namespace Rocks
variable {I : Identifier → Prop} {V : Json → Prop} {X : Cfg} {A : Edge → Prop} {P : Batch → Prop}

/-- Every new entry of the edge index is for an edge satisfying `A`. -/
def BatchIn (X : Cfg) (A : Edge → Prop) (b : Batch) : Prop :=
  ∀ k v, .put .edgePropertyValues k v ∈ b → ∃ n h e, k = ehKey X n h e ∧ A e

/-- Every entry of the edge index is. -/
def IdxIn (X : Cfg) (A : Edge → Prop) (kv : KV) : Prop :=
  ∀ k v, (kv .edgePropertyValues).get k = some v → ∃ n h e, k = ehKey X n h e ∧ A e

theorem IdxIn.write (b : Batch) (kv : KV) (hb : BatchIn X A b) (h : IdxIn X A kv) : IdxIn X A (kv.write b) := by
  intro k v hk
  rw [KV.write_get] at hk
  cases ha : b.at .edgePropertyValues k with
  | none => rw [ha] at hk; exact h k v hk
  | some x =>
    rw [ha] at hk
    cases x with
    | none => cases hk
    | some w => exact hb k w (put_of_at ha)

theorem BatchIn.nil : BatchIn X A [] := fun _ _ h => nomatch h

theorem BatchIn.append {a b : Batch} (ha : BatchIn X A a) (hb : BatchIn X A b) : BatchIn X A (a ++ b) := by
  intro k v h
  rcases List.mem_append.1 h with h | h
  · exact ha k v h
  · exact hb k v h

theorem BatchIn.none {b : Batch} (h : ∀ k v, .put .edgePropertyValues k v ∉ b) : BatchIn X A b :=
  fun k v hk => absurd hk (h k v)

theorem in_epvSet {e : Edge} (he : A e) (n : Identifier) (v : Json) : BatchIn X A (epvSet X e n v) := by
  intro k w h
  simp only [epvSet, List.mem_singleton, WriteOp.put.injEq] at h
  exact ⟨n, _, e, h.2.1.trans (epvKey_eq _ _ _), he⟩

theorem in_vpDelete (ix : SSet Identifier) (id : Uuid) (n : Identifier) : (vpDelete X ix id n).All P (BatchIn X A) := by
  unfold vpDelete
  refine Prog.All.bind (Q := BatchIn X A) ?_ (fun b hb => hb.append (.none (by simp)))
  split
  · refine (quiet_vpGet _ _).then ?_
    intro r
    cases r with
    | none => exact .nil
    | some v => exact BatchIn.none (by simp [vpvDelete])
  · exact .nil

theorem in_vpSet (ix : SSet Identifier) (id : Uuid) (n : Identifier) (v : Json) :
    (vpSet X ix id n v).All P (BatchIn X A) := by
  unfold vpSet
  refine Prog.All.bind (Q := BatchIn X A) ?_ (fun b hb => ?_)
  · split
    · exact in_vpDelete _ _ _
    · exact .nil
  · show BatchIn X A (if _ then _ else _)
    split
    · exact (hb.append (.none (by simp))).append (.none (by simp [vpvSet]))
    · exact hb.append (.none (by simp))

theorem in_epDelete (ix : SSet Identifier) (e : Edge) (n : Identifier) : (epDelete X ix e n).All P (BatchIn X A) := by
  unfold epDelete
  refine Prog.All.bind (Q := BatchIn X A) ?_ (fun b hb => hb.append (.none (by simp)))
  split
  · refine (quiet_epGet _ _).then ?_
    intro r
    cases r with
    | none => exact .nil
    | some v => exact BatchIn.none (by simp [epvDelete])
  · exact .nil

theorem in_epSet (ix : SSet Identifier) {e : Edge} (he : A e) (n : Identifier) (v : Json) :
    (epSet X ix e n v).All P (BatchIn X A) := by
  unfold epSet
  refine Prog.All.bind (Q := BatchIn X A) ?_ (fun b hb => ?_)
  · split
    · exact in_epDelete _ _ _
    · exact .nil
  · show BatchIn X A (if _ then _ else _)
    split
    · exact (hb.append (.none (by simp))).append (in_epvSet he _ _)
    · exact hb.append (.none (by simp))

theorem in_edgeSet (e : Edge) : (edgeSet X e).All P (BatchIn X A) := by
  unfold edgeSet
  refine (quiet_edgeContains _ _).then ?_
  intro r
  show BatchIn X A _
  refine BatchIn.none ?_
  cases r <;> simp [edgeRangeSet, edgeRangeDelete]

theorem in_edgeDelete (ix : SSet Identifier) (e : Edge) : (edgeDelete X ix e).All P (BatchIn X A) := by
  unfold edgeDelete
  refine (quiet_epIterate _).then ?_
  intro l
  refine Prog.All.bind (Q := BatchIn X A) (.forItems .nil (fun _ _ => .append) (fun _ _ => in_epDelete _ _ _)) ?_
  intro b hb
  exact (BatchIn.none (by simp [edgeRangeDelete])).append hb

theorem in_vertexDelete (ix : SSet Identifier) (id : Uuid) : (vertexDelete X ix id).All P (BatchIn X A) := by
  have he : ∀ (l : DynIter Edge), (Prog.forItems (fun e => do
      Prog.lift (debugAssert X (e.outboundId = id))
      edgeDelete X ix e) l).All P (BatchIn X A) := by
    intro l
    refine .forItems .nil (fun _ _ => .append) (fun e _ => ?_)
    exact (quiet_lift _).then (fun _ => in_edgeDelete _ _)
  unfold vertexDelete
  refine (quiet_vpIterate _).then (fun l => ?_)
  refine Prog.All.bind (Q := BatchIn X A) (.forItems .nil (fun _ _ => .append) (fun _ _ => in_vpDelete _ _ _)) ?_
  intro b1 h1
  refine (quiet_edgeIterateRoot _ _).then (fun l => ?_)
  refine (he l).bind (fun b2 h2 => ?_)
  refine (quiet_edgeIterateRoot _ _).then (fun l => ?_)
  refine (he l).bind (fun b3 h3 => ?_)
  exact (((BatchIn.none (by simp)).append h1).append h2).append h3

theorem in_locked {f : SSet Identifier → Prog Batch} (h : ∀ ix, (f ix).All (BatchIn X A) (BatchIn X A)) :
    (locked f).All (BatchIn X A) (fun _ => True) := by
  intro ix
  exact (h ix).bind (fun b hb => .writeBatch hb)

theorem in_createEdge (e : Edge) : (createEdge X e).All (BatchIn X A) (fun _ => True) := by
  unfold createEdge
  refine (quiet_vertexExists _).then (fun r => ?_)
  split
  · trivial
  · refine (quiet_vertexExists _).then (fun r => ?_)
    split
    · trivial
    · exact (in_edgeSet e).bind (fun b hb => ⟨hb, trivial⟩)

theorem in_createVertex (v : Vertex) : (createVertex X v).All (BatchIn X A) (fun _ => True) := by
  unfold createVertex
  refine (quiet_vertexExists _).then (fun r => ?_)
  split
  · trivial
  · exact ⟨BatchIn.none (by simp [vertexCreate]), trivial⟩

theorem IdxIn.of_all {α : Type} {p : Prog α} {Q : α → Prop} {s : Rocks} (h : p.All (BatchIn X A) Q)
    (hs : IdxIn X A s.kv) : IdxIn X A (p.run s).1.kv := (h.run (Inv := IdxIn X A) (fun b kv hb hk => hk.write b kv hb) s hs).1

/-- One call keeps the edge index closed. -/
theorem IdxIn.dbStep {s : Rocks} (O : IdentOrder) (op : Op) (hi : Inv X s) (h : IdxIn X (fun e => I e.t) s.kv)
    (hg : (graph X s).Holds I V) (ho : op.All I V) (hq : ∀ q, OutAll I V (eval (reads X s) q)) :
    IdxIn X (fun e => I e.t) (dbStep (txn X O) op s).1.kv := by
  cases op with
  | sync => exact h
  | createVertex v => exact h.of_all (in_createVertex v)
  | createVertexFromType id t =>
    have := h.of_all (in_createVertex ⟨id, t⟩)
    show IdxIn X _ (dbCreateVertexFromType (txn X O) id t s).1.kv
    simp only [dbCreateVertexFromType, txn]
    generalize (createVertex X ⟨id, t⟩).run s = u at this
    obtain ⟨m', res⟩ := u
    cases res with
    | error f => exact this
    | ok x => cases x <;> exact this
  | createEdge e => exact h.of_all (in_createEdge e)
  | get q => exact h
  | delete q =>
    show IdxIn X _ (dbDelete (txn X O) q s).1.kv
    unfold dbDelete
    cases lastOutput ((txn X O).reads s) q with
    | error f => exact h
    | ok v =>
      cases v with
      | vertices vs =>
        exact h.of_all (in_locked (fun _ => .forAll .nil (fun _ _ => .append) (fun _ _ => in_vertexDelete _ _)))
      | edges es =>
        refine h.of_all (in_locked (fun ix => .forAll .nil (fun _ _ => .append) (fun e _ => ?_)))
        refine (quiet_vertexGet _).then (fun r => ?_)
        cases r with
        | none => exact BatchIn.nil
        | some t => exact in_edgeDelete _ _
      | vertexProperties l =>
        exact h.of_all (in_locked (fun _ => .forAll .nil (fun _ _ => .append) (fun _ _ => in_vpDelete _ _ _)))
      | edgeProperties l =>
        exact h.of_all (in_locked (fun _ => .forAll .nil (fun _ _ => .append) (fun _ _ => in_epDelete _ _ _)))
      | count n => exact h
  | setProperties q n x =>
    show IdxIn X _ (dbSetProperties (txn X O) q n x s).1.kv
    have hl : lastOutput (reads X s) q = (eval (reads X s) q).map (·.2) := lastOutput_eq _ q
    unfold dbSetProperties
    rw [show lastOutput ((txn X O).reads s) q = _ from hl]
    cases he : eval (reads X s) q with
    | error f => exact h
    | ok p =>
      obtain ⟨inc, v⟩ := p
      cases v with
      | vertices vs =>
        exact h.of_all (in_locked (fun _ => .forAll .nil (fun _ _ => .append) (fun _ _ => in_vpSet _ _ _ _)))
      | edges es =>
        have hes : ∀ e ∈ es, I e.t := (hq q inc _ he).2
        exact h.of_all (in_locked (fun _ => .forAll .nil (fun _ _ => .append)
          (fun e hm => in_epSet (A := fun e => I e.t) _ (hes e hm) _ _)))
      | _ => exact h
  | bulkInsert items =>
    have ho : ∀ i ∈ items, i.All I V := ho
    refine h.of_all (in_locked (fun _ => .forAll .nil (fun _ _ => .append) (fun i hm => ?_)))
    have hm := ho i hm
    cases i with
    | vertex v => exact BatchIn.none (by simp [vertexCreate])
    | edge e => exact in_edgeSet e
    | vertexProperty id n v => exact in_vpSet _ _ _ _
    | edgeProperty e n v => exact in_epSet (A := fun e => I e.t) _ hm.1 _ _
  | indexProperty n =>
    show IdxIn X _ ((indexProperty X O n).run s).1.kv
    by_cases hn : s.indexed.contains n = true
    · rw [indexProperty_again s O n hn]; exact h
    · obtain ⟨t, ht, hI⟩ := indexProperty_run s hi.wf hi.values.readable O n hn
      have hwt : Wf X t.kv := by
        have := (inv_of_all (all_indexProperty (X := X) (V := CanRead X) O n) hi.wf hi.values).1
        rw [ht] at this; exact this
      rw [ht]
      intro k v hk
      obtain ⟨m, hh, e, rfl⟩ := hwt.eindex k v hk
      refine ⟨m, hh, e, rfl, ?_⟩
      have : eEntry X t m hh e = true := SMap.contains_iff.2 ⟨v, hk⟩
      rcases (hI.e m hh e).1 this with h' | h'
      · obtain ⟨w, hw⟩ := SMap.contains_iff.1 h'
        obtain ⟨m', h'', e', h1, h2⟩ := h _ w hw
        obtain ⟨rfl, rfl, rfl⟩ := ehKey_inj.1 h1
        exact h2
      · exact hg.edge e h'.2.1

theorem IdxIn.index {s : Rocks} (hw : Wf X s.kv) (h : IdxIn X (fun e => I e.t) s.kv) : (index X s).Holds I := by
  have key : ∀ n hh e, eEntry X s n hh e = true → I e.t := by
    intro n hh e he
    obtain ⟨w, hw⟩ := SMap.contains_iff.1 he
    obtain ⟨m', h'', e', h1, h2⟩ := h _ w hw
    obtain ⟨rfl, rfl, rfl⟩ := ehKey_inj.1 h1
    exact h2
  refine ⟨?_, fun n x e he => key n _ e he⟩
  intro n e he
  obtain ⟨hh, h⟩ := (elisted_iff s hw n e).1 he
  exact key n hh e h

end Rocks

/-- **C52 for the RocksDB datastore**, if `V` holds of the values read back too. -/
theorem rocksStore_closed {I : Identifier → Prop} {V : Json → Prop} (X : Cfg) (hV : ∀ x, V x → V (X.stored x)) :
    (rocksStore X).RepliesClosed I V := by
  intro hist hok ha r hr
  suffices H : ∀ hist s, Rocks.Inv X s → (Rocks.graph X s).Holds I V → Rocks.IdxIn X (fun e => I e.t) s.kv →
      (rocksStore X).OkHist hist → (∀ p ∈ hist, p.2.All I V) → .ok r ∈ (rocksStore X).replies hist s → r.All I V by
    refine H hist Rocks.init Rocks.Inv.init ?_ (fun k v hk => by simp [Rocks.init, KV.empty] at hk) hok ha hr
    constructor <;> intros <;> simp_all [Rocks.graph, Rocks.init, KV.empty, SMap.contains]
  intro hist
  induction hist with
  | nil => intro d _ _ _ _ _ h; cases h
  | cons p rest ih =>
    obtain ⟨O, op⟩ := p
    intro s hi hg hx hok ha hr
    have hout : ∀ q, OutAll I V (eval (Rocks.reads X s) q) := fun q =>
      answers_holds hg (hx.index hi.wf) q _ (eval_answers (Rocks.faithful s hi.wf hi.values.readable) q)
    have hop : op.All I V := ha (O, op) List.mem_cons_self
    have hs := Rocks.dbStep_spec O op s hi (hok (O, op) List.mem_cons_self)
    have hh := stepWith_holds (Sem.rocks_holds X hV) hg hout hop hs.stepWith
    rcases List.mem_cons.1 hr with h | h
    · exact hh.2 r h.symm
    · exact ih _ hs.inv.toInv hh.1 (hx.dbStep O op hi hg hop hout) (fun p hp => hok p (List.mem_cons_of_mem _ hp))
        (fun p hp => ha p (List.mem_cons_of_mem _ hp)) h

end IndraDB
