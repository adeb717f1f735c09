import Verif.Spec.Plugins
import Verif.Proofs.MemoryAny
import Verif.Proofs.RocksHistory
import Verif.Props.Kind
/-
Plugins on the two datastores.
-/
set_option linter.unusedSimpArgs false
namespace IndraDB

/-! ### A store that conforms is sane -/

theorem Conforms.sane {S : Store} {C : Conv} {Sm : Sem} (F : Conforms S C Sm) {edgeLt : Edge → Edge → Bool}
    {bad : Uuid → Prop} (he : C.edgeLt = edgeLt) (hb : ∀ i, C.propsPanic i = true → bad i) : S.Sane Sm edgeLt bad where
  createVertex := by
    intro s hr env v
    obtain ⟨h1, h2⟩ := F.stepWith' hr env (.createVertex v) (by simp) (by simp) (by simp)
    exact ⟨h2, h1⟩
  createVertexFromType := F.createVertexFromType
  createEdge := F.createEdge
  traversal := F.traversalSymmetric
  deleteVertices := F.deleteVertices
  deleteEdges := F.deleteEdges
  setProperties := F.setProperties
  wrongValues := F.wrongValuesRejected
  deleteProperties := F.deleteProperties
  vertexQueries := F.vertexQueries
  edgeQueries := he ▸ F.edgeQueries
  pipeVertices := by
    intro s hr env inner vs hv d limit t
    obtain ⟨ea, h1, h2⟩ := F.pipeVertices s hr env inner vs hv d limit t
    refine ⟨ea, ?_, h2⟩
    intro id
    have := h1 id
    cases d
    all_goals
      unfold Conv.dirLt at this
      rw [he] at this
      exact this
  pipeEdges := F.pipeEdges
  pipeProperties := by
    intro s hr env inner
    obtain ⟨h1, h2⟩ := F.pipeProperties s hr env inner
    refine ⟨fun vs hv => ⟨(h1 vs hv).1, fun hb' => (h1 vs hv).2 ?_⟩, h2⟩
    intro v hv' hp
    exact hb' v hv' (hb _ hp)
  filters := F.filtersPartition
  count := F.countExact
  includes := F.includeExact
  built := F.builtQueriesWork
  limits := F.limitsMonotone
  kinds := F.kinds
  paging := F.paging nextId nextId_spec Uuid.not_lt_nil
  indexProperty := by
    intro s hr env n
    obtain ⟨h1, h2⟩ := F.stepWith' hr env (.indexProperty n) (by simp) (by simp) (by simp)
    exact ⟨h2, h1⟩
  bulkInsert := by
    intro s hr env items hv hp
    rcases F.step s hr env (.bulkInsert items) hv with h | ⟨h, _⟩
    · exact ⟨h.2, h.1⟩
    · exact absurd h hp

/-! ### The memory datastore -/

namespace Mem
variable {F : Finder} {b : Build}

/-- Every method of the transaction, with any arguments, does what it should, or panics in a debug build. -/
theorem call_any (F : Finder) (O : HashOrder) (c : TxnCall) (m : Mem) (w : m.RevOk) :
    (((txn F O b).call c m).2 = .error .panic ∧ b = .debug) ∨
    (((txn F O b).call c m).2 = .ok (c.reply m.graph) ∧ ((txn F O b).call c m).1.graph = c.effect Sem.intended m.graph ∧
      ((txn F O b).call c m).1.RevOk) := by
  have wr : ∀ (φ : Graph → Graph) (u : Upd Mem Unit), GEff b φ m u →
      ((Upd.map (fun _ => TxnReply.unit) u).2 = .error .panic ∧ b = .debug) ∨
      ((Upd.map (fun _ => TxnReply.unit) u).2 = .ok .unit ∧ (Upd.map (fun _ => TxnReply.unit) u).1.graph = φ m.graph ∧
        (Upd.map (fun _ => TxnReply.unit) u).1.RevOk) := by
    intro φ u hu
    rcases hu with ⟨h1, h2⟩ | ⟨⟨a, h1⟩, h2, h3⟩
    · left; exact ⟨by simp [Upd.map, h1, Except.map], h2⟩
    · right; exact ⟨by simp [Upd.map, h1, Except.map], h2, h3 w⟩
  cases c with
  | deleteVertices vs => exact wr _ _ (deleteVertices_geff vs m)
  | deleteEdges es => exact wr _ _ (deleteEdges_geff es m)
  | deleteVertexProperties ps => exact wr _ _ (deleteVertexProperties_geff ps m)
  | deleteEdgeProperties ps => exact wr _ _ (deleteEdgeProperties_geff ps m)
  | sync => right; exact ⟨rfl, rfl, w⟩
  | createVertex v =>
    have h2 := (createVertex_eff (K := HashEq.byHash) (b := b) v m).2
    rcases createVertex_geff (b := b) v m with ⟨h1, _⟩ | ⟨_, hg, hr⟩
    · rw [h2] at h1; exact absurd h1 (by simp)
    · right; exact ⟨by simp [Transaction.call, txn, Upd.map, h2, Except.map, TxnCall.reply], hg, hr w⟩
  | createEdge e =>
    have h2 := (createEdge_eff (K := HashEq.byHash) (b := b) e m).2
    rcases createEdge_geff (b := b) e m with ⟨h1, _⟩ | ⟨_, hg, hr⟩
    · rw [h2] at h1; exact absurd h1 (by simp)
    · right; exact ⟨by simp [Transaction.call, txn, Upd.map, h2, Except.map, TxnCall.reply], hg, hr w⟩
  | bulkInsert items => exact wr _ _ (bulkInsert_geff items m)
  | indexProperty n => exact wr _ _ (indexProperty_geff n m)
  | setVertexProperties ids n v => exact wr _ _ (setVertexProperties_geff ids n v m)
  | setEdgeProperties es n v => exact wr _ _ (setEdgeProperties_geff es n v m)

theorem plugin_run (p : PluginProg) : ∀ (env : Nat → Finder × HashOrder) (m : Mem), m.RevOk →
    ((p.run (fun i => txn (env i).1 (env i).2 b) m).2 = .error .panic ∧ b = .debug) ∨
    (PluginRun Sem.intended (memConv HashEq.byHash) m.graph p (p.run (fun i => txn (env i).1 (env i).2 b) m).1.graph
      (p.run (fun i => txn (env i).1 (env i).2 b) m).2 ∧ (p.run (fun i => txn (env i).1 (env i).2 b) m).1.RevOk) := by
  induction p with
  | ret r => intro env m w; right; exact ⟨.ret _ r, w⟩
  | panic => intro env m w; right; exact ⟨.panic _, w⟩
  | read k ih =>
    intro env m w
    rcases ih (reads (env 0).1 (env 0).2 m) (fun i => env (i + 1)) m w with h | ⟨h1, h2⟩
    · left; exact h
    · right; exact ⟨.read _ _ (faithful (K := HashEq.byHash) (env 0).1 (env 0).2 m w) h1, h2⟩
  | write c k ih =>
    intro env m w
    simp only [PluginProg.run]
    have hc := call_any (b := b) (env 0).1 (env 0).2 c m w
    generalize (txn (env 0).1 (env 0).2 b).call c m = u at hc ⊢
    obtain ⟨m', r⟩ := u
    rcases hc with ⟨h1, h2⟩ | ⟨h1, h2, h3⟩
    · simp only at h1; subst h1; left; exact ⟨rfl, h2⟩
    · simp only at h1 h2 h3
      subst h1
      rcases ih (.ok (c.reply m.graph)) (fun i => env (i + 1)) m' h3 with h | ⟨h4, h5⟩
      · left; exact h
      · right; exact ⟨.write (by rw [← h2]; exact h4), h5⟩

end Mem

open Mem

/-- The memory datastore with plugins. -/
def memPlugins (b : Build) : PluginStore where
  toStore := memStoreAny b
  PEnv := Nat → Finder × HashOrder
  plugin := MemDb.plugin b

theorem MemDb.plugin_eq {b : Build} (env : Nat → Finder × HashOrder) (p : PluginProg) {d : MemDb} (hp : d.poisoned = false) :
    (MemDb.plugin b env p d).1.mem = (p.run (fun i => Mem.txn (env i).1 (env i).2 b) d.mem).1 ∧
    (MemDb.plugin b env p d).2 = (p.run (fun i => Mem.txn (env i).1 (env i).2 b) d.mem).2 ∧
    ((MemDb.plugin b env p d).1.poisoned = true ↔ (p.run (fun i => Mem.txn (env i).1 (env i).2 b) d.mem).2 = .error .panic) := by
  unfold MemDb.plugin
  rw [if_neg (by simp [hp])]
  generalize p.run (fun i => Mem.txn (env i).1 (env i).2 b) d.mem = u
  obtain ⟨m', r⟩ := u
  cases r with
  | ok a => simp
  | error f => cases f <;> simp

theorem memPlugins_rev {b : Build} (hist : List (memPlugins b).Act) : ∀ d : MemDb, (d.poisoned = false → d.mem.RevOk) →
    MemDb.poisoned (hist.foldl (memPlugins b).act d) = false → (MemDb.mem (hist.foldl (memPlugins b).act d)).RevOk := by
  induction hist with
  | nil => intro d h; exact h
  | cons a r ih =>
    intro d h
    refine ih ((memPlugins b).act d a) ?_
    cases a with
    | call env op =>
      obtain ⟨F, O⟩ := env
      exact memAny_run_rev [((F, O), op)] d h
    | plugin env p =>
      intro hp'
      have hp'' : (MemDb.plugin b env p d).1.poisoned = false := hp'
      show (MemDb.plugin b env p d).1.mem.RevOk
      cases hp : d.poisoned with
      | true => rw [show MemDb.plugin b env p d = (d, .error .panic) by unfold MemDb.plugin; rw [if_pos hp]] at hp''; rw [hp] at hp''; exact absurd hp'' (by simp)
      | false =>
        have he := MemDb.plugin_eq (b := b) env p hp
        rw [he.1]
        rcases Mem.plugin_run (b := b) p env d.mem (h hp) with ⟨h1, _⟩ | ⟨_, h2⟩
        · rw [he.2.2.2 h1] at hp''; exact absurd hp'' (by simp)
        · exact h2

theorem memPlugins_reach {b : Build} {d : MemDb} (h : (memPlugins b).Reach d) : d.poisoned = false ∧ d.mem.RevOk := by
  obtain ⟨hist, rfl, ha, _⟩ := h
  have hp : MemDb.poisoned (hist.foldl (memPlugins b).act MemDb.new) = false := by
    have ha' : (!MemDb.poisoned (hist.foldl (memPlugins b).act MemDb.new)) = true := ha
    simpa using ha'
  exact ⟨hp, memPlugins_rev hist MemDb.new (fun _ => (wf_empty (K := HashEq.byHash) (b := b)).rev) hp⟩

theorem PluginStore.Reach.snoc {S : PluginStore} {s : S.State} (h : S.Reach s) (a : S.Act) (ha : a.Ok)
    (hl : S.alive (S.act s a) = true) : S.Reach (S.act s a) := by
  obtain ⟨hist, rfl, _, ho⟩ := h
  refine ⟨hist ++ [a], by rw [List.foldl_append]; rfl, hl, fun x hx => ?_⟩
  rcases List.mem_append.1 hx with hx | hx
  · exact ho x hx
  · simp only [List.mem_singleton] at hx; subst hx; exact ha

/-! ### The RocksDB datastore -/

namespace Rocks
variable {X : Cfg}

/-- Every method of the transaction, with any arguments (that can be read back), does what it should. -/
theorem call_run (O : IdentOrder) (c : TxnCall) (s : Rocks) (hi : Inv X s) (hv : c.ValuesOk (CanRead X)) :
    ((txn X O).call c s).2 = .ok (c.reply (graph X s)) ∧
    graph X ((txn X O).call c s).1 = c.effect (Sem.rocks X) (graph X s) ∧ InvM X (MetaOk s) ((txn X O).call c s).1 := by
  obtain ⟨hw, hval⟩ := hi
  have hr : Readable X s.kv := hval.readable
  have wr : ∀ (g : Graph) (p : Prog Unit), Writes X s g (p.run s) → p.All (BatchOk X (CanRead X)) (fun _ => True) →
      (Upd.map (fun _ => TxnReply.unit) (p.run s)).2 = .ok .unit ∧
      graph X (Upd.map (fun _ => TxnReply.unit) (p.run s)).1 = g ∧
        InvM X (MetaOk s) (Upd.map (fun _ => TxnReply.unit) (p.run s)).1 := by
    intro g p h1 h3
    have h4 := inv_of_all h3 hw hval
    exact ⟨by simp [Upd.map, h1.ok, Except.map], h1.graph, ⟨⟨h4.1, h4.2⟩, fun hmd => hmd.same h1.indexed h1.md⟩⟩
  cases c with
  | deleteVertices vs => exact wr _ _ (deleteVertices_run s hw hr vs).1 (all_deleteVertices vs)
  | deleteEdges es => exact wr _ _ (deleteEdges_run s hw hr es).1 (all_deleteEdges es)
  | deleteVertexProperties ps => exact wr _ _ (deleteVertexProperties_run s hr ps).1 (all_deleteVertexProperties _)
  | deleteEdgeProperties ps => exact wr _ _ (deleteEdgeProperties_run s hr ps).1 (all_deleteEdgeProperties _)
  | sync => exact ⟨rfl, rfl, ⟨⟨hw, hval⟩, id⟩⟩
  | createVertex v =>
    obtain ⟨h1, h2, h3, h4, h5⟩ := createVertex_run s hw v
    have h6 := inv_of_all (all_createVertex (X := X) (V := CanRead X) v) hw hval
    exact ⟨by simp [Transaction.call, txn, Upd.map, h1, Except.map, TxnCall.reply], h3,
      ⟨⟨h6.1, h6.2⟩, fun hmd => hmd.same h2 (fun k => h4 _ k (by decide))⟩⟩
  | createEdge e =>
    obtain ⟨h1, h2, h3, h4, h5⟩ := createEdge_run s hw e
    have h6 := inv_of_all (all_createEdge (X := X) (V := CanRead X) e) hw hval
    exact ⟨by simp [Transaction.call, txn, Upd.map, h1, Except.map, TxnCall.reply], h3,
      ⟨⟨h6.1, h6.2⟩, fun hmd => hmd.same h2 h4⟩⟩
  | bulkInsert items => exact wr _ _ (bulkInsert_run s hr items hv).1 (all_bulkInsert items hv)
  | setVertexProperties ids n v => exact wr _ _ (setVertexProperties_run s hr ids n v hv).1 (all_setVertexProperties _ n v hv)
  | setEdgeProperties es n v => exact wr _ _ (setEdgeProperties_run s hr es n v hv).1 (all_setEdgeProperties _ n v hv)
  | indexProperty n =>
    have h := dbStep_spec O (.indexProperty n) s ⟨hw, hval⟩ trivial
    obtain ⟨h1, h2⟩ := h.stepWith
    have h3 := h.inv
    refine ⟨?_, h1, h3⟩
    have h2' : (Upd.map (fun _ => Reply.unit) ((indexProperty X O n).run s)).2 = .ok .unit := h2
    show (Upd.map (fun _ => TxnReply.unit) ((indexProperty X O n).run s)).2 = .ok .unit
    simp only [Upd.map] at h2' ⊢
    generalize ((indexProperty X O n).run s).2 = y at h2' ⊢
    cases y with
    | ok a => rfl
    | error f => exact absurd h2' (by simp [Except.map])

theorem plugin_run (p : PluginProg) : ∀ (env : Nat → IdentOrder) (s : Rocks), Inv X s → p.ValuesOk (CanRead X) →
    PluginRun (Sem.rocks X) (conv X) (graph X s) p (graph X (plugin X env p s).1) (plugin X env p s).2 ∧
    InvM X (MetaOk s) (plugin X env p s).1 := by
  unfold plugin
  induction p with
  | ret r => intro env s hi _; exact ⟨.ret _ r, hi, id⟩
  | panic => intro env s hi _; exact ⟨.panic _, hi, id⟩
  | read k ih =>
    intro env s hi hv
    obtain ⟨h1, h2⟩ := ih (reads X s) (fun i => env (i + 1)) s hi (hv _)
    exact ⟨.read _ _ (faithful s hi.wf hi.values.readable) h1, h2⟩
  | write c k ih =>
    intro env s hi hv
    simp only [PluginProg.run]
    have hc := call_run (env 0) c s hi hv.1
    generalize (txn X (env 0)).call c s = u at hc ⊢
    obtain ⟨s', r⟩ := u
    obtain ⟨h1, h2, h3⟩ := hc
    simp only at h1 h2 h3
    subst h1
    obtain ⟨h4, h5⟩ := ih (.ok (c.reply (graph X s))) (fun i => env (i + 1)) s' h3.toInv (hv.2 _)
    exact ⟨.write (by rw [← h2]; exact h4), h5.toInv, fun h => h5.md (h3.md h)⟩

end Rocks

open Rocks

/-- The RocksDB datastore with plugins. -/
def rocksPlugins (X : Cfg) : PluginStore where
  toStore := rocksStore X
  PEnv := Nat → IdentOrder
  plugin := Rocks.plugin X

theorem rocksPlugins_inv {X : Cfg} {s : Rocks} (h : (rocksPlugins X).Reach s) : Inv X s ∧ MetaOk s := by
  obtain ⟨hist, rfl, _, ho⟩ := h
  have key : ∀ (hist : List (rocksPlugins X).Act) (s : Rocks), Inv X s → MetaOk s → (∀ a ∈ hist, a.Ok) →
      Inv X (hist.foldl (rocksPlugins X).act s) ∧ MetaOk (hist.foldl (rocksPlugins X).act s) := by
    intro hist
    induction hist with
    | nil => intro s h1 h2 _; exact ⟨h1, h2⟩
    | cons a r ih =>
      intro s h1 h2 ho
      have ha : a.Ok := ho a List.mem_cons_self
      have hs : Inv X ((rocksPlugins X).act s a) ∧ MetaOk ((rocksPlugins X).act s a) := by
        cases a with
        | call O op =>
          have := (Rocks.dbStep_spec O op s h1 ha).inv
          exact ⟨this.toInv, this.md h2⟩
        | plugin env p =>
          have := (Rocks.plugin_run p env s h1 ha).2
          exact ⟨this.toInv, this.md h2⟩
      exact ih _ hs.1 hs.2 (fun a h => ho a (List.mem_cons_of_mem _ h))
  exact key hist _ Inv.init MetaOk.init ho

end IndraDB
