import Verif.Proofs.Plugins
import Verif.Props.RocksRace
import Verif.Model.RocksOpen
/-
C66: databases on which plugins run. C67: plugins are not transactions.
-/
set_option linter.unusedSimpArgs false
namespace IndraDB
open Mem

instance : DecidableEq (Except PluginError Json)
  | .ok a, .ok b => if h : a = b then isTrue (by rw [h]) else isFalse (by intro h'; cases h'; exact h rfl)
  | .error a, .error b => if h : a = b then isTrue (by rw [h]) else isFalse (by intro h'; cases h'; exact h rfl)
  | .ok _, .error _ => isFalse (by intro h; cases h)
  | .error _, .ok _ => isFalse (by intro h; cases h)

/-! ### C66 -/

/-- C66, memory: whatever calls and plugins did before, calls and queries work exactly as they should (as long as the database is
usable), and plugins do to the graph what their code says. (Listing all properties of the vertex with the greatest id panics,
see C35.) -/
theorem C66_memory (b : Build) : (memPlugins b).StaysSane Sem.intended Order.lt (fun id => id = Uuid.max) ∧
    (memPlugins b).PluginsExact Sem.intended (memConv HashEq.byHash) := by
  constructor
  · intro d hr
    exact (memAnyConformsFrom b d (fun _ => (memPlugins_reach hr).2)).sane rfl (fun i h => by simpa [memConv] using h)
  · intro d hr env p _ hl
    obtain ⟨hp, hw⟩ := memPlugins_reach hr
    obtain ⟨h1, h2, h3⟩ := MemDb.plugin_eq (b := b) env p hp
    have hl' : (!(MemDb.plugin b env p d).1.poisoned) = true := hl
    rcases Mem.plugin_run (b := b) p env d.mem hw with ⟨h4, _⟩ | ⟨h4, _⟩
    · rw [h3.2 h4] at hl'; simp at hl'
    · show PluginRun _ _ _ _ (MemDb.plugin b env p d).1.mem.graph (MemDb.plugin b env p d).2
      rw [h1, h2]; exact h4

/-- C66, RocksDB. -/
theorem C66_rocks (X : Cfg) : (rocksPlugins X).StaysSane (Sem.rocks X) rocksEdgeLt (fun _ => False) ∧
    (rocksPlugins X).PluginsExact (Sem.rocks X) (Rocks.conv X) := by
  constructor
  · intro s hr
    exact (Rocks.conformsFrom X s (rocksPlugins_inv hr).1).sane (by funext a b; exact Rocks.edgeLt_eq a b)
      (fun i h => by simp [Rocks.conv] at h)
  · intro s hr env p hv _
    exact (Rocks.plugin_run p env s (rocksPlugins_inv hr).1 hv).1

/-- A plugin that counts its way through the database: creates the vertex of the given id, connects it to every vertex there is,
marks it, and returns the number of vertices it saw. -/
def W.linker : PluginProg :=
  .read (fun R => .write (.createVertex ⟨W.u 9, W.t⟩) (fun _ => .write (.bulkInsert [.edge ⟨W.u 9, W.t, W.u 1⟩])
    (fun _ => .write (.setVertexProperties [W.u 9, W.u 2] W.q (W.n 1)) (fun _ => .ret (.ok (.num (.posInt (Fin.ofNat _ R.vertexCount))))))))

/-- It runs on both databases, and its effect is visible in later queries. -/
example : (MemDb.plugin .debug (fun _ => (HashEq.byHash.finder, HashOrder.sorted)) W.linker (W.demo .debug)).2
      = .ok (.ok (.num (.posInt 2))) ∧
    (memStoreAny .debug).value (HashEq.byHash.finder, HashOrder.sorted) (.pipe (.specificVertex [W.u 9]) .outbound 9 none)
      (MemDb.plugin .debug (fun _ => (HashEq.byHash.finder, HashOrder.sorted)) W.linker (W.demo .debug)).1
      = .ok (.edges [⟨W.u 9, W.t, W.u 1⟩]) ∧
    (Rocks.plugin (W.cfg .debug) (fun _ => .sorted) W.linker (W.rdemo .debug)).2 = .ok (.ok (.num (.posInt 2))) ∧
    (RS .debug).value .sorted (.pipe (.specificVertex [W.u 9]) .outbound 9 none)
      (Rocks.plugin (W.cfg .debug) (fun _ => .sorted) W.linker (W.rdemo .debug)).1
      = .ok (.edges [⟨W.u 9, W.t, W.u 1⟩]) := by decide +kernel


/-! ### C67 -/

/-- A plugin that creates a vertex and then finds that its argument is bad. -/
def W.halfway : PluginProg := .write (.createVertex ⟨W.u 9, W.t⟩) (fun _ => .ret (.error (.invalidArgument "no")))

/-- C67 fails: a plugin that returns an error leaves the changes it made before, on both datastores. -/
theorem C67_memory_error_refuted (b : Build) (env : Nat → Finder × HashOrder) : (memPlugins b).Reach MemDb.new ∧
    (MemDb.plugin b env W.halfway MemDb.new).2 = .ok (.error (.invalidArgument "no")) ∧
    MemDb.new.mem.graph.vertex (W.u 9) = none ∧
    (MemDb.plugin b env W.halfway MemDb.new).1.mem.graph.vertex (W.u 9) = some W.t :=
  ⟨⟨[], rfl, rfl, fun _ h => nomatch h⟩, rfl, rfl, rfl⟩

theorem C67_rocks_error_refuted : (rocksPlugins (W.cfg .debug)).Reach Rocks.init ∧
    (Rocks.plugin (W.cfg .debug) (fun _ => .sorted) W.halfway Rocks.init).2 = .ok (.error (.invalidArgument "no")) ∧
    (Rocks.graph (W.cfg .debug) Rocks.init).vertex (W.u 9) = none ∧
    (Rocks.graph (W.cfg .debug) (Rocks.plugin (W.cfg .debug) (fun _ => .sorted) W.halfway Rocks.init).1).vertex (W.u 9) = some W.t :=
  ⟨⟨[], rfl, rfl, fun _ h => nomatch h⟩, by decide +kernel⟩

/-- C67 fails: a plugin that panics makes the memory datastore unusable, in every state: all further calls and plugins panic. -/
theorem C67_memory_panic_refuted (b : Build) (d : MemDb) (env : Nat → Finder × HashOrder) :
    (MemDb.plugin b env .panic d).2 = .error .panic ∧
    (∀ e op, ((memStoreAny b).step e op (MemDb.plugin b env .panic d).1).2 = .error .panic) ∧
    (∀ env' p, (MemDb.plugin b env' p (MemDb.plugin b env .panic d).1).2 = .error .panic) := by
  have h : (MemDb.plugin b env .panic d).1.poisoned = true ∧ (MemDb.plugin b env .panic d).2 = .error .panic := by
    unfold MemDb.plugin
    cases hp : d.poisoned with
    | true => rw [if_pos rfl]; exact ⟨hp, rfl⟩
    | false => rw [if_neg (by simp)]; exact ⟨rfl, rfl⟩
  refine ⟨h.2, fun e op => ?_, fun env' p => ?_⟩
  · show (MemDb.step e.1 b e.2 op _).2 = _
    unfold MemDb.step
    rw [if_pos h.1]
  · generalize (MemDb.plugin b env .panic d).1 = d' at h
    unfold MemDb.plugin
    rw [if_pos h.1]

/-- A plugin that creates the vertex `u` if there is none, and says whether it did. -/
def W.first (u : Uuid) : PluginProg := .read (fun R =>
  if R.vertexCount = 0 then .write (.createVertex ⟨u, W.t⟩) (fun _ => .ret (.ok (.bool true))) else .ret (.ok (.bool false)))

/-- C67 fails: on the RocksDB datastore plugins that run at the same time disturb each other. One after the other, in either order,
only one of these two creates a vertex; overlapping, both do. -/
theorem C67_rocks_isolated_refuted :
    (∀ u v, (u, v) = (W.u 1, W.u 2) ∨ (u, v) = (W.u 2, W.u 1) →
      (Rocks.plugin (W.cfg .debug) (fun _ => .sorted) (W.first v)
        (Rocks.plugin (W.cfg .debug) (fun _ => .sorted) (W.first u) Rocks.init).1).2 = .ok (.ok (.bool false))) ∧
    ∃ t, Rocks.PluginsRun (W.cfg .debug) (Rocks.init, fun i => if i = 0 then W.first (W.u 1) else W.first (W.u 2)) t ∧
      t.2 0 = .ret (.ok (.bool true)) ∧ t.2 1 = .ret (.ok (.bool true)) ∧
      (RS .debug).value .sorted .allVertex t.1 = .ok (.vertices [⟨W.u 1, W.t⟩, ⟨W.u 2, W.t⟩]) := by
  constructor
  · rintro u v (h | h) <;> obtain ⟨rfl, rfl⟩ := Prod.mk.inj h <;> decide +kernel
  · have r0 : ((Rocks.txn (W.cfg .debug) .sorted).reads Rocks.init).vertexCount = 0 := by decide +kernel
    have e := Rocks.PluginsRun.refl (X := W.cfg .debug)
      (Rocks.init, fun i => if i = 0 then W.first (W.u 1) else W.first (W.u 2))
    have e := e.step (.read _ _ 0 .sorted _ rfl)
    have e := e.step (.read _ _ 1 .sorted _ rfl)
    simp only [r0, if_true, if_false] at e
    have e := e.step (.write _ _ 0 .sorted _ _ rfl)
    have e := e.step (.write _ _ 1 .sorted _ _ rfl)
    have h1 : ((Rocks.txn (W.cfg .debug) .sorted).call (.createVertex ⟨W.u 1, W.t⟩) Rocks.init).2 = .ok (.bool true) := by
      decide +kernel
    have h2 : ((Rocks.txn (W.cfg .debug) .sorted).call (.createVertex ⟨W.u 2, W.t⟩)
        ((Rocks.txn (W.cfg .debug) .sorted).call (.createVertex ⟨W.u 1, W.t⟩) Rocks.init).1).2 = .ok (.bool true) := by
      decide +kernel
    refine ⟨_, e, ?_, ?_, ?_⟩
    · simp [h1]
    · simp [h2]
    · decide +kernel

/-- C67 fails: if the process dies while a plugin runs on the RocksDB datastore, a part of its changes is there when the database is
opened again: here the vertex that `linker` creates, but not the edge. -/
theorem C67_rocks_crash_refuted : ∃ t t', Rocks.PluginsRun (W.cfg .debug) (W.rdemo .debug, fun _ => W.linker) t ∧
    (Rocks.newDb (Rocks.Dir.full t.1.kv)).2 = .ok t' ∧
    (Rocks.graph (W.cfg .debug) t').vertex (W.u 9) = some W.t ∧ (Rocks.graph (W.cfg .debug) t').edge ⟨W.u 9, W.t, W.u 1⟩ = false := by
  have e := Rocks.PluginsRun.refl (X := W.cfg .debug) (W.rdemo .debug, fun _ => W.linker)
  have e := e.step (.read _ _ 0 .sorted _ rfl)
  have e := e.step (.write _ _ 0 .sorted _ _ rfl)
  have h : ∃ t', (Rocks.newDb (Rocks.Dir.full ((Rocks.txn (W.cfg .debug) .sorted).call (.createVertex ⟨W.u 9, W.t⟩)
      (W.rdemo .debug)).1.kv)).2 = .ok t' ∧
    (Rocks.graph (W.cfg .debug) t').vertex (W.u 9) = some W.t ∧ (Rocks.graph (W.cfg .debug) t').edge ⟨W.u 9, W.t, W.u 1⟩ = false := by
    have key : ∀ r : Res Rocks, r = (Rocks.newDb (Rocks.Dir.full ((Rocks.txn (W.cfg .debug) .sorted).call (.createVertex ⟨W.u 9, W.t⟩)
      (W.rdemo .debug)).1.kv)).2 → (match r with
        | .ok t' => decide ((Rocks.graph (W.cfg .debug) t').vertex (W.u 9) = some W.t ∧
            (Rocks.graph (W.cfg .debug) t').edge ⟨W.u 9, W.t, W.u 1⟩ = false)
        | .error _ => false) = true := by
      rintro _ rfl
      decide +kernel
    have := key _ rfl
    generalize (Rocks.newDb (Rocks.Dir.full ((Rocks.txn (W.cfg .debug) .sorted).call (.createVertex ⟨W.u 9, W.t⟩)
      (W.rdemo .debug)).1.kv)).2 = r at this ⊢
    cases r with
    | ok t' => exact ⟨t', rfl, of_decide_eq_true this⟩
    | error f => exact absurd this (by simp)
  obtain ⟨t', h1, h2⟩ := h
  exact ⟨_, t', e, h1, h2⟩

/-- What is true of C67: a plugin that only reads changes nothing, however it ends (a panic still poisons the memory datastore). -/
theorem C67_memory_read_only_partial (b : Build) (p : PluginProg) (hp : p.ReadOnly) (env : Nat → Finder × HashOrder) (d : MemDb) :
    (MemDb.plugin b env p d).1.mem = d.mem := by
  have key : ∀ (p : PluginProg), p.ReadOnly → ∀ (T : Nat → Transaction Mem) (m : Mem), (p.run T m).1 = m := by
    intro p
    induction p with
    | ret r => intro _ T m; rfl
    | panic => intro _ T m; rfl
    | read k ih => intro h T m; exact ih _ (h _) _ m
    | write c k ih => intro h; exact h.elim
  cases h : d.poisoned with
  | true => unfold MemDb.plugin; rw [if_pos h]
  | false => rw [(MemDb.plugin_eq (b := b) env p h).1]; exact key p hp _ _

theorem C67_rocks_read_only_partial (X : Cfg) (p : PluginProg) (hp : p.ReadOnly) (env : Nat → IdentOrder) (s : Rocks) :
    (Rocks.plugin X env p s).1 = s := by
  have key : ∀ (p : PluginProg), p.ReadOnly → ∀ (T : Nat → Transaction Rocks) (m : Rocks), (p.run T m).1 = m := by
    intro p
    induction p with
    | ret r => intro _ T m; rfl
    | panic => intro _ T m; rfl
    | read k ih => intro h T m; exact ih _ (h _) _ m
    | write c k ih => intro h; exact h.elim
  exact key p hp _ _

/-- What is true of C67: a plugin that returns, with a result or with an error, leaves the memory datastore usable. -/
theorem C67_memory_usable_partial (b : Build) (p : PluginProg) (env : Nat → Finder × HashOrder) (d : MemDb)
    (h : (memPlugins b).Reach d) (r : Except PluginError Json) (hr : (MemDb.plugin b env p d).2 = .ok r) (hv : p.ValuesOk (fun _ => True)) :
    (memPlugins b).Reach (MemDb.plugin b env p d).1 := by
  have hp := (memPlugins_reach h).1
  have he := MemDb.plugin_eq (b := b) env p hp
  refine h.snoc (.plugin env p) hv ?_
  show (!(MemDb.plugin b env p d).1.poisoned) = true
  have : (MemDb.plugin b env p d).1.poisoned ≠ true := by
    intro hc
    have := he.2.2.1 hc
    rw [← he.2.1, hr] at this
    cases this
  simpa using this

/-- What is true of C67: however plugins overlap on the RocksDB datastore and however they end, at every moment calls and queries work
exactly as they should on the graph there is. -/
theorem C67_rocks_sane_partial (X : Cfg) (s : Rocks) (hs : (rocksPlugins X).Reach s) (P : Nat → PluginProg)
    (hP : ∀ c, (P c).ValuesOk (Rocks.CanRead X)) (t : Rocks) (Q : Nat → PluginProg) (h : Rocks.PluginsRun X (s, P) (t, Q)) :
    (((rocksPlugins X).toStore).From t).Sane (Sem.rocks X) rocksEdgeLt (fun _ => False) := by
  have key : ∀ a, Rocks.PluginsRun X (s, P) a → Rocks.Inv X a.1 ∧ ∀ c, (a.2 c).ValuesOk (Rocks.CanRead X) := by
    intro a ha
    induction ha with
    | refl => exact ⟨(rocksPlugins_inv hs).1, hP⟩
    | step _ hst ih =>
      obtain ⟨hi, hv⟩ := ih
      cases hst with
      | read s P c O k hc =>
        refine ⟨hi, fun i => ?_⟩
        show PluginProg.ValuesOk _ (if i = c then _ else _)
        split
        · have := hv c
          simp only [hc] at this
          exact this _
        · exact hv i
      | write s P c O w k hc =>
        have hw := hv c
        simp only [hc] at hw
        obtain ⟨h1, _, h3⟩ := Rocks.call_run O w s hi hw.1
        refine ⟨h3.toInv, fun i => ?_⟩
        show PluginProg.ValuesOk _ (if i = c then _ else _)
        split
        · rw [h1]; exact hw.2 _
        · exact hv i
  exact (Rocks.conformsFrom X t (key _ h).1).sane (by funext a b; exact Rocks.edgeLt_eq a b)
    (fun i h => by simp [Rocks.conv] at h)

end IndraDB
