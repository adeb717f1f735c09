import Verif.Proofs.RocksSeq
import Verif.Proofs.RocksOpen
import Verif.Props.Rocks
/-
The RocksDB datastore used concurrently, crashing, and reopened: C04 (all interleavings), C29, C30, C31, C34, C51.
-/
set_option linter.unusedSimpArgs false
namespace IndraDB
open Rocks Rocks.Conc LockConc

variable (X : Cfg)

/-! ### Whatever the interleaving -/

/-- C04 for RocksDB under concurrency: whatever calls overlap however, in every state reached (and in all states reached
from it afterwards) the outbound edges of one vertex and the inbound edges of the other agree. -/
theorem C04_rocks_concurrent (h : List Ev) (S : Conc) (hx : Exec X Rocks.init h S) (ho : OkCalls (CanRead X) h) :
    (rocksStoreFrom X (CanRead X) S.db).TraversalSymmetric :=
  (conformsFrom X S.db (Inv.exec hx ho)).traversalSymmetric

/-- Concurrent calls never damage the tables: from every state reached, with calls still under way or not, queries have
exactly the meaning of C16-C22, and created vertices and edges, set and deleted properties are exact (C02, C07, C08). -/
theorem C04_rocks_concurrent_more (h : List Ev) (S : Conc) (hx : Exec X Rocks.init h S) (ho : OkCalls (CanRead X) h) :
    let T := rocksStoreFrom X (CanRead X) S.db
    T.VertexQueriesExact ∧ T.PipeEdgesExact ∧ T.CountExact ∧ T.IncludeExact ∧ T.FiltersPartition ∧ T.BuiltQueriesWork ∧
    T.CreateVertexFromTypeExact ∧ T.CreateEdgeExact ∧ T.SetPropertiesExact X.stored ∧ T.DeletePropertiesExact ∧
    T.DeleteVerticesIs Graph.rocksDropVertices := by
  intro T
  have C := conformsFrom X S.db (Inv.exec hx ho)
  exact ⟨C.vertexQueries, C.pipeEdges, C.countExact, C.includeExact, C.filtersPartition, C.builtQueriesWork,
    C.createVertexFromType, C.createEdge, C.setProperties, C.deleteProperties, C.deleteVertices⟩

/-! ### An execution: two calls create the same vertex at the same time -/

/-- The history. -/
def W.race : List Ev := [.call 0 (.createVertex ⟨W.u 1, W.t⟩), .call 1 (.createVertex ⟨W.u 1, W.t2⟩),
  .ret 0 (.ok (.bool true)), .ret 1 (.ok (.bool true))]

/-- Both calls look for the vertex before either has written it. -/
theorem W.race_exec : ∃ S, Exec X Rocks.init W.race S ∧
    (S.db.kv .vertices).get (vertexKey X (W.u 1)) = some (build X.H [.identifier W.t2]) ∧ S.log.length = 2 := by
  have e := Exec.nil (X := X) (s := Rocks.init)
  have e := e.snoc (.call _ 0 .sorted (.createVertex ⟨W.u 1, W.t⟩) rfl)
  have e := e.snoc (.call _ 1 .sorted (.createVertex ⟨W.u 1, W.t2⟩) rfl)
  have e := e.snoc (.get _ 0 _ _ _ rfl)
  have e := e.snoc (.get _ 1 _ _ _ rfl)
  have e := e.snoc (.write _ 0 _ _ rfl)
  have e := e.snoc (.write _ 1 _ _ rfl)
  have e := e.snoc (.ret _ 0 _ rfl (by simp [Conc.init]) (by simp [Conc.init]))
  have e := e.snoc (.ret _ 1 _ rfl (by simp [Conc.init]) (by simp [Conc.init]))
  exact ⟨_, e, by simp [Conc.init, Rocks.init, KV.write, KV.apply, KV.set, vertexCreate, KV.empty], rfl⟩

example : OkCalls (CanRead X) W.race := by
  intro c op h
  simp [W.race] at h
  rcases h with ⟨_, rfl⟩ | ⟨_, rfl⟩ <;> trivial

/-! ### C29: crashes -/

/-- In every concurrent execution, what is on disk is the result of the batches written so far, at most one per call;
and a call that has written its batch succeeds. So a failing call leaves nothing on disk, and a call is never half
applied, however many keys it writes. -/
theorem C29_rocks_log (h : List Ev) (S : Conc) (s : Rocks) (hx : Exec X s h S) :
    S.db.kv = replay s.kv S.log ∧ (S.log.map (·.1)).Nodup ∧
    (∀ c ∈ S.log.map (·.1), ∃ op, Ev.call c op ∈ h) ∧
    (∀ c ∈ S.log.map (·.1), ∀ r, Ev.ret c r ∈ h → ∃ a, r = .ok a) := by
  have G := LogInv.exec hx
  have N := NumInv.exec hx
  refine ⟨G.kv, G.nodup, ?_, ?_⟩
  · intro c hc
    rcases G.wrote c hc with ⟨a, ha⟩ | ⟨ha, _⟩
    · exact (N.running c _ ha).1
    · exact (N.finished c ha).1
  · intro c hc r hr
    rcases G.wrote c hc with ⟨a, ha⟩ | ⟨ha, a, h2⟩
    · exact absurd hr ((N.running c _ ha).2 r)
    · exact ⟨a, (N.rets c _ h2).2.2 r hr⟩

theorem Store.Legal.reach {S : Store} {L : List S.Lin} : ∀ {s t : S.State}, S.Legal s L t →
    t = S.run (L.map (fun x => (x.env, x.op))) s := by
  induction L with
  | nil => intro s t h; exact h.symm
  | cons x L ih => intro s t h; exact ih h.2

/-- The state after a legal sequence of calls of the history is a reachable one. -/
theorem Rocks.legal_reach {h : List Ev} (ho : OkCalls (CanRead X) h) {L : List (rocksStore X).Lin} {t : Rocks}
    (hl : (rocksStore X).Legal Rocks.init L t) (hc : ∀ x ∈ L, Ev.call x.c x.op ∈ h) : (rocksStore X).Reach t := by
  refine ⟨L.map (fun x => (x.env, x.op)), hl.reach, rfl, ?_⟩
  intro p hp
  obtain ⟨x, hx, rfl⟩ := List.mem_map.1 hp
  exact ho _ _ (hc x hx)

/-- If calls that write do not overlap each other, then as far as they and the queries that read once are concerned,
overlapping calls are independent. -/
theorem SeqWrites.apart {h : List Ev} (hq : SeqWrites h) : Apart Counts h := by
  intro a b c op he hP c' op' hm hP'
  rcases hP with hw | ho
  · rcases hP' with hw' | ho'
    · exact Or.inl (hq a b c op he hw c' op' hm hw')
    · exact Or.inr (Or.inl ho')
  · exact Or.inr (Or.inr (Or.inl ho))

/-- C29, the process dies: at any moment of any execution in which calls that overlap are independent (as far as the calls
in `P` are concerned, which include all that may write), opening the database again gives exactly the state after a sequence
`L` of whole calls: all that have returned, in order, with the outcomes they had, and possibly some under way. -/
theorem C29_rocks_process (P : Op → Prop) (hP : ∀ op, op.isWrite = true → P op) (h : List Ev) (S : Conc)
    (hx : Exec X Rocks.init h S) (hq : Apart P h) (ho : OkCalls (CanRead X) h) :
    ∃ L t, (rocksStore X).Linearization P h L t ∧ (rocksStore X).Reach t ∧
      (t.indexed.elems.length < 2 ^ 64 → (newDb (Dir.full S.db.kv)).2 = .ok t) := by
  obtain ⟨L, t, H⟩ := WInv.exec (V := CanRead X) hx hP hq
  have hr := Rocks.legal_reach X ho H.lin.legal (fun x hx => (H.lin.called x hx).1)
  refine ⟨L, t, H.lin, hr, fun hn => ?_⟩
  rw [H.kv]
  exact load_full (md_reach hr) hn

/-- C29, power is lost, so that only the first `k` batches survive: opening the database again gives exactly the state after
a prefix of the calls. -/
theorem C29_rocks_power (P : Op → Prop) (hP : ∀ op, op.isWrite = true → P op) (h : List Ev) (S : Conc)
    (hx : Exec X Rocks.init h S) (hq : Apart P h) (ho : OkCalls (CanRead X) h) (k : Nat) (hk : k ≤ S.log.length) :
    ∃ L t L' t', (rocksStore X).Linearization P h L t ∧ L' <+: L ∧ (rocksStore X).Legal Rocks.init L' t' ∧
      (rocksStore X).Reach t' ∧
      (t'.indexed.elems.length < 2 ^ 64 → (newDb (Dir.full (replay Rocks.init.kv (S.log.take k)))).2 = .ok t') := by
  obtain ⟨L, t, H⟩ := WInv.exec (V := CanRead X) hx hP hq
  obtain ⟨L', t', h1, h2, h3⟩ := H.crash k hk
  have hr := Rocks.legal_reach X ho h2 (fun x hx => (H.lin.called x (h1.subset hx)).1)
  refine ⟨L, t, L', t', H.lin, h1, h2, hr, fun hn => ?_⟩
  rw [← h3]
  exact load_full (md_reach hr) hn

/-- C29 for all values, also unreadable ones, and all databases to begin with: the stored data is that after a prefix of
the calls. -/
theorem C29_rocks_data (P : Op → Prop) (hP : ∀ op, op.isWrite = true → P op) (s : Rocks) (h : List Ev) (S : Conc)
    (hx : Exec X s h S) (hq : Apart P h) (k : Nat) (hk : k ≤ S.log.length) :
    ∃ L t L' t', (rocksStoreFrom X (fun _ => True) s).Linearization P h L t ∧ S.db.kv = t.kv ∧ L' <+: L ∧
      (rocksStoreFrom X (fun _ => True) s).Legal s L' t' ∧ t'.kv = replay s.kv (S.log.take k) := by
  obtain ⟨L, t, H⟩ := WInv.exec (V := fun _ => True) hx hP hq
  obtain ⟨L', t', h1, h2, h3⟩ := H.crash k hk
  exact ⟨L, t, L', t', H.lin, H.kv, h1, h2, h3⟩

/-- An execution with a query overlapping the creation of a vertex, and then the creation of an edge under way. -/
example : ∃ S, Exec X Rocks.init [.call 0 (.createVertex ⟨W.u 1, W.t⟩), .call 1 (.get .allVertex),
      .ret 0 (.ok (.bool true)), .ret 1 (.ok (.outputs [.vertices []])), .call 2 (.createEdge W.e11)] S ∧
    S.log.length = 1 := by
  have e := Exec.nil (X := X) (s := Rocks.init)
  have e := e.snoc (.call _ 0 .sorted (.createVertex ⟨W.u 1, W.t⟩) rfl)
  have e := e.snoc (.call _ 1 .sorted (.get .allVertex) rfl)
  have e := e.snoc (.get _ 0 _ _ _ rfl)
  have e := e.snoc (.scan _ 1 _ _ _ rfl)
  have e := e.snoc (.write _ 0 _ _ rfl)
  have e := e.snoc (.ret _ 0 _ rfl (by simp [Conc.init]) (by simp [Conc.init]))
  have e := e.snoc (.ret _ 1 _ rfl (by simp [Conc.init]) (by simp [Conc.init]))
  have e := e.snoc (.call _ 2 .sorted (.createEdge W.e11) rfl)
  have e := e.snoc (.get _ 2 _ _ _ rfl)
  exact ⟨_, e, rfl⟩

example : SeqWrites [.call 0 (.createVertex ⟨W.u 1, W.t⟩), .call 1 (.get .allVertex),
      .ret 0 (.ok (.bool true)), .ret 1 (.ok (.outputs [.vertices []])), .call 2 (.createEdge W.e11)] := by
  intro a b c op he hw c' op' hm hw'
  rcases a with _ | ⟨x1, _ | ⟨x2, _ | ⟨x3, _ | ⟨x4, _ | ⟨x5, a⟩⟩⟩⟩⟩
  · cases hm
  · simp at he; obtain ⟨_, ⟨_, rfl⟩, _⟩ := he; cases hw
  · simp at he
  · simp at he
  · simp at he
    obtain ⟨rfl, rfl, rfl, rfl, _⟩ := he
    simp at hm
    rcases hm with ⟨rfl, rfl⟩ | ⟨rfl, rfl⟩
    · exact ⟨.ok (.bool true), by simp⟩
    · cases hw'
  · simp at he

/-! ### C30: reopening -/

/-- What is true of C30: after any history of calls that write readable values, closing and reopening gives the very same
state: all tables and the set of indexed names (so by C12 also working indexes). Missing: histories with unreadable values,
after which `index_property` may have failed (`C30_rocks_refuted`). -/
theorem C30_rocks_partial (s : Rocks) (hr : (rocksStore X).Reach s) (hn : s.indexed.elems.length < 2 ^ 64) :
    newDb (Dir.full s.kv) = ([Dir.full s.kv], .ok s) := by
  rw [newDb_full, load_full (md_reach hr) hn]

example : (W.rdemo .debug).indexed.elems = [W.p] ∧ (newDb (Dir.full (W.rdemo .debug).kv)).1.length = 1 := by
  decide +kernel

/-- Opening an existing database never changes its data. -/
theorem C30_rocks_data (kv : KV) : (newDb (Dir.full kv)).1 = [Dir.full kv] ∧
    ∀ s, (newDb (Dir.full kv)).2 = .ok s → s.kv = kv := by
  refine ⟨rfl, ?_⟩
  intro s h
  rw [newDb_full] at h
  simp only [load, Dir.full] at h
  split at h
  · cases h; rfl
  · cases h

/-- C30 fails if a stored value cannot be read: a name then counts as indexed after a failed `index_property`, and does not
after reopening. -/
theorem C30_rocks_refuted (v : Json) (hv : ¬ CanRead X v) :
    let S := rocksStoreOf X (fun _ => True)
    let s := S.run (W.calm [.createVertex ⟨W.u 1, W.t⟩, .setProperties (.specificVertex [W.u 1]) W.p v, .indexProperty W.p])
      Rocks.init
    S.Reach s ∧ s.indexed.contains W.p = true ∧
    ∃ s', (newDb (Dir.full s.kv)).2 = .ok s' ∧ s'.indexed.contains W.p = false := by
  intro S s
  have hd : X.codec.dec (X.codec.enc v) = none := by
    cases h : X.codec.dec (X.codec.enc v) with
    | none => rfl
    | some w => exact absurd ⟨w, h⟩ hv
  let s1 := S.run (W.calm [.createVertex ⟨W.u 1, W.t⟩, .setProperties (.specificVertex [W.u 1]) W.p v]) Rocks.init
  have h2 : (s1.kv .vertexProperties).get (vpKey X (W.u 1) W.p) = some (X.codec.enc v) := by
    obtain ⟨H, c, b⟩ := X; cases b <;> kernel_rfl
  have h3 : s1.indexed = SMap.empty := by
    obtain ⟨H, c, b⟩ := X; cases b <;> kernel_rfl
  have hs : (indexProperty X .sorted W.p).run s1 =
      ({ s1 with indexed := SSet.add SMap.empty W.p }, .error (.err .datastore)) := by
    have e1 : (vertexIterate X Uuid.nil).run { s1 with indexed := SSet.add SMap.empty W.p } =
        ({ s1 with indexed := SSet.add SMap.empty W.p }, .ok [.ok ⟨W.u 1, W.t⟩]) := by
      obtain ⟨H, c, b⟩ := X; cases b <;> kernel_rfl
    exact indexProperty_bad X s1 hd h2 h3 e1
  have hs2 : s = { s1 with indexed := SSet.add SMap.empty W.p } := by
    have e : s = (Upd.map (fun _ => Reply.unit) ((indexProperty X .sorted W.p).run s1)).1 := by kernel_rfl
    rw [e, hs]; rfl
  refine ⟨⟨_, rfl, rfl, ?_⟩, ?_, ?_⟩
  · refine List.forall_mem_cons.2 ⟨trivial, List.forall_mem_cons.2 ⟨trivial, List.forall_mem_cons.2 ⟨trivial,
      fun _ h => nomatch h⟩⟩⟩
  · rw [hs2]; exact (by decide : SMap.contains (SSet.add SMap.empty W.p) W.p = true)
  · refine ⟨⟨s.kv, SMap.empty⟩, ?_, rfl⟩
    rw [newDb_full]
    have hm : (s.kv .metadata).get metaKey = none := by
      rw [hs2]
      show (s1.kv .metadata).get metaKey = none
      obtain ⟨H, c, b⟩ := X; cases b <;> kernel_rfl
    simp only [load, Dir.full, getIndexed_none (s := ⟨s.kv, SMap.empty⟩) hm]

/-! ### C31: interrupted creation -/

/-- A new directory becomes an empty database with all column families. -/
theorem C31_rocks_create : (newDb none).2 = .ok Rocks.init ∧ Dir.after none = Dir.full KV.empty := ⟨rfl, rfl⟩

/-- C31 in full: whatever the directory looks like when creation is interrupted, opening it again succeeds. -/
def CreationRecoverable : Prop := ∀ d ∈ (newDb none).1, ∃ s, (newDb d).2 = .ok s

/-- C31 fails: after an interruption when some but not all column families exist, opening fails, and leaves the directory as
it is, so that it fails forever. -/
theorem C31_rocks_refuted : ¬ CreationRecoverable ∧
    ∃ d ∈ (newDb none).1, (newDb d).2 = .error (.err .datastore) ∧ ∀ d' ∈ (newDb d).1, d' = d := by
  have hm : some ([CF.vertices], KV.empty) ∈ (newDb none).1 := by
    show _ ∈ [_, _, some ([CF.vertices], KV.empty), _, _, _, _, _, _, _]
    simp
  refine ⟨?_, _, hm, rfl, ?_⟩
  · intro h
    obtain ⟨s, hs⟩ := h _ hm
    cases hs
  · intro d' hd
    have : d' ∈ [some ([CF.vertices], KV.empty), some ([CF.vertices], KV.empty)] := hd
    simpa using this

/-- What is true of C31, exactly: if `k` of the column families exist, opening succeeds if and only if `k` is 0 or all of
them (and the set of indexed names can be decoded); then the data is kept. Missing: the other interruption points. -/
theorem C31_rocks_partial (k : Nat) (kv : KV) (hm : (kv .metadata).get metaKey = none) :
    ((∃ s, (newDb (some (cfNames.take k, kv))).2 = .ok s) ↔ k = 0 ∨ cfNames.length ≤ k) ∧
    ((k = 0 ∨ cfNames.length ≤ k) → (newDb (some (cfNames.take k, kv))).2 = .ok ⟨kv, SMap.empty⟩) := by
  have hl : ∀ cfs, load (some (cfs, kv)) = .ok ⟨kv, SMap.empty⟩ := by
    intro cfs
    simp only [load, getIndexed_none (s := ⟨kv, SMap.empty⟩) hm]
  by_cases hk : cfNames.length ≤ k
  · have ht : cfNames.take k = cfNames := List.take_of_length_le hk
    rw [ht]
    have : (newDb (some (cfNames, kv))).2 = .ok ⟨kv, SMap.empty⟩ := by
      rw [← hl cfNames]; rfl
    exact ⟨⟨fun _ => Or.inr hk, fun _ => ⟨_, this⟩⟩, fun _ => this⟩
  · have hk' : k < 8 := by simpa [cfNames] using hk
    match k, hk' with
    | 0, _ =>
      have : (newDb (some (cfNames.take 0, kv))).2 = .ok ⟨kv, SMap.empty⟩ := by
        rw [← hl cfNames]; rfl
      exact ⟨⟨fun _ => Or.inl rfl, fun _ => ⟨_, this⟩⟩, fun _ => this⟩
    | 1, _ | 2, _ | 3, _ | 4, _ | 5, _ | 6, _ | 7, _ =>
      refine ⟨⟨?_, ?_⟩, ?_⟩
      · rintro ⟨s, hs⟩; cases hs
      · rintro (h | h) <;> simp [cfNames] at h
      · rintro (h | h) <;> simp [cfNames] at h

/-- The directories in which creation can be interrupted are of this form. -/
theorem C31_rocks_points : ∀ d ∈ (newDb none).1, ∃ k, d = some (cfNames.take k, KV.empty) := by
  have h : (newDb none).1 = [0, 0, 1, 2, 3, 4, 5, 6, 7, 8].map (fun k => some (cfNames.take k, KV.empty)) := rfl
  intro d hd
  rw [h] at hd
  obtain ⟨k, _, rfl⟩ := List.mem_map.1 hd
  exact ⟨k, rfl⟩

/-! ### C34: linearizability -/

theorem step_createVertex (s : Rocks) (O : IdentOrder) (v : Vertex) : Rocks.step X O (.createVertex v) s =
    if (s.kv .vertices).contains (vertexKey X v.id) = true then (s, .ok (.bool false))
    else ({ s with kv := s.kv.write (vertexCreate X v) }, .ok (.bool true)) := by
  have : Rocks.step X O (.createVertex v) s = Upd.map Reply.bool ((createVertex X v).run s) := rfl
  rw [this, createVertex_eq]
  split <;> rfl

/-- Once the vertex exists, no call that creates it returns `true`. -/
theorem no_second {L : List (rocksStore X).Lin} (i : Uuid) (hL : ∀ x ∈ L, ∃ t, x.op = .createVertex ⟨i, t⟩) :
    ∀ s t, (rocksStore X).Legal s L t → (s.kv .vertices).contains (vertexKey X i) = true →
    ∀ x ∈ L, x.r = .ok (.bool false) := by
  induction L with
  | nil => intro s t _ _ x hx; cases hx
  | cons y L ih =>
    intro s t hl hc x hx
    obtain ⟨ty, hy⟩ := hL y List.mem_cons_self
    have hst : (rocksStore X).step y.env y.op s = (s, .ok (.bool false)) := by
      rw [hy]
      exact (step_createVertex X s y.env ⟨i, ty⟩).trans (if_pos hc)
    obtain ⟨h1, h2⟩ := hl
    rw [hst] at h1 h2
    rcases List.mem_cons.1 hx with rfl | hx
    · exact h1.symm
    · exact ih (fun z hz => hL z (List.mem_cons_of_mem _ hz)) s t h2 hc x hx

/-- C34 fails for every hash and codec: two overlapping calls that create the same vertex both return `true`. -/
theorem C34_rocks_refuted : ∃ h S, Exec X Rocks.init h S ∧ OkCalls (CanRead X) h ∧
    ∀ t, ¬ (rocksStore X).Linearizable h t := by
  obtain ⟨S, hx, _⟩ := W.race_exec X
  refine ⟨_, S, hx, ?_, ?_⟩
  · intro c op h
    simp [W.race] at h
    rcases h with ⟨_, rfl⟩ | ⟨_, rfl⟩ <;> trivial
  · rintro t ⟨L, H⟩
    obtain ⟨e0, h0⟩ := H.returned 0 (.createVertex ⟨W.u 1, W.t⟩) (.ok (.bool true)) (by simp [W.race]) trivial (by simp [W.race])
    obtain ⟨e1, h1⟩ := H.returned 1 (.createVertex ⟨W.u 1, W.t2⟩) (.ok (.bool true)) (by simp [W.race]) trivial (by simp [W.race])
    have hop : ∀ x ∈ L, ∃ t, x.op = .createVertex ⟨W.u 1, t⟩ := by
      intro x hx
      have h := (H.called x hx).1
      simp [W.race] at h
      rcases h with ⟨_, h⟩ | ⟨_, h⟩ <;> exact ⟨_, h⟩
    have hl := H.legal
    cases L with
    | nil => cases h0
    | cons y L =>
      obtain ⟨ty, hy⟩ := hop y List.mem_cons_self
      have hc : (((rocksStore X).step y.env y.op (rocksStore X).init).1.kv .vertices).contains (vertexKey X (W.u 1)) = true := by
        have e : (rocksStore X).step y.env (.createVertex ⟨W.u 1, ty⟩) (rocksStore X).init = _ :=
          (step_createVertex X Rocks.init y.env ⟨W.u 1, ty⟩).trans
            (if_neg (by simp [Rocks.init, KV.empty, SMap.contains]))
        rw [hy, e]
        simp [KV.write, KV.apply, KV.set, vertexCreate, SMap.contains]
      have hn := no_second X (W.u 1) (fun z hz => hop z (List.mem_cons_of_mem _ hz)) _ _ hl.2 hc
      have k0 : y.c = 0 := by
        rcases List.mem_cons.1 h0 with h | h
        · rw [← h]
        · exact absurd (hn _ h) (by simp)
      have k1 : y.c = 1 := by
        rcases List.mem_cons.1 h1 with h | h
        · rw [← h]
        · exact absurd (hn _ h) (by simp)
      rw [k0] at k1; cases k1

/-- What is true of C34: take any calls `P` that include all that may write. If of these only independent ones overlap –
neither changes anything the other looks at, or one is a query that reads once (all vertices, a range, all edges, their
counts), or both are queries – then these calls are linearizable, whatever other queries overlap them; and when no call that
may write is under way, the state is that of the sequential execution. Missing: overlapping calls one of which changes what
the other looks at (`C34_rocks_refuted`), or may do so. -/
theorem C34_rocks_partial (P : Op → Prop) (hP : ∀ op, op.isWrite = true → P op) (s : Rocks) (V : Json → Prop) (h : List Ev)
    (S : Conc) (hx : Exec X s h S) (hq : Apart P h) :
    ∃ L t, (rocksStoreFrom X V s).Linearization P h L t ∧
      ((∀ c op, Ev.call c op ∈ h → op.isWrite = true → ∃ r, Ev.ret c r ∈ h) → S.db = t) := by
  obtain ⟨L, t, H⟩ := WInv.exec (V := V) hx hP hq
  refine ⟨L, t, H.lin, fun hf => H.free ?_⟩
  intro c op p hc hr hw
  obtain ⟨r, hret⟩ := hf c op hc hw.1
  exact absurd hret (((NumInv.exec hx).running c p hr).2 r)

/-- In particular if calls that may write do not overlap each other, those calls and the queries that read once are
linearizable, although they overlap with all kinds of queries. -/
theorem C34_rocks_sequential (s : Rocks) (V : Json → Prop) (h : List Ev) (S : Conc) (hx : Exec X s h S) (hq : SeqWrites h) :
    ∃ L t, (rocksStoreFrom X V s).Linearization (fun op => op.isWrite = true ∨ op.oneRead = true) h L t ∧
      ((∀ c op, Ev.call c op ∈ h → op.isWrite = true → ∃ r, Ev.ret c r ∈ h) → S.db = t) :=
  C34_rocks_partial X Counts (fun _ h => Or.inl h) s V h S hx (SeqWrites.apart hq)

/-- And if all calls that overlap are independent, the whole history is linearizable. -/
theorem C34_rocks_independent (s : Rocks) (V : Json → Prop) (h : List Ev) (S : Conc) (hx : Exec X s h S)
    (hq : Apart (fun _ => True) h) (hf : ∀ c op, Ev.call c op ∈ h → op.isWrite = true → ∃ r, Ev.ret c r ∈ h) :
    (rocksStoreFrom X V s).Linearizable h S.db := by
  obtain ⟨L, t, h1, h2⟩ := C34_rocks_partial X (fun _ => True) (fun _ _ => trivial) s V h S hx hq
  rw [h2 hf]
  exact ⟨L, h1⟩

/-- Two vertices created at the same time, the reads and writes interleaved, while a property of a third is set and another
one read: an execution … -/
example : ∃ S, Exec X Rocks.init [.call 0 (.createVertex ⟨W.u 1, W.t⟩), .call 1 (.createVertex ⟨W.u 2, W.t⟩),
      .call 2 (.setProperties (.specificVertex [W.u 3]) W.p (W.n 7)),
      .call 3 (.get (.pipeProperty (.specificVertex [W.u 3]) (some W.t))),
      .ret 1 (.ok (.bool true)), .ret 0 (.ok (.bool true)), .ret 3 (.ok (.outputs [.vertexProperties []]))] S ∧
    S.log.map (·.1) = [1, 0] := by
  have e := Exec.nil (X := X) (s := Rocks.init)
  have e := e.snoc (.call _ 0 .sorted (.createVertex ⟨W.u 1, W.t⟩) rfl)
  have e := e.snoc (.get _ 0 _ _ _ rfl)
  have e := e.snoc (.call _ 1 .sorted (.createVertex ⟨W.u 2, W.t⟩) rfl)
  have e := e.snoc (.get _ 1 _ _ _ rfl)
  have e := e.snoc (.call _ 2 .sorted (.setProperties (.specificVertex [W.u 3]) W.p (W.n 7)) rfl)
  have e := e.snoc (.get _ 2 _ _ _ rfl)
  have e := e.snoc (.write _ 1 _ _ rfl)
  have e := e.snoc (.call _ 3 .sorted (.get (.pipeProperty (.specificVertex [W.u 3]) (some W.t))) rfl)
  have e := e.snoc (.get _ 3 _ _ _ rfl)
  have e := e.snoc (.write _ 0 _ _ rfl)
  have e := e.snoc (.ret _ 1 _ rfl (by simp [Conc.init]) (by simp [Conc.init]))
  have e := e.snoc (.ret _ 0 _ rfl (by simp [Conc.init]) (by simp [Conc.init]))
  have e := e.snoc (.ret _ 3 _ rfl (by simp [Conc.init]) (by simp [Conc.init]))
  exact ⟨_, e, rfl⟩

/-- … in which all calls that overlap are independent. -/
example : Apart (fun _ => True) [.call 0 (.createVertex ⟨W.u 1, W.t⟩), .call 1 (.createVertex ⟨W.u 2, W.t⟩),
      .call 2 (.setProperties (.specificVertex [W.u 3]) W.p (W.n 7)),
      .call 3 (.get (.pipeProperty (.specificVertex [W.u 3]) (some W.t))),
      .ret 1 (.ok (.bool true)), .ret 0 (.ok (.bool true)), .ret 3 (.ok (.outputs [.vertexProperties []]))] := by
  have i01 : Independent (.createVertex ⟨W.u 1, W.t⟩) (.createVertex ⟨W.u 2, W.t⟩) :=
    Or.inr (Or.inr (Or.inr ⟨_, _, _, _, rfl, rfl, by decide, by decide⟩))
  have i02 : Independent (.createVertex ⟨W.u 1, W.t⟩) (.setProperties (.specificVertex [W.u 3]) W.p (W.n 7)) :=
    Or.inr (Or.inr (Or.inr ⟨_, _, _, _, rfl, rfl, by decide, by decide⟩))
  have i12 : Independent (.createVertex ⟨W.u 2, W.t⟩) (.setProperties (.specificVertex [W.u 3]) W.p (W.n 7)) :=
    Or.inr (Or.inr (Or.inr ⟨_, _, _, _, rfl, rfl, by decide, by decide⟩))
  have i03 : Independent (.createVertex ⟨W.u 1, W.t⟩) (.get (.pipeProperty (.specificVertex [W.u 3]) (some W.t))) :=
    Or.inr (Or.inr (Or.inr ⟨_, _, _, _, rfl, rfl, by decide, by decide⟩))
  have i13 : Independent (.createVertex ⟨W.u 2, W.t⟩) (.get (.pipeProperty (.specificVertex [W.u 3]) (some W.t))) :=
    Or.inr (Or.inr (Or.inr ⟨_, _, _, _, rfl, rfl, by decide, by decide⟩))
  have i23 : Independent (.setProperties (.specificVertex [W.u 3]) W.p (W.n 7))
      (.get (.pipeProperty (.specificVertex [W.u 3]) (some W.t))) :=
    Or.inr (Or.inr (Or.inr ⟨_, _, _, _, rfl, rfl, by decide, by decide⟩))
  intro a b c op he _ c' op' hm _
  refine Or.inr ?_
  rcases a with _ | ⟨x1, _ | ⟨x2, _ | ⟨x3, _ | ⟨x4, _ | ⟨x5, _ | ⟨x6, _ | ⟨x7, a⟩⟩⟩⟩⟩⟩⟩
  · cases hm
  · simp at he
    obtain ⟨rfl, ⟨rfl, rfl⟩, _⟩ := he
    simp at hm
    obtain ⟨_, rfl⟩ := hm
    exact i01
  · simp at he
    obtain ⟨rfl, rfl, ⟨rfl, rfl⟩, _⟩ := he
    simp at hm
    rcases hm with ⟨_, rfl⟩ | ⟨_, rfl⟩
    · exact i02
    · exact i12
  · simp at he
    obtain ⟨rfl, rfl, rfl, ⟨rfl, rfl⟩, _⟩ := he
    simp at hm
    rcases hm with ⟨_, rfl⟩ | ⟨_, rfl⟩ | ⟨_, rfl⟩
    · exact i03
    · exact i13
    · exact i23
  all_goals simp at he

end IndraDB
