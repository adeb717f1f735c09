import Verif.Proofs.Server
import Verif.Props.Proto
import Verif.Props.Closed
/-
C44 (bulk insertion through the server is all or nothing) and C45 (the client behaves like the library).
-/
namespace IndraDB
variable (letter : Char → Bool) (J : JsonText)

/-! ### C44 -/

/-- For every datastore: a stream that arrives completely and whose items all stand for something has exactly the effect
of `bulk_insert` of those items in the library, and its outcome; any other stream (a malformed item anywhere, a broken
connection) is answered with an error and changes nothing. -/
theorem C44_stream (S : Store) (env : S.Env) (s : S.State) (stream : List (Except Status PBulkInsertItem)) :
    (∀ items, GoodStream letter J stream items →
      (S.handle letter J env (.bulkInsert stream) s).1 = (S.step env (.bulkInsert items) s).1 ∧
      (∀ r, (S.step env (.bulkInsert items) s).2 = .ok r →
        (S.handle letter J env (.bulkInsert stream) s).2 = .ok .empty) ∧
      (∀ f, (S.step env (.bulkInsert items) s).2 = .error f →
        (S.handle letter J env (.bulkInsert stream) s).2 = .error (.internal f))) ∧
    ((¬ ∃ items, GoodStream letter J stream items) →
      ∃ st, S.handle letter J env (.bulkInsert stream) s = (s, .error st)) := by
  constructor
  · intro items h
    simp only [Store.handle, (readItems_iff letter J _ _).2 h, Store.serve]
    refine ⟨trivial, ?_, ?_⟩
    · intro r hr; rw [hr]; rfl
    · intro f hf; rw [hf]; rfl
  · intro h
    cases hr : readItems letter J stream with
    | ok items => exact absurd ⟨items, (readItems_iff letter J _ _).1 hr⟩ h
    | error st => exact ⟨st, by simp only [Store.handle, hr]⟩

/-- In particular a single bad item, or a break of the stream, at any place makes the call fail without effect. -/
theorem C44_bad_item (S : Store) (env : S.Env) (s : S.State) (pre post : List (Except Status PBulkInsertItem))
    (x : Except Status PBulkInsertItem) (hx : ∀ m, x = .ok m → ¬ ∃ i, PBulkInsertItem.Means letter J m i) :
    ∃ st, S.handle letter J env (.bulkInsert (pre ++ x :: post)) s = (s, .error st) := by
  refine (C44_stream letter J S env s _).2 ?_
  rintro ⟨items, h⟩
  generalize hl : pre ++ x :: post = l at h
  induction h generalizing pre with
  | nil => simp at hl
  | @cons m i r l h1 h2 ih =>
    cases pre with
    | nil => simp only [List.nil_append, List.cons.injEq] at hl; exact hx _ hl.1 ⟨_, h1⟩
    | cons a p => simp only [List.cons_append, List.cons.injEq] at hl; exact ih p hl.2

/-- A stream of two items stands for two items; cut off by a broken connection it stands for nothing, and neither does it
with an item without contents. -/
example : GoodStream asciiAlnum twoText [.ok (.vertex ⟨some ⟨(W.u 1).bytes⟩, some ⟨"foo"⟩⟩),
      .ok (.vertexProperty (some ⟨(W.u 1).bytes⟩) (some ⟨"foo"⟩) (some ⟨"true"⟩))]
      [.vertex ⟨W.u 1, fooIdent⟩, .vertexProperty (W.u 1) fooIdent (.bool true)] ∧
    (¬ ∃ i, PBulkInsertItem.Means asciiAlnum twoText .unset i) := by
  refine ⟨.cons ?_ (.cons ?_ .nil), fun ⟨i, h⟩ => ?_⟩
  · exact (PBulkInsertItem.conv_iff _ _ _ _).1 (by rfl)
  · exact (PBulkInsertItem.conv_iff _ _ _ _).1 (by rfl)
  · have h := (PBulkInsertItem.conv_iff _ _ _ _).2 h
    revert h; simp [PBulkInsertItem.conv]

/-! ### C45 -/

theorem Store.replies_append (S : Store) (a b : List (S.Env × Op)) (s : S.State) :
    S.replies (a ++ b) s = S.replies a s ++ S.replies b (S.run a s) := by
  induction a generalizing s with
  | nil => rfl
  | cons p r ih => exact congrArg _ (ih _)

theorem Store.run_append' (S : Store) (a b : List (S.Env × Op)) (s : S.State) :
    S.run (a ++ b) s = S.run b (S.run a s) := by
  induction a generalizing s with
  | nil => rfl
  | cons p r ih => exact ih _

/-- What happens exactly, for every history: calls that are too long or too deep fail without effect, all others have the
effect of the library call, and its outcome reaches the client, except that a panic during `get` looks like an empty
result and that outputs that are too long become an error. -/
theorem Store.clientRun_exact (S : Store) (ht : S.Typed) (hc : S.RepliesClosed (·.Valid letter) J.Faithful)
    (hist : List (S.Env × Op)) (hok : S.OkHist hist) (ha : ∀ p ∈ hist, p.2.All (·.Valid letter) J.Faithful) :
    S.clientRun letter J hist S.init = S.limitedRun J hist S.init := by
  suffices H : ∀ hist past, S.OkHist past → (∀ p ∈ past, p.2.All (·.Valid letter) J.Faithful) → S.OkHist hist →
      (∀ p ∈ hist, p.2.All (·.Valid letter) J.Faithful) →
      S.clientRun letter J hist (S.run past S.init) = S.limitedRun J hist (S.run past S.init) from
    H hist [] (fun _ h => nomatch h) (fun _ h => nomatch h) hok ha
  clear hok ha hist
  intro hist
  induction hist with
  | nil => intro _ _ _ _ _; rfl
  | cons p r ih =>
    obtain ⟨env, op⟩ := p
    intro past h1 h2 h3 h4
    have hop := h4 _ List.mem_cons_self
    by_cases hf : op.Fits J
    · have key := S.clientCall_eq letter J ht env op (S.run past S.init) hop hf
      have hr : ∀ x, (S.step env op (S.run past S.init)).2 = .ok x → x.All (·.Valid letter) J.Faithful := by
        intro x hx
        refine hc (past ++ [(env, op)]) ?_ ?_ x ?_
        · intro p hp
          rcases List.mem_append.1 hp with hp | hp
          · exact h1 p hp
          · rw [List.mem_singleton.1 hp]; exact h3 _ List.mem_cons_self
        · intro p hp
          rcases List.mem_append.1 hp with hp | hp
          · exact h2 p hp
          · rw [List.mem_singleton.1 hp]; exact hop
        · rw [Store.replies_append]
          exact List.mem_append_right _ (by simp [Store.replies, hx])
      have hres : (S.clientCall letter J env op (S.run past S.init)).2 =
          (S.step env op (S.run past S.init)).2.arrives J op := by
        cases hx : (S.step env op (S.run past S.init)).2 with
        | ok x =>
          by_cases hfx : x.Fits J
          · rw [key.2.2.1 x hx (hr x hx) hfx, Res.arrives, if_pos hfx]
          · rw [key.2.2.2.1 x hx (hr x hx) hfx, Res.arrives, if_neg hfx]
        | error f =>
          cases f with
          | err e => rw [key.2.1 _ hx (by intro h; cases h), Res.arrives]; simp
          | panic =>
            by_cases hq : ∃ q, op = .get q
            · obtain ⟨q, hq'⟩ := hq
              rw [key.2.2.2.2 q hq' hx, Res.arrives, if_pos ⟨q, hq'⟩]
            · rw [key.2.1 _ hx (by intro _ q h; exact hq ⟨q, h⟩), Res.arrives, if_neg hq]
      have hstate : (S.step env op (S.run past S.init)).1 = S.run (past ++ [(env, op)]) S.init := by
        rw [S.run_append']; rfl
      have := ih (past ++ [(env, op)]) (by
          intro p hp
          rcases List.mem_append.1 hp with hp | hp
          · exact h1 p hp
          · rw [List.mem_singleton.1 hp]; exact h3 _ List.mem_cons_self) (by
          intro p hp
          rcases List.mem_append.1 hp with hp | hp
          · exact h2 p hp
          · rw [List.mem_singleton.1 hp]; exact hop) (fun p hp => h3 p (List.mem_cons_of_mem _ hp))
        (fun p hp => h4 p (List.mem_cons_of_mem _ hp))
      simp only [Store.clientRun, Store.limitedRun, if_pos hf, key.1, hres, hstate, this]
    · have := ih past h1 h2 (fun p hp => h3 p (List.mem_cons_of_mem _ hp)) (fun p hp => h4 p (List.mem_cons_of_mem _ hp))
      rw [Store.clientRun, Store.limitedRun, if_neg hf, S.clientCall_unfit letter J env op _ hop hf, this]

theorem Store.limitedRun_fits (S : Store) (hist : List (S.Env × Op)) (s : S.State) (hf : ∀ p ∈ hist, p.2.Fits J)
    (hr : ∀ r, .ok r ∈ S.replies hist s → r.Fits J) (hp : .error .panic ∉ S.replies hist s) :
    S.limitedRun J hist s = (S.run hist s, (S.replies hist s).map Res.seen) := by
  induction hist generalizing s with
  | nil => rfl
  | cons p r ih =>
    obtain ⟨env, op⟩ := p
    have := ih (S.step env op s).1 (fun p hp => hf p (List.mem_cons_of_mem _ hp))
      (fun x hx => hr x (List.mem_cons_of_mem _ hx)) (fun h => hp (List.mem_cons_of_mem _ h))
    simp only [Store.limitedRun, if_pos (hf _ List.mem_cons_self), this]
    have h1 : (S.step env op s).2.arrives J op = (S.step env op s).2.seen := by
      have hr0 : ∀ x, (S.step env op s).2 = .ok x → x.Fits J := fun x hx => hr x (by rw [Store.replies, hx]; exact List.mem_cons_self)
      have hp0 : (S.step env op s).2 ≠ .error .panic := fun hx => hp (by rw [Store.replies, hx]; exact List.mem_cons_self)
      generalize (S.step env op s).2 = u at hr0 hp0
      cases u with
      | ok x => rw [Res.arrives, if_pos (hr0 x rfl)]; rfl
      | error f => cases f with
        | err e => rfl
        | panic => exact absurd rfl hp0
    rw [h1]; rfl

/-- What is true of C45 for the memory datastore: if no message is too long or too deep and nothing panics, a history
gives through client and server what it gives in the library: same results, same final state. And without these
assumptions `limitedRun` says exactly what happens; in particular a call has the library's effect or none. Missing: large
messages, deep queries and panics, see the refutations below. -/
theorem C45_memory_partial (K : HashEq) (b : Build) (hist : List (HashOrder × Op))
    (ha : ∀ p ∈ hist, p.2.All (·.Valid letter) J.Faithful) :
    ((∀ p ∈ hist, p.2.Fits J) → (∀ r, .ok r ∈ (memStore K b).replies hist MemDb.new → r.Fits J) →
      .error .panic ∉ (memStore K b).replies hist MemDb.new →
      (memStore K b).clientRun letter J hist MemDb.new =
        ((memStore K b).run hist MemDb.new, ((memStore K b).replies hist MemDb.new).map Res.seen)) ∧
    (memStore K b).clientRun letter J hist MemDb.new = (memStore K b).limitedRun J hist MemDb.new := by
  have h := (memStore K b).clientRun_exact letter J (memStore_typed K b) (memStore_closed K b) hist (memStore_ok _) ha
  exact ⟨fun h1 h2 h3 => Eq.trans h ((memStore K b).limitedRun_fits J hist MemDb.new h1 h2 h3), h⟩

/-- The same for RocksDB, which never panics. -/
theorem C45_rocks_partial (X : Cfg) (hX : ∀ x, J.Faithful x → J.Faithful (X.stored x)) (hist : List (IdentOrder × Op))
    (hok : (rocksStore X).OkHist hist) (ha : ∀ p ∈ hist, p.2.All (·.Valid letter) J.Faithful) :
    ((∀ p ∈ hist, p.2.Fits J) → (∀ r, .ok r ∈ (rocksStore X).replies hist Rocks.init → r.Fits J) →
      (rocksStore X).clientRun letter J hist Rocks.init =
        ((rocksStore X).run hist Rocks.init, ((rocksStore X).replies hist Rocks.init).map Res.seen)) ∧
    (rocksStore X).clientRun letter J hist Rocks.init = (rocksStore X).limitedRun J hist Rocks.init := by
  have h := (rocksStore X).clientRun_exact letter J (rocksStore_typed X) (rocksStore_closed X hX) hist hok ha
  refine ⟨fun h1 h2 => Eq.trans h ((rocksStore X).limitedRun_fits J hist Rocks.init h1 h2 ?_), h⟩
  intro hp
  suffices H : ∀ hist s, Rocks.Inv X s → (rocksStore X).OkHist hist → .error .panic ∉ (rocksStore X).replies hist s from
    H hist _ Rocks.Inv.init hok hp
  intro hist
  induction hist with
  | nil => intro _ _ _ h; cases h
  | cons p r ih =>
    obtain ⟨O, op⟩ := p
    intro s hi hok h
    have hs := Rocks.dbStep_spec O op s hi (hok (O, op) List.mem_cons_self)
    rcases List.mem_cons.1 h with h | h
    · exact Rocks.step_no_panic O op s hi (hok (O, op) List.mem_cons_self) h.symm
    · exact ih _ hs.inv.toInv (fun p hp => hok p (List.mem_cons_of_mem _ hp)) h

/-! #### Refutations -/

/-- The empty identifier, which is valid whatever counts as a letter. -/
def noName : Identifier := ⟨[], by decide⟩

theorem noName_valid : noName.Valid letter := ⟨"", rfl, by simp⟩

theorem Store.ClientIsLibrary.second {S : Store} {letter : Char → Bool} {J : JsonText} (h : S.ClientIsLibrary letter J)
    (ht : S.Typed) (env env' : S.Env) (op op' : Op) (hok : S.OkHist [(env, op), (env', op')])
    (ha : op.All (·.Valid letter) J.Faithful) (ha' : op'.All (·.Valid letter) J.Faithful) (hf : op.Fits J) :
    (S.clientCall letter J env' op' (S.step env op S.init).1).2 = Res.seen (S.step env' op' (S.step env op S.init).1).2 := by
  have h1 := h [(env, op), (env', op')] hok (List.forall_mem_cons.2 ⟨ha, List.forall_mem_cons.2 ⟨ha', fun _ h => nomatch h⟩⟩)
  have h2 := congrArg Prod.snd h1
  simp only [Store.clientRun, Store.replies, List.map_cons, List.map_nil, List.cons.injEq, and_true] at h2
  have h3 := h2.2
  rwa [(S.clientCall_eq letter J ht env op S.init ha hf).1] at h3

theorem varintLen_small {n : Nat} (h : n < 128) : varintLen n = 1 := by rw [varintLen, if_pos h]

theorem uuid_size (u : Uuid) : u.toProto.size = 18 := by
  simp [PUuid.size, Uuid.toProto, bytesField, u.len, lenField, varintLen_small]

theorem noName_size : noName.toProto.size = 0 := by
  have : noName.toProto = ⟨""⟩ := by rfl
  rw [this]; rfl

theorem vertex_size (u : Uuid) : (Vertex.mk u noName).toProto.size = 22 := by
  simp [Vertex.toProto, PVertex.size, msgField, uuid_size, noName_size, lenField, varintLen_small]

/-- The memory datastore panics when asked for all properties of the vertex with the greatest id (C35); through the client
this is an empty result instead of an error. -/
theorem C45_memory_panic_refuted (b : Build) : ¬ (MS b).ClientIsLibrary letter J := by
  intro h
  have ha' : (Op.get (.pipeProperty .allVertex none)).All (·.Valid letter) J.Faithful :=
    ⟨trivial, by intro x hx; cases hx⟩
  have hf : (Op.createVertex ⟨Uuid.max, noName⟩).Fits J := by rw [Op.Fits, vertex_size]; omega
  have hf' : (Op.get (.pipeProperty .allVertex none)).Fits J := by
    simp [Op.Fits, Query.toProto, PQuery.size, PQuery.depth, lenField, msgField, varintLen_small]
  have h1 := h.second (memStore_typed _ b) HashOrder.sorted HashOrder.sorted (.createVertex ⟨Uuid.max, noName⟩)
    (.get (.pipeProperty .allVertex none)) (memStore_ok _) (noName_valid letter) ha' hf
  have e : ((MS b).step HashOrder.sorted (.get (.pipeProperty .allVertex none))
      ((MS b).step HashOrder.sorted (.createVertex ⟨Uuid.max, noName⟩) MemDb.new).1).2 = .error .panic := by
    cases b <;> decide +kernel
  have h2 := ((MS b).clientCall_eq letter J (memStore_typed _ b) HashOrder.sorted _ _ ha' hf').2.2.2.2 _ rfl e
  have h3 : Except.ok (Reply.outputs []) = Res.seen (.error .panic) := h2.symm.trans (h1.trans (congrArg Res.seen e))
  cases h3

/-- A query of `n` nested traversals. -/
def W.deep : Nat → Query
  | 0 => .allVertex
  | n + 1 => .pipe (W.deep n) .outbound 0 none

theorem W.deep_depth (n : Nat) : ((W.deep n).toProto J).depth = 2 * n + 1 := by
  induction n with
  | zero => rfl
  | succ n ih => simp [W.deep, Query.toProto, PQuery.depth, ih]; omega

theorem W.deep_valid (n : Nat) : (W.deep n).All (·.Valid letter) J.Faithful := by
  induction n with
  | zero => trivial
  | succ n ih => exact ⟨ih, by intro x hx; cases hx⟩

/-- `n` nested traversals can be evaluated by the library, whatever is in the database. -/
theorem W.deep_ok (S : Store) {listing : EdgeDirection → Edge → Edge → Bool} (h16 : S.VertexQueriesExact)
    (h17 : S.PipeVerticesExact listing) (h18 : S.PipeEdgesExact) (s : S.State) (hr : S.Reach s) (env : S.Env) (n : Nat) :
    (∃ l, S.value env (W.deep n) s = .ok (.vertices l)) ∨ (∃ l, S.value env (W.deep n) s = .ok (.edges l)) := by
  induction n with
  | zero =>
    obtain ⟨l, _, h⟩ := (h16 s hr env).1
    left; exact ⟨l, by simp [Store.value, W.deep, h]⟩
  | succ n ih =>
    rcases ih with ⟨l, h⟩ | ⟨l, h⟩
    · obtain ⟨_, _, h2⟩ := h17 s hr env _ _ h .outbound 0 none
      exact Or.inr ⟨_, h2⟩
    · exact Or.inl ⟨_, h18 s hr env _ _ h .outbound 0 none⟩

theorem Store.value_reply (S : Store) {env : S.Env} {q : Query} {s : S.State} {o : Output} (h : S.value env q s = .ok o) :
    ∃ l, (S.step env (.get q) s).2 = .ok (.outputs l) := by
  unfold Store.value Store.ask at h
  cases hx : (S.step env (.get q) s).2 with
  | error f => simp [hx] at h
  | ok r => cases r with
    | outputs l => exact ⟨l, rfl⟩
    | _ => simp [hx] at h

/-- For any datastore that answers traversals: 50 of them nested fail through the client (and 49 are not too deep). -/
theorem Store.deep_refuted (S : Store) {listing : EdgeDirection → Edge → Edge → Bool}
    (h16 : S.VertexQueriesExact) (h17 : S.PipeVerticesExact listing) (h18 : S.PipeEdgesExact) (env : S.Env)
    (hr : S.Reach S.init) : ¬ S.ClientIsLibrary letter J := by
  intro h
  have h1 := h [(env, .get (W.deep 50))] (by intro p hp; rw [List.mem_singleton.1 hp]; trivial)
    (by intro p hp; rw [List.mem_singleton.1 hp]; exact W.deep_valid letter J 50)
  have hnf : ¬ (Op.get (W.deep 50)).Fits J := by
    intro hf; have := hf.2; rw [W.deep_depth] at this; omega
  have h2 := congrArg Prod.snd h1
  have hok : ∃ l, (S.step env (.get (W.deep 50)) S.init).2 = .ok (.outputs l) := by
    rcases W.deep_ok S h16 h17 h18 S.init hr env 50 with ⟨_, h⟩ | ⟨_, h⟩ <;> exact S.value_reply h
  obtain ⟨l, hl⟩ := hok
  simp only [Store.clientRun, Store.replies, List.map_cons, List.map_nil,
    S.clientCall_unfit letter J env (.get (W.deep 50)) S.init (W.deep_valid letter J 50) hnf, hl, Res.seen] at h2
  cases h2

theorem C45_memory_deep_refuted (K : HashEq) (b : Build) : ¬ (memStore K b).ClientIsLibrary letter J :=
  (memStore K b).deep_refuted letter J (C16_memory K b).1 (C17_memory K b) (C18_memory K b)
    HashOrder.sorted ⟨[], rfl, rfl, memStore_ok _⟩

theorem C45_rocks_deep_refuted (X : Cfg) : ¬ (rocksStore X).ClientIsLibrary letter J :=
  (rocksStore X).deep_refuted letter J (C16_rocks X).1 (C17_rocks X) (C18_rocks X)
    IdentOrder.sorted ⟨[], rfl, rfl, fun _ h => nomatch h⟩

/-! Large results. -/

theorem repField_replicate {α : Type} (size : α → Nat) (n : Nat) (a : α) :
    repField size (List.replicate n a) = n * lenField (size a) := by
  induction n with
  | zero => simp [repField]
  | succ n ih => rw [List.replicate_succ, repField, ih, Nat.succ_mul, Nat.add_comm]

/-- Asking for one vertex 200000 times is a request that fits; the answer does not. -/
theorem Store.large_refuted (S : Store) (ht : S.Typed) (h1 : S.CreateVertexExact) (h16 : S.VertexQueriesExact) (env : S.Env)
    (hr : S.Reach S.init) (hg : (S.graph S.init).vertex (W.u 1) = none)
    (hr' : S.Reach (S.step env (.createVertex ⟨W.u 1, noName⟩) S.init).1) : ¬ S.ClientIsLibrary letter J := by
  intro h
  obtain ⟨N, hN⟩ : ∃ N, N = 200000 := ⟨_, rfl⟩
  let ids := List.replicate N (W.u 1)
  have hf : (Op.createVertex ⟨W.u 1, noName⟩).Fits J := by rw [Op.Fits, vertex_size]; omega
  have hf' : (Op.get (.specificVertex ids)).Fits J := by
    have e : repField PUuid.size (ids.map Uuid.toProto) = 4000000 := by
      simp only [ids, List.map_replicate]
      rw [repField_replicate, uuid_size, lenField, varintLen_small (by omega), hN]
    refine ⟨?_, ?_⟩
    · simp only [Query.toProto, PQuery.size, e, lenField]
      have : varintLen 4000000 = 4 := by simp [varintLen]
      omega
    · simp only [Query.toProto, PQuery.depth]
      split <;> omega
  have ha' : (Op.get (.specificVertex ids)).All (·.Valid letter) J.Faithful := trivial
  have hs := h.second ht env env (.createVertex ⟨W.u 1, noName⟩) (.get (.specificVertex ids))
    (by intro p hp; rcases List.mem_cons.1 hp with rfl | hp
        · trivial
        · rw [List.mem_singleton.1 hp]; trivial) (noName_valid letter) ha' hf
  have hv : (S.graph (S.step env (.createVertex ⟨W.u 1, noName⟩) S.init).1).vertex (W.u 1) = some noName := by
    rw [(h1 S.init hr env ⟨W.u 1, noName⟩).2.2.1, if_pos hg]; simp [Graph.putVertex]
  have hq := (h16 _ hr' env).2.2 ids
  have hl : (S.graph (S.step env (.createVertex ⟨W.u 1, noName⟩) S.init).1).lookup ids =
      List.replicate N ⟨W.u 1, noName⟩ := by
    simp only [Graph.lookup, ids]
    exact List.filterMap_replicate_of_some (by rw [hv]; rfl)
  rw [hl] at hq
  have hst : (S.step env (.get (.specificVertex ids)) (S.step env (.createVertex ⟨W.u 1, noName⟩) S.init).1).2 =
      .ok (.outputs [.vertices (List.replicate N ⟨W.u 1, noName⟩)]) := by
    unfold Store.ask at hq
    cases hx : (S.step env (.get (.specificVertex ids)) (S.step env (.createVertex ⟨W.u 1, noName⟩) S.init).1).2 with
    | error f => rw [hx] at hq; cases hq
    | ok r => rw [hx] at hq; cases r with
      | outputs l => injection hq with hq; rw [hq]
      | _ => cases hq
  have hnf : ¬ (Reply.outputs [.vertices (List.replicate N ⟨W.u 1, noName⟩)]).Fits J := by
    intro hf
    have := hf _ List.mem_cons_self
    simp only [Output.toProto, POutput.size, List.map_replicate, lenField] at this
    have e : lenField 22 = 24 := by rw [lenField, varintLen_small (by omega)]
    rw [repField_replicate, vertex_size, e, hN] at this
    omega
  have hall : (Reply.outputs [.vertices (List.replicate N ⟨W.u 1, noName⟩)]).All (·.Valid letter) J.Faithful := by
    intro o ho
    rw [List.mem_singleton.1 ho]
    intro v hv
    rw [List.eq_of_mem_replicate hv]; exact noName_valid letter
  have := (S.clientCall_eq letter J ht env (.get (.specificVertex ids)) _ ha' hf').2.2.2.1 _ hst hall hnf
  rw [this, hst] at hs
  cases hs

theorem C45_memory_large_refuted (K : HashEq) (b : Build) : ¬ (memStore K b).ClientIsLibrary letter J :=
  (memStore K b).large_refuted letter J (memStore_typed K b) (C01_memory K b).1 (C16_memory K b).1
    HashOrder.sorted ⟨[], rfl, rfl, memStore_ok _⟩ rfl ⟨[(HashOrder.sorted, .createVertex ⟨W.u 1, noName⟩)], rfl, rfl, memStore_ok _⟩

theorem C45_rocks_large_refuted (X : Cfg) : ¬ (rocksStore X).ClientIsLibrary letter J :=
  (rocksStore X).large_refuted letter J (rocksStore_typed X) (C01_rocks X).1 (C16_rocks X).1
    IdentOrder.sorted ⟨[], rfl, rfl, fun _ h => nomatch h⟩ rfl
    ⟨[(IdentOrder.sorted, .createVertex ⟨W.u 1, noName⟩)], rfl, rfl, by intro p hp; rw [List.mem_singleton.1 hp]; trivial⟩

/-- The hypotheses of `C45_memory_partial` are met by a history with an answer. -/
example : (∀ p ∈ [(HashOrder.sorted, Op.createVertex ⟨W.u 1, noName⟩), (HashOrder.sorted, .get .allVertex)],
      p.2.All (·.Valid letter) J.Faithful ∧ p.2.Fits J) ∧
    (MS .debug).replies [(HashOrder.sorted, Op.createVertex ⟨W.u 1, noName⟩), (HashOrder.sorted, .get .allVertex)]
      MemDb.new = [.ok (.bool true), .ok (.outputs [.vertices [⟨W.u 1, noName⟩]])] ∧
    (Reply.outputs [.vertices [⟨W.u 1, noName⟩]]).Fits J := by
  refine ⟨List.forall_mem_cons.2 ⟨⟨noName_valid letter, by rw [Op.Fits, vertex_size]; omega⟩,
    List.forall_mem_cons.2 ⟨⟨trivial, ?_⟩, fun _ h => nomatch h⟩⟩, by decide +kernel, ?_⟩
  · simp [Op.Fits, Query.toProto, PQuery.size, PQuery.depth, lenField, varintLen_small]
  · intro o ho
    rw [List.mem_singleton.1 ho]
    simp [Output.toProto, POutput.size, repField, vertex_size, lenField, varintLen_small]

end IndraDB
