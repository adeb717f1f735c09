import Verif.Spec.Server
import Verif.Proofs.Proto
import Verif.Proofs.MemoryStore
import Verif.Proofs.RocksStore
/-
Proofs about the client and the server.
-/
namespace IndraDB

/-! ### Replies have their type -/

theorem Upd.map_ok {σ α β : Type} {f : α → β} {u : Upd σ α} {b : β} (h : (Upd.map f u).2 = .ok b) : ∃ a, b = f a := by
  obtain ⟨s, r⟩ := u
  cases r with
  | ok a => simp [Upd.map, Except.map] at h; exact ⟨a, h.symm⟩
  | error e => simp [Upd.map, Except.map] at h

theorem dbStep_isFor {σ : Type} (T : Transaction σ) (op : Op) (s : σ) (r : Reply) (h : (dbStep T op s).2 = .ok r) :
    r.IsFor op := by
  cases op <;> simp only [dbStep] at h
  case get q =>
    cases hq : getQuery (T.reads s) q with
    | error e => simp [hq, Except.map] at h
    | ok a => simp [hq, Except.map] at h; subst h; trivial
  all_goals
    obtain ⟨a, rfl⟩ := Upd.map_ok h
    trivial

theorem memStore_typed (K : HashEq) (b : Build) : (memStore K b).Typed := by
  intro O op d r h
  change (MemDb.step K b O op d).2 = .ok r at h
  cases hp : d.poisoned with
  | true => simp [MemDb.step, hp] at h
  | false => exact dbStep_isFor _ _ _ _ ((memStep_eq hp O op).2.1 ▸ h)

theorem rocksStore_typed (X : Cfg) : (rocksStore X).Typed := fun O op s r h => dbStep_isFor _ _ _ _ h

/-! ### Reading streams -/

section
variable (letter : Char → Bool) (J : JsonText)

theorem readItems_iff (stream : List (Except Status PBulkInsertItem)) (items : List BulkInsertItem) :
    readItems letter J stream = .ok items ↔ GoodStream letter J stream items := by
  induction stream generalizing items with
  | nil =>
    constructor
    · intro h; cases h; exact .nil
    · intro h; cases h; rfl
  | cons a r ih =>
    cases a with
    | error st =>
      constructor
      · intro h; cases h
      · intro h; cases h
    | ok m =>
      constructor
      · intro h
        rw [readItems] at h
        cases hm : m.conv letter J with
        | error e => simp [hm, mapConversionResult] at h
        | ok i =>
          simp only [hm, mapConversionResult] at h
          cases hr : readItems letter J r with
          | error e => simp [hr] at h
          | ok l =>
            simp only [hr, Except.ok.injEq] at h
            subst h
            exact .cons ((PBulkInsertItem.conv_iff letter J m i).1 hm) ((ih l).1 hr)
      · intro h
        cases h with
        | cons h1 h2 =>
          rw [readItems, (PBulkInsertItem.conv_iff letter J _ _).2 h1, (ih _).2 h2]
          rfl

theorem readItems_client (items : List BulkInsertItem) (ha : ∀ i ∈ items, i.All (·.Valid letter) J.Faithful)
    (hf : ∀ i ∈ items, (i.toProto J).size ≤ 4194304) :
    readItems letter J (items.map (fun i =>
      if wireOk (i.toProto J).size 4 then .ok (i.toProto J) else .error .undecodable)) = .ok items := by
  refine (readItems_iff letter J _ _).2 ?_
  induction items with
  | nil => exact .nil
  | cons i r ih =>
    rw [List.map_cons, if_pos (by simp [wireOk, hf i List.mem_cons_self])]
    exact .cons (BulkInsertItem.toProto_means letter J i (ha i List.mem_cons_self))
      (ih (fun j hj => ha j (List.mem_cons_of_mem _ hj)) (fun j hj => hf j (List.mem_cons_of_mem _ hj)))

/-- Without the size assumption, the items arrive or the stream breaks. -/
theorem readItems_client' (items : List BulkInsertItem) (ha : ∀ i ∈ items, i.All (·.Valid letter) J.Faithful) :
    readItems letter J (items.map (fun i =>
      if wireOk (i.toProto J).size 4 then .ok (i.toProto J) else .error .undecodable)) = .ok items ∨
    readItems letter J (items.map (fun i =>
      if wireOk (i.toProto J).size 4 then .ok (i.toProto J) else .error .undecodable)) = .error .undecodable := by
  induction items with
  | nil => left; rfl
  | cons i r ih =>
    rw [List.map_cons]
    by_cases hw : wireOk (i.toProto J).size 4 = true
    · rw [if_pos hw, readItems, (PBulkInsertItem.conv_iff letter J _ _).2
        (BulkInsertItem.toProto_means letter J i (ha i List.mem_cons_self))]
      rcases ih (fun j hj => ha j (List.mem_cons_of_mem _ hj)) with h | h
      · left; rw [h]; rfl
      · right; rw [h]; rfl
    · right; rw [if_neg hw]; rfl

theorem readOutputs_ok (l : List Output) (ha : ∀ o ∈ l, o.All (·.Valid letter) J.Faithful)
    (hf : ∀ o ∈ l, (o.toProto J).size ≤ 4194304) :
    readOutputs letter J (l.map (fun o => .ok (o.toProto J))) = .ok l := by
  induction l with
  | nil => rfl
  | cons o r ih =>
    rw [List.map_cons, readOutputs, if_pos (by simp [wireOk, hf o List.mem_cons_self]),
      (POutput.conv_iff letter J _ _).2 (Output.toProto_means letter J o (ha o List.mem_cons_self)),
      ih (fun j hj => ha j (List.mem_cons_of_mem _ hj)) (fun j hj => hf j (List.mem_cons_of_mem _ hj))]

/-- An output that is too long fails the call. -/
theorem readOutputs_long (l : List Output) (ha : ∀ o ∈ l, o.All (·.Valid letter) J.Faithful) :
    (readOutputs letter J (l.map (fun o => .ok (o.toProto J))) = .ok l ∧ ∀ o ∈ l, (o.toProto J).size ≤ 4194304) ∨
    (readOutputs letter J (l.map (fun o => .ok (o.toProto J))) = .error (.grpc .undecodable) ∧
      ∃ o ∈ l, 4194304 < (o.toProto J).size) := by
  induction l with
  | nil => left; exact ⟨rfl, by simp⟩
  | cons o r ih =>
    rw [List.map_cons, readOutputs]
    by_cases hw : (o.toProto J).size ≤ 4194304
    · rw [if_pos (by simp [wireOk, hw]),
        (POutput.conv_iff letter J _ _).2 (Output.toProto_means letter J o (ha o List.mem_cons_self))]
      rcases ih (fun j hj => ha j (List.mem_cons_of_mem _ hj)) with ⟨h, h'⟩ | ⟨h, h'⟩
      · left; rw [h]; exact ⟨rfl, by simp_all⟩
      · right; rw [h]; exact ⟨rfl, by obtain ⟨o', h1, h2⟩ := h'; exact ⟨o', List.mem_cons_of_mem _ h1, h2⟩⟩
    · right
      rw [if_neg (by simp [wireOk]; omega)]
      exact ⟨rfl, o, List.mem_cons_self, by omega⟩

/-! ### Calls -/

/-- What the server does with a call of the library, if the client's messages arrive. -/
theorem Store.clientCall_eq (S : Store) (ht : S.Typed) (env : S.Env) (op : Op) (s : S.State)
    (ha : op.All (·.Valid letter) J.Faithful) (hf : op.Fits J) :
    (S.clientCall letter J env op s).1 = (S.step env op s).1 ∧
    (∀ f, (S.step env op s).2 = .error f → (f = .panic → ∀ q, op ≠ .get q) →
      (S.clientCall letter J env op s).2 = .error (.grpc (.internal f))) ∧
    (∀ r, (S.step env op s).2 = .ok r → r.All (·.Valid letter) J.Faithful → r.Fits J →
      (S.clientCall letter J env op s).2 = .ok r) ∧
    (∀ r, (S.step env op s).2 = .ok r → r.All (·.Valid letter) J.Faithful → ¬ r.Fits J →
      (S.clientCall letter J env op s).2 = .error (.grpc .undecodable)) ∧
    (∀ q, op = .get q → (S.step env op s).2 = .error .panic →
      (S.clientCall letter J env op s).2 = .ok (.outputs [])) := by
  have hty := ht env op s
  cases op with
  | sync =>
    simp only [Store.clientCall, clientRequest, Request.fits, if_true, Store.handle, Store.serve, reduceCtorEq]
    generalize S.step env _ s = u at hty
    obtain ⟨s', r⟩ := u
    cases r with
    | error f => simp [mapJhIndraResult, emptyResponse]
    | ok r =>
      have := hty r rfl
      cases r <;> first | exact this.elim | skip
      simp [mapJhIndraResult, emptyResponse, clientReply, Reply.All, Reply.Fits]
  | createVertex v =>
    have hc := (PVertex.conv_iff letter _ _).2 (Vertex.toProto_means letter (v := v) ha)
    have hw : wireOk v.toProto.size 4 = true := by simp only [wireOk, Op.Fits] at hf ⊢; simp [hf]
    simp only [Store.clientCall, clientRequest, Request.fits, hw, if_true, Store.handle, hc, mapConversionResult,
      Store.serve, reduceCtorEq]
    generalize S.step env _ s = u at hty
    obtain ⟨s', r⟩ := u
    cases r with
    | error f => simp [mapJhIndraResult]
    | ok r =>
      have := hty r rfl
      cases r <;> first | exact this.elim | skip
      simp [mapJhIndraResult, clientReply, Reply.All, Reply.Fits]
  | createVertexFromType id t =>
    have hc := (PIdentifier.conv_iff letter _ _).2 (Identifier.toProto_means letter (i := t) ha)
    have hw : wireOk t.toProto.size 4 = true := by simp only [wireOk, Op.Fits] at hf ⊢; simp [hf]
    simp only [Store.clientCall, clientRequest, Request.fits, hw, if_true, Store.handle, hc, mapConversionResult,
      Store.serve, reduceCtorEq]
    generalize S.step env _ s = u at hty
    obtain ⟨s', r⟩ := u
    cases r with
    | error f => simp [mapJhIndraResult]
    | ok r =>
      have := hty r rfl
      cases r <;> first | exact this.elim | skip
      simp [mapJhIndraResult, clientReply, Reply.All, Reply.Fits, (PUuid.conv_iff _ _).2 (Uuid.toProto_means _)]
  | createEdge e =>
    have hc := (PEdge.conv_iff letter _ _).2 (Edge.toProto_means letter (e := e) ha)
    have hw : wireOk e.toProto.size 4 = true := by simp only [wireOk, Op.Fits] at hf ⊢; simp [hf]
    simp only [Store.clientCall, clientRequest, Request.fits, hw, if_true, Store.handle, hc, mapConversionResult,
      Store.serve, reduceCtorEq]
    generalize S.step env _ s = u at hty
    obtain ⟨s', r⟩ := u
    cases r with
    | error f => simp [mapJhIndraResult]
    | ok r =>
      have := hty r rfl
      cases r <;> first | exact this.elim | skip
      simp [mapJhIndraResult, clientReply, Reply.All, Reply.Fits]
  | get q =>
    have hc := (PQuery.conv_iff letter J _ _).2 (Query.toProto_means letter J q ha)
    have hw : wireOk (q.toProto J).size (q.toProto J).depth = true := by
      simp only [wireOk, Op.Fits] at hf ⊢; simp [hf.1, hf.2]
    simp only [Store.clientCall, clientRequest, Request.fits, hw, if_true, Store.handle, hc, mapConversionResult]
    generalize S.step env _ s = u at hty
    obtain ⟨s', r⟩ := u
    cases r with
    | error f => cases f <;> simp [getStream, clientReply, readOutputs]
    | ok r =>
      have := hty r rfl
      cases r <;> first | exact this.elim | skip
      rename_i l
      refine ⟨trivial, by simp, ?_, ?_, by simp⟩
      · intro r hr ha' hf'
        cases hr
        simp only [getStream, clientReply, readOutputs_ok letter J l ha' hf']
      · intro r hr ha' hf'
        cases hr
        rcases readOutputs_long letter J l ha' with ⟨_, h⟩ | ⟨h, _⟩
        · exact absurd h hf'
        · simp only [getStream, clientReply, h]
  | delete q =>
    have hc := (PQuery.conv_iff letter J _ _).2 (Query.toProto_means letter J q ha)
    have hw : wireOk (q.toProto J).size (q.toProto J).depth = true := by
      simp only [wireOk, Op.Fits] at hf ⊢; simp [hf.1, hf.2]
    simp only [Store.clientCall, clientRequest, Request.fits, hw, if_true, Store.handle, hc, mapConversionResult,
      Store.serve, reduceCtorEq]
    generalize S.step env _ s = u at hty
    obtain ⟨s', r⟩ := u
    cases r with
    | error f => simp [mapJhIndraResult, emptyResponse]
    | ok r =>
      have := hty r rfl
      cases r <;> first | exact this.elim | skip
      simp [mapJhIndraResult, emptyResponse, clientReply, Reply.All, Reply.Fits]
  | setProperties q n v =>
    have hc : (setPropertiesRequest J q n v).conv letter J = .ok (q, n, v) :=
      (PSetPropertiesRequest.conv_iff letter J _ _).2 ⟨⟨_, rfl, Query.toProto_means letter J q ha.1⟩,
        ⟨_, rfl, Identifier.toProto_means letter ha.2.1⟩, ⟨_, rfl, Json.toProto_means J ha.2.2⟩⟩
    have hw : wireOk (setPropertiesRequest J q n v).size (setPropertiesRequest J q n v).depth = true := by
      simp only [wireOk, Op.Fits] at hf ⊢; simp [hf.1, hf.2]
    simp only [Store.clientCall, clientRequest, Request.fits, hw, if_true, Store.handle, hc, mapConversionResult,
      Store.serve, reduceCtorEq]
    generalize S.step env _ s = u at hty
    obtain ⟨s', r⟩ := u
    cases r with
    | error f => simp [mapJhIndraResult, emptyResponse]
    | ok r =>
      have := hty r rfl
      cases r <;> first | exact this.elim | skip
      simp [mapJhIndraResult, emptyResponse, clientReply, Reply.All, Reply.Fits]
  | bulkInsert items =>
    simp only [Store.clientCall, clientRequest, Request.fits, if_true, Store.handle,
      readItems_client letter J items ha hf, Store.serve, reduceCtorEq]
    generalize S.step env _ s = u at hty
    obtain ⟨s', r⟩ := u
    cases r with
    | error f => simp [mapJhIndraResult, emptyResponse]
    | ok r =>
      have := hty r rfl
      cases r <;> first | exact this.elim | skip
      simp [mapJhIndraResult, emptyResponse, clientReply, Reply.All, Reply.Fits]
  | indexProperty n =>
    have hc : (PIndexPropertyRequest.mk (some n.toProto)).conv letter = .ok n :=
      (PIndexPropertyRequest.conv_iff letter _ _).2 ⟨_, rfl, Identifier.toProto_means letter ha⟩
    have hw : wireOk (PIndexPropertyRequest.mk (some n.toProto)).size 4 = true := by
      simp only [wireOk, Op.Fits] at hf ⊢; simp [hf]
    simp only [Store.clientCall, clientRequest, Request.fits, hw, if_true, Store.handle, hc, mapConversionResult,
      Store.serve, reduceCtorEq]
    generalize S.step env _ s = u at hty
    obtain ⟨s', r⟩ := u
    cases r with
    | error f => simp [mapJhIndraResult, emptyResponse]
    | ok r =>
      have := hty r rfl
      cases r <;> first | exact this.elim | skip
      simp [mapJhIndraResult, emptyResponse, clientReply, Reply.All, Reply.Fits]

/-- A call whose messages do not fit fails, and nothing happens. -/
theorem Store.clientCall_unfit (S : Store) (env : S.Env) (op : Op) (s : S.State)
    (ha : op.All (·.Valid letter) J.Faithful) (hf : ¬ op.Fits J) :
    S.clientCall letter J env op s = (s, .error (.grpc .undecodable)) := by
  cases op with
  | sync => exact absurd trivial hf
  | bulkInsert items =>
    simp only [Store.clientCall, clientRequest, Request.fits, if_true, Store.handle]
    rcases readItems_client' letter J items ha with h | h
    · exfalso
      apply hf
      clear hf
      induction items with
      | nil => intro i hi; cases hi
      | cons i r ih =>
        rw [List.map_cons] at h
        by_cases hw : wireOk (i.toProto J).size 4 = true
        · rw [if_pos hw, readItems, (PBulkInsertItem.conv_iff letter J _ _).2
            (BulkInsertItem.toProto_means letter J i (ha i List.mem_cons_self))] at h
          intro j hj
          rcases List.mem_cons.1 hj with rfl | hj
          · simpa [wireOk] using hw
          · refine ih (fun j hj => ha j (List.mem_cons_of_mem _ hj)) ?_ j hj
            simp only [mapConversionResult] at h
            generalize readItems letter J (List.map _ r) = u at h ⊢
            cases u with
            | error e => simp at h
            | ok l => simp at h; rw [h]
        · rw [if_neg hw] at h; cases h
    · rw [h]
  | _ => (
    simp only [Op.Fits] at hf
    rw [Store.clientCall, if_neg]
    simp only [clientRequest, Request.fits, wireOk, Bool.and_eq_true, decide_eq_true_eq]
    omega)

end
end IndraDB
