import Verif.Spec.Wire
import Verif.Proofs.Wire4
import Verif.Proofs.Server
/-
A call as bytes is a call.
-/
namespace IndraDB
open Wire

theorem decodeOne_if {α : Type} {merge : Nat → α → Wire.Field → Option α} {empty a : α} {b : Bytes} {c : Bool}
    (h : transmit merge empty b = if c then some a else none) :
    decodeOne merge empty b = if c then .ok a else .error .undecodable := by
  rw [decodeOne, h]; cases c <;> rfl

theorem empty_transmit : transmit mergeEmpty () [] = some () := rfl

section
variable (letter : Char → Bool) (J : JsonText)

theorem wireRequest_decode (op : Op) : (wireRequest J op).decode op.generated =
    if (clientRequest J op).fits then .ok (clientRequest J op) else .error .undecodable := by
  cases op with
  | sync => rfl
  | createVertex v =>
    simp only [wireRequest, WireRequest.decode, clientRequest, Request.fits, decodeOne_if (PVertex.transmit _)]
    split <;> simp_all [Except.map]
  | createVertexFromType id t =>
    simp only [wireRequest, WireRequest.decode, clientRequest, Request.fits, decodeOne_if (PIdentifier.transmit _), Op.generated]
    split <;> simp_all [Except.map]
  | createEdge e =>
    simp only [wireRequest, WireRequest.decode, clientRequest, Request.fits, decodeOne_if (PEdge.transmit _)]
    split <;> simp_all [Except.map]
  | get q =>
    simp only [wireRequest, WireRequest.decode, clientRequest, Request.fits, decodeOne_if (PQuery.transmit _)]
    split <;> simp_all [Except.map]
  | delete q =>
    simp only [wireRequest, WireRequest.decode, clientRequest, Request.fits, decodeOne_if (PQuery.transmit _)]
    split <;> simp_all [Except.map]
  | setProperties q n v =>
    simp only [wireRequest, WireRequest.decode, clientRequest, Request.fits, decodeOne_if (PSetPropertiesRequest.transmit _)]
    split <;> simp_all [Except.map]
  | bulkInsert items =>
    simp only [wireRequest, WireRequest.decode, clientRequest, Request.fits, if_true, List.map_map]
    congr 2
    apply List.map_congr_left
    intro i _
    simp only [Function.comp, decodeOne_if (PBulkInsertItem.transmit _)]
  | indexProperty n =>
    simp only [wireRequest, WireRequest.decode, clientRequest, Request.fits, decodeOne_if (PIndexPropertyRequest.transmit _)]
    split <;> simp_all [Except.map]

theorem readWire_encode : ∀ (l : List (Except Status POutput)), (∀ m, .ok m ∈ l → m.Small) →
    readWire letter J (l.map (fun o => o.map (fun m => putFields m.fields))) = readOutputs letter J l
  | [], _ => rfl
  | .error st :: r, _ => rfl
  | .ok m :: r, h => by
    have ih := readWire_encode r (fun m hm => h m (List.mem_cons_of_mem _ hm))
    rw [List.map_cons, show Except.map (fun m => putFields (POutput.fields m)) (Except.ok m : Except Status POutput) =
      .ok (putFields m.fields) from rfl]
    simp only [readWire, readOutputs, POutput.transmit m (h m List.mem_cons_self), ih]
    by_cases hw : wireOk m.size 4 = true
    · simp only [hw, if_true]; rfl
    · simp only [hw]; rfl

theorem outputs_small {l : List Output} (h : (Reply.outputs l).SmallCounts) : ∀ m, .ok m ∈ getStream J (.ok (.outputs l)) → m.Small := by
  intro m hm
  simp only [getStream, List.mem_map] at hm
  obtain ⟨o, ho, e⟩ := hm
  cases e
  cases o with
  | count n => exact h n ho
  | _ => trivial

theorem uuid_fits (u : Uuid) : wireOk u.toProto.size 4 = true := by
  have : u.toProto.size = 18 := by
    have := u.len
    simp [PUuid.size, Uuid.toProto, bytesField, lenField, this, varintLen_small]
  rw [this]; rfl

/-- A call as bytes does what `clientCall` says. -/
theorem Store.wireCall_eq (S : Store) (ht : S.Typed) (env : S.Env) (op : Op) (s : S.State)
    (ha : op.All (·.Valid letter) J.Faithful) (hc : ∀ x, (S.step env op s).2 = .ok x → x.SmallCounts) :
    S.wireCall letter J env op s = S.clientCall letter J env op s := by
  simp only [Store.wireCall, Store.wireServe, wireRequest_decode, Store.clientCall]
  by_cases hf : (clientRequest J op).fits = true
  case neg => simp [hf]
  simp only [hf, if_true]
  have hty := ht env op s
  have hunit : ∀ (r : Except Status Reply) (s' : S.State), (match ((match (s', emptyResponse r) with
        | (s', .error st) => (s', .error st)
        | (s', .ok resp) => (s', .ok resp.encode) : S.State × WireResponse)) with
      | (s', .error st) => (s', Except.error (ClientError.grpc st))
      | (s', .ok l) => (s', (readOne mergeEmpty () l).map (fun _ => Reply.unit))) =
      (match ((s', emptyResponse r) : S.State × Except Status Response) with
      | (s', .error st) => (s', .error (.grpc st))
      | (s', .ok resp) => (s', clientReply letter J .sync resp)) := by
    intro r s'
    cases r <;> rfl
  cases op with
  | get q =>
    have hconv := (PQuery.conv_iff letter J _ _).2 (Query.toProto_means letter J q ha)
    simp only [clientRequest, Store.handle, hconv, mapConversionResult]
    simp only [wireReply, clientReply]
    have : readWire letter J (Response.stream (getStream J (S.step env (.get q) s).2)).encode =
        readOutputs letter J (getStream J (S.step env (.get q) s).2) := by
      apply readWire_encode
      cases h : (S.step env (.get q) s).2 with
      | error f => cases f <;> simp [getStream]
      | ok r =>
        have h1 := hc r h
        have h2 := hty r h
        cases r with
        | outputs l => exact outputs_small J h1
        | _ => exact h2.elim
    rw [this]
    cases readOutputs letter J (getStream J (S.step env (.get q) s).2) <;> rfl
  | createVertex v =>
    simp only [clientRequest, Store.handle]
    cases mapConversionResult (v.toProto.conv letter) with
    | error st => rfl
    | ok v =>
      have hty := ht env (.createVertex v) s
      simp only [Store.serve]
      generalize S.step env _ s = u at hty
      obtain ⟨s', r⟩ := u
      cases r with
      | error f => rfl
      | ok r =>
        have := hty r rfl
        cases r <;> first | exact this.elim | skip
        simp only [mapJhIndraResult, Response.encode, wireReply, readOne, created_transmit, clientReply, Except.map]
  | createEdge v =>
    simp only [clientRequest, Store.handle]
    cases mapConversionResult (v.toProto.conv letter) with
    | error st => rfl
    | ok v =>
      have hty := ht env (.createEdge v) s
      simp only [Store.serve]
      generalize S.step env _ s = u at hty
      obtain ⟨s', r⟩ := u
      cases r with
      | error f => rfl
      | ok r =>
        have := hty r rfl
        cases r <;> first | exact this.elim | skip
        simp only [mapJhIndraResult, Response.encode, wireReply, readOne, created_transmit, clientReply, Except.map]
  | createVertexFromType id t =>
    simp only [clientRequest, Store.handle]
    cases mapConversionResult (t.toProto.conv letter) with
    | error st => rfl
    | ok v =>
      have hty := ht env (.createVertexFromType id v) s
      simp only [Store.serve]
      generalize S.step env _ s = u at hty
      obtain ⟨s', r⟩ := u
      cases r with
      | error f => rfl
      | ok r =>
        have := hty r rfl
        cases r <;> first | exact this.elim | skip
        simp only [mapJhIndraResult, Response.encode, wireReply, readOne, PUuid.transmit, uuid_fits, if_true, clientReply]
        rfl
  | sync => exact hunit _ _
  | delete q =>
    simp only [clientRequest, Store.handle]
    cases mapConversionResult ((q.toProto J).conv letter J) with
    | error st => rfl
    | ok v => exact hunit _ _
  | setProperties q n v =>
    simp only [clientRequest, Store.handle]
    cases mapConversionResult ((setPropertiesRequest J q n v).conv letter J) with
    | error st => rfl
    | ok v => exact hunit _ _
  | bulkInsert items =>
    simp only [clientRequest, Store.handle]
    generalize readItems letter J _ = u
    cases u with
    | error st => rfl
    | ok v => exact hunit _ _
  | indexProperty n =>
    simp only [clientRequest, Store.handle]
    cases mapConversionResult ((PIndexPropertyRequest.mk (some n.toProto)).conv letter) with
    | error st => rfl
    | ok v => exact hunit _ _

/-- So for histories. -/
theorem Store.wireRun_eq (S : Store) (ht : S.Typed) : ∀ (hist : List (S.Env × Op)) (s : S.State),
    (∀ p ∈ hist, p.2.All (·.Valid letter) J.Faithful) → S.SmallCounts J hist s →
    S.wireRun letter J hist s = S.clientRun letter J hist s
  | [], _, _, _ => rfl
  | (env, op) :: r, s, ha, hc => by
    have h := S.wireCall_eq letter J ht env op s (ha _ List.mem_cons_self) hc.1
    have ha' := ha _ List.mem_cons_self
    have hs : S.SmallCounts J r (S.clientCall letter J env op s).1 := by
      by_cases hf : op.Fits J
      · rw [(S.clientCall_eq letter J ht env op s ha' hf).1]; exact hc.2.1 hf
      · rw [S.clientCall_unfit letter J env op s ha' hf]; exact hc.2.2 hf
    simp only [Store.wireRun, Store.clientRun, h]
    rw [S.wireRun_eq ht r _ (fun p hp => ha p (List.mem_cons_of_mem _ hp)) hs]

/-- Executing a plugin, as bytes. -/
theorem wireExecutePlugin_eq {σ : Type} (describe : PluginError → String) (entries : Entries (PluginFn σ)) (name : String)
    (arg : Json) (s : σ) : wireExecutePlugin J describe entries name arg s =
    if wireOk (PExecutePluginRequest.mk name (some (arg.toProto J))).size 4 then
      match executePlugin J describe entries ⟨name, some (arg.toProto J)⟩ s with
      | (s', .ok resp) => if wireOk (msgField PJson.size resp.value) 4 then
          clientExecutePlugin J describe entries name arg s else (s', .error (.grpc .undecodable))
      | (s', .error st) => (s', .error (.grpc st))
    else (s, .error (.grpc .undecodable)) := by
  rw [wireExecutePlugin, PExecutePluginRequest.transmit]
  by_cases h : wireOk (PExecutePluginRequest.mk name (some (arg.toProto J))).size 4 = true
  case neg => simp [h]
  simp only [h, if_true]
  unfold clientExecutePlugin
  generalize executePlugin J describe entries ⟨name, some (arg.toProto J)⟩ s = u
  obtain ⟨s', r⟩ := u
  cases r with
  | error st => rfl
  | ok resp =>
    simp only [pluginReply_transmit]
    by_cases h2 : wireOk (msgField PJson.size resp.value) 4 = true
    · simp only [h2, if_true]
      cases resp.value <;> rfl
    · simp [h2]

end

/-! ### Injectivity, unknown fields -/

theorem putFields_inj {a b : List Wire.Field} (ha : Shapes a) (hb : Shapes b) (hl : (putFields a).length < 2 ^ 64)
    (h : putFields a = putFields b) : a = b := by
  have h1 := getFields_shapes ha hl
  have h2 := getFields_shapes hb (by rw [← h]; exact hl)
  rw [h, h2] at h1
  exact (Option.some.inj h1).symm

theorem PQuery.encode_inj {a b : PQuery} (ha : a.size < 2 ^ 64) (h : putFields a.fields = putFields b.fields) : a = b := by
  have hl : b.size = a.size := by rw [← PQuery.len, ← PQuery.len, h]
  have hf := putFields_inj (query_shapes a) (query_shapes b) (by rw [PQuery.len]; exact ha) h
  have h1 := a.merge_fields ha (max a.depth b.depth)
  have h2 := b.merge_fields (by omega) (max a.depth b.depth)
  rw [if_pos (by omega)] at h1 h2
  rw [hf, h2] at h1
  exact (Option.some.inj h1).symm

theorem mergeAll_skip {α : Type} {f : α → Wire.Field → Option α} (hf : ∀ a x, 16 ≤ x.1 → Unknown x → f a x = some a) :
    ∀ (l : List Wire.Field), (∀ x ∈ l, x.1 < 16 ∨ Unknown x) → ∀ a, mergeAll f a l = mergeAll f a (l.filter (fun x => x.1 < 16))
  | [], _, _ => rfl
  | x :: r, h, a => by
    have ih := mergeAll_skip hf r (fun y hy => h y (List.mem_cons_of_mem _ hy))
    by_cases hx : x.1 < 16
    · rw [List.filter_cons_of_pos (by simpa using hx)]
      simp only [mergeAll]
      cases f a x with
      | none => rfl
      | some b => exact ih b
    · rw [List.filter_cons_of_neg (by simpa using hx)]
      have hu : Unknown x := (h x List.mem_cons_self).resolve_left hx
      simp only [mergeAll, hf a x (by omega) hu]
      exact ih a

theorem Proper.ok {x : Wire.Field} (h : Proper x) : FieldOk x := by
  rcases x with ⟨t, v⟩
  cases v <;> exact h

theorem Unknown.ok {x : Wire.Field} (h : Unknown x) : FieldOk x := h.2.ok

theorem Unknown.levels {x : Wire.Field} (h : Unknown x) : x.2.levels = 1 := by
  rcases x with ⟨t, v⟩
  cases v with
  | group n => exact h.2.elim
  | _ => rfl

theorem decode_skip {α : Type} {merge : Nat → α → Wire.Field → Option α} {empty m : α} {fields l : List Wire.Field}
    (hm : ∀ d a t v, 16 ≤ t → merge d a (t, v) = skip d v a) (hs : Shapes fields) (hl : (putFields fields).length < 2 ^ 64)
    (hu : ∀ f ∈ l, f.1 < 16 ∨ Unknown f) (hf : l.filter (fun f => f.1 < 16) = fields)
    (h : mergeAll (merge 100) empty fields = some m) : decodeMsg merge empty (putFields l) = some m := by
  have hok : ∀ f ∈ l, FieldOk f := fun f hfl => by
    rcases hu f hfl with h' | h'
    · have : f ∈ fields := by rw [← hf]; exact List.mem_filter.2 ⟨hfl, by simpa using h'⟩
      exact hs.ok hl f this
    · exact h'.ok
  rw [decodeMsg, getFields_put hok]
  simp only
  rw [mergeAll_skip (fun a x hx hux => by rw [show x = (x.1, x.2) from rfl, hm _ _ _ _ hx, skip, hux.levels]; rfl) l hu, hf, h]

end IndraDB
