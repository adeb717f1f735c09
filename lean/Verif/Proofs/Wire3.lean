import Verif.Proofs.Wire2
/-
Merging the fields of an encoded query gives the query back, or fails if the query is too deep.
-/
namespace IndraDB
namespace Wire

theorem variant {α β : Type} {step : α → Field → Option α} {s : α} {tag d dq bd : Nat} {bl : List Field}
    {merge : Nat → β → Field → Option β} {init m : β} {C : β → α}
    (hstep : ∀ v, step s (tag, v) = (sub d merge init v).map C) (hs : Shapes bl) (hl : (putFields bl).length < 2 ^ 64)
    (hd : dq = 1 + bd) (h : ∀ d', d = d' + 1 → mergeAll (merge d') init bl = if bd ≤ d' then some m else none) :
    mergeAll step s [msgF tag bl] = if dq ≤ d then some (C m) else none := by
  have := sub_put (fields := fun _ : β => bl) (a := m) (depth := fun _ => bd) (empty := init) (merge := merge) hs hl d h
  simp only [mergeAll, msgF, hstep, this, hd]
  by_cases hb : 1 + bd ≤ d
  · simp [hb]
  · simp [hb]

theorem flat_eq {α : Type} (o : Option α) : flat o = if o.isNone then 0 else 1 := by cases o <;> rfl

theorem f_pipe (i d l t) : (PQuery.pipe i d l t).fields = [msgF 10 (optF 1 PQuery.fields i ++ intF 2 (i32Nat d) ++
    intF 3 l.toNat ++ optF 4 PIdentifier.fields t)] := by cases i <;> simp [PQuery.fields, optF]
theorem f_prop (i t) : (PQuery.pipeProperty i t).fields = [msgF 11 (optF 1 PQuery.fields i ++ optF 2 PIdentifier.fields t)] := by
  cases i <;> simp [PQuery.fields, optF]
theorem f_pres (i t e) : (PQuery.pipeWithPropertyPresence i t e).fields = [msgF 12 (optF 1 PQuery.fields i ++
    optF 2 PIdentifier.fields t ++ boolF 3 e)] := by cases i <;> simp [PQuery.fields, optF]
theorem f_val (i t v e) : (PQuery.pipeWithPropertyValue i t v e).fields = [msgF 13 (optF 1 PQuery.fields i ++
    optF 2 PIdentifier.fields t ++ optF 3 PJson.fields v ++ boolF 4 e)] := by cases i <;> simp [PQuery.fields, optF]
theorem f_incl (i) : (PQuery.incl i).fields = [msgF 14 (optF 1 PQuery.fields i)] := by cases i <;> simp [PQuery.fields, optF]
theorem f_count (i) : (PQuery.count i).fields = [msgF 15 (optF 1 PQuery.fields i)] := by cases i <;> simp [PQuery.fields, optF]

theorem d_pipe (i d l t) : (PQuery.pipe i d l t).depth = 1 + max (optDepth PQuery.depth i) (if t.isNone then 0 else 1) := by
  cases i <;> simp [PQuery.depth, optDepth]
theorem d_prop (i t) : (PQuery.pipeProperty i t).depth = 1 + max (optDepth PQuery.depth i) (if t.isNone then 0 else 1) := by
  cases i <;> simp [PQuery.depth, optDepth]
theorem d_pres (i t e) : (PQuery.pipeWithPropertyPresence i t e).depth =
    1 + max (optDepth PQuery.depth i) (if t.isNone then 0 else 1) := by
  cases i <;> simp [PQuery.depth, optDepth]
theorem d_val (i t v e) : (PQuery.pipeWithPropertyValue i t v e).depth =
    1 + max (optDepth PQuery.depth i) (if t.isNone ∧ v.isNone then 0 else 1) := by
  cases i <;> simp [PQuery.depth, optDepth]
theorem d_incl (i) : (PQuery.incl i).depth = 1 + optDepth PQuery.depth i := by cases i <;> simp [PQuery.depth, optDepth]
theorem d_count (i) : (PQuery.count i).depth = 1 + optDepth PQuery.depth i := by cases i <;> simp [PQuery.depth, optDepth]

theorem query_shapes (q : PQuery) : Shapes q.fields := by
  cases q with
  | unset => exact Shapes.nil
  | pipe | pipeProperty | pipeWithPropertyPresence | pipeWithPropertyValue | incl | count =>
    simp only [f_pipe, f_prop, f_pres, f_val, f_incl, f_count]; exact Shapes.msg (by omega) _
  | _ => simp only [PQuery.fields]; exact Shapes.msg (by omega) _

theorem merge_inner {σ : Type} {n d : Nat} {step : σ → Field → Option σ} {put : Option PQuery → σ} (hn : d ≤ n)
    (hstep : ∀ v, step (put none) (1, v) = (innerQuery (n + 1) d none v).map put) (i : Option PQuery)
    (ih : ∀ q, i = some q → ∀ n d, d ≤ n → mergeAll (PQuery.mergeWith (innerQuery n) d) .unset q.fields =
      if q.depth ≤ d then some q else none) (hs : msgField PQuery.size i < 2 ^ 64) :
    mergeAll step (put none) (optF 1 PQuery.fields i) = if optDepth PQuery.depth i ≤ d then some (put i) else none :=
  merge_opt (merge := fun d => PQuery.mergeWith (innerQuery n) d) hstep i (fun q hq =>
    sub_put (query_shapes q) (by rw [PQuery.len]; exact size_opt hs hq) d
      (fun d' hd => ih q hq n d' (by omega)))

theorem repDepth_zero {α : Type} (l : List α) : repDepth (fun _ => 0) l = if l.isEmpty then 0 else 1 := by
  induction l with
  | nil => rfl
  | cons a r ih => simp only [repDepth, ih]; cases r <;> simp

theorem repDepth_edges (l : List PEdge) : 1 + repDepth PEdge.depth l = if l.isEmpty then 1 else
      if l.all (fun e => e.outboundId.isNone && e.t.isNone && e.inboundId.isNone) then 2 else 3 := by
  have one : ∀ e : PEdge, e.depth = if (e.outboundId.isNone && e.t.isNone && e.inboundId.isNone) = true then 0 else 1 := by
    rintro ⟨o, t, i⟩
    simp only [PEdge.depth, flat_eq]
    cases o <;> cases t <;> cases i <;> simp
  have key : ∀ l : List PEdge, repDepth PEdge.depth l = if l.isEmpty = true then 0 else
      if l.all (fun e => e.outboundId.isNone && e.t.isNone && e.inboundId.isNone) = true then 1 else 2 := by
    intro l
    induction l with
    | nil => rfl
    | cons a r ih =>
      rw [repDepth, ih, one, List.all_cons]
      generalize (a.outboundId.isNone && a.t.isNone && a.inboundId.isNone) = x
      cases r with
      | nil => cases x <;> simp
      | cons b r =>
        generalize List.all (b :: r) (fun e => e.outboundId.isNone && e.t.isNone && e.inboundId.isNone) = y
        cases x <;> cases y <;> simp
  rw [key]
  split
  · rfl
  · split <;> rfl

end Wire
open Wire

theorem PQuery.merge_fuel : ∀ (q : PQuery), q.size < 2 ^ 64 → ∀ n d, d ≤ n →
    mergeAll (PQuery.mergeWith (innerQuery n) d) .unset q.fields = if q.depth ≤ d then some q else none
  | .unset, _, n, d, _ => by simp [PQuery.fields, mergeAll, PQuery.depth]
  | .allVertex, hs, n, d, _ => by
    simp only [PQuery.fields]
    exact variant (bd := 0) (m := ()) (C := fun _ => PQuery.allVertex) (fun _ => rfl) Shapes.nil (by simp [len_nil]) rfl
      (fun d' _ => by simp [mergeAll])
  | .allEdge, hs, n, d, _ => by
    simp only [PQuery.fields]
    exact variant (bd := 0) (m := ()) (C := fun _ => PQuery.allEdge) (fun _ => rfl) Shapes.nil (by simp [len_nil]) rfl
      (fun d' _ => by simp [mergeAll])
  | .rangeVertex limit t s, hs, n, d, _ => by
    have hl := PQuery.len (.rangeVertex limit t s)
    simp only [PQuery.fields, len_msg (show 2 < 16 by omega), len_nil] at hl
    rw [← hl] at hs
    simp only [lenField] at hs
    have hs1 := hs
    rw [len_append, len_append, len_int (by omega), len_opt (by omega) PIdentifier.len, len_opt (by omega) PUuid.len] at hs1
    simp only [PQuery.fields]
    refine variant (bd := max (flat t) (flat s)) (m := (limit, t, s)) (init := (0, none, none)) (merge := mergeRange) (C := fun m => PQuery.rangeVertex m.1 m.2.1 m.2.2) (fun _ => rfl)
      (((Shapes.int (by omega) (by have := limit.toNat_lt; omega)).append (Shapes.opt (by omega) _ _)).append
        (Shapes.opt (by omega) _ _)) (by omega) (by simp only [PQuery.depth, flat_eq]; cases t <;> cases s <;> simp) (fun d' _ => ?_)
    rw [List.append_assoc, mergeAll_append,
      merge_int (t := (limit, none, none)) (fun h => by
        have : limit = 0 := by apply UInt32.toNat_inj.1; simpa using h
        rw [this]) (by simp [mergeRange, asU32]), Option.bind_some, mergeAll_append,
      merge_ident (put := fun t => (limit, t, none)) (d := d') (fun _ => rfl) t (by omega)]
    exact if_bind (merge_uuid (put := fun s => (limit, t, s)) (d := d') (fun _ => rfl) s (by omega))
  | .specificVertex l, hs, n, d, _ => by
    have hl := PQuery.len (.specificVertex l)
    simp only [PQuery.fields, len_msg (show 3 < 16 by omega), len_nil] at hl
    rw [← hl] at hs
    simp only [lenField] at hs
    have hs1 := hs
    rw [len_rep (by omega) PUuid.len] at hs1
    simp only [PQuery.fields]
    refine variant (bd := repDepth (fun _ => 0) l) (m := l) (init := []) (merge := mergeUuids) (C := PQuery.specificVertex) (fun _ => rfl)
      (Shapes.rep (by omega) _ _) (by omega) (by rw [repDepth_zero]; simp only [PQuery.depth]; split <;> rfl) (fun d' _ => ?_)
    exact merge_rep (put := id) (depth := fun _ => 0) (step := mergeUuids d') (merge := PUuid.merge) (fun l v => by simp [mergeUuids]) l []
      (fun a ha => PUuid.sub_back a (size_rep (n := 2 ^ 64) (by omega) a ha) d')
  | .specificEdge l, hs, n, d, _ => by
    have hl := PQuery.len (.specificEdge l)
    simp only [PQuery.fields, len_msg (show 7 < 16 by omega), len_nil] at hl
    rw [← hl] at hs
    simp only [lenField] at hs
    have hs1 := hs
    rw [len_rep (by omega) PEdge.len] at hs1
    simp only [PQuery.fields]
    refine variant (bd := repDepth PEdge.depth l) (m := l) (init := []) (merge := mergeEdges) (C := PQuery.specificEdge) (fun _ => rfl)
      (Shapes.rep (by omega) _ _) (by omega) (by rw [repDepth_edges]; simp only [PQuery.depth]) (fun d' _ => ?_)
    exact merge_rep (put := id) (step := mergeEdges d') (merge := PEdge.merge) (fun l v => by simp [mergeEdges]) l []
      (fun a ha => PEdge.sub_back a (size_rep (n := 2 ^ 64) (by omega) a ha) d')
  | .vertexWithPropertyPresence t, hs, n, d, _ => by
    have hl := PQuery.len (.vertexWithPropertyPresence t)
    simp only [PQuery.fields, len_msg (show 4 < 16 by omega), len_nil] at hl
    rw [← hl] at hs
    simp only [lenField] at hs
    have hs1 := hs
    rw [len_opt (by omega) PIdentifier.len] at hs1
    simp only [PQuery.fields]
    refine variant (bd := flat t) (m := t) (init := none) (merge := mergeName) (C := PQuery.vertexWithPropertyPresence) (fun _ => rfl)
      (Shapes.opt (by omega) _ _) (by omega) (by simp only [PQuery.depth, flat_eq]; split <;> rfl) (fun d' _ => ?_)
    exact merge_ident (put := id) (d := d') (step := mergeName d') (fun _ => by simp [mergeName]) t (by omega)
  | .edgeWithPropertyPresence t, hs, n, d, _ => by
    have hl := PQuery.len (.edgeWithPropertyPresence t)
    simp only [PQuery.fields, len_msg (show 8 < 16 by omega), len_nil] at hl
    rw [← hl] at hs
    simp only [lenField] at hs
    have hs1 := hs
    rw [len_opt (by omega) PIdentifier.len] at hs1
    simp only [PQuery.fields]
    refine variant (bd := flat t) (m := t) (init := none) (merge := mergeName) (C := PQuery.edgeWithPropertyPresence) (fun _ => rfl)
      (Shapes.opt (by omega) _ _) (by omega) (by simp only [PQuery.depth, flat_eq]; split <;> rfl) (fun d' _ => ?_)
    exact merge_ident (put := id) (d := d') (step := mergeName d') (fun _ => by simp [mergeName]) t (by omega)
  | .vertexWithPropertyValue t v, hs, n, d, _ => by
    have hl := PQuery.len (.vertexWithPropertyValue t v)
    simp only [PQuery.fields, len_msg (show 5 < 16 by omega), len_nil] at hl
    rw [← hl] at hs
    simp only [lenField] at hs
    have hs1 := hs
    rw [len_append, len_opt (by omega) PIdentifier.len, len_opt (by omega) PJson.len] at hs1
    simp only [PQuery.fields]
    refine variant (bd := max (flat t) (flat v)) (m := (t, v)) (init := (none, none)) (merge := mergeNameValue)
      (C := fun m => PQuery.vertexWithPropertyValue m.1 m.2) (fun _ => rfl)
      ((Shapes.opt (by omega) _ _).append (Shapes.opt (by omega) _ _)) (by omega)
      (by simp only [PQuery.depth, flat_eq]; cases t <;> cases v <;> simp) (fun d' _ => ?_)
    rw [mergeAll_append, merge_ident (put := fun t => (t, none)) (d := d') (fun _ => rfl) t (by omega)]
    exact if_bind (merge_json (put := fun v => (t, v)) (d := d') (fun _ => rfl) v (by omega))
  | .edgeWithPropertyValue t v, hs, n, d, _ => by
    have hl := PQuery.len (.edgeWithPropertyValue t v)
    simp only [PQuery.fields, len_msg (show 9 < 16 by omega), len_nil] at hl
    rw [← hl] at hs
    simp only [lenField] at hs
    have hs1 := hs
    rw [len_append, len_opt (by omega) PIdentifier.len, len_opt (by omega) PJson.len] at hs1
    simp only [PQuery.fields]
    refine variant (bd := max (flat t) (flat v)) (m := (t, v)) (init := (none, none)) (merge := mergeNameValue)
      (C := fun m => PQuery.edgeWithPropertyValue m.1 m.2) (fun _ => rfl)
      ((Shapes.opt (by omega) _ _).append (Shapes.opt (by omega) _ _)) (by omega)
      (by simp only [PQuery.depth, flat_eq]; cases t <;> cases v <;> simp) (fun d' _ => ?_)
    rw [mergeAll_append, merge_ident (put := fun t => (t, none)) (d := d') (fun _ => rfl) t (by omega)]
    exact if_bind (merge_json (put := fun v => (t, v)) (d := d') (fun _ => rfl) v (by omega))
  | .pipe i dir limit t, hs, n, d, hn => by
    have ih : ∀ q, i = some q → q.size < 2 ^ 64 → ∀ n d, d ≤ n → mergeAll (PQuery.mergeWith (innerQuery n) d) .unset q.fields =
        if q.depth ≤ d then some q else none := fun q hq h => by
      cases i with
      | none => cases hq
      | some j => obtain rfl : j = q := Option.some.inj hq
                  exact PQuery.merge_fuel j h
    have hl := PQuery.len (.pipe i dir limit t)
    simp only [len_msg (show 10 < 16 by omega), len_nil, f_pipe, f_prop, f_pres, f_val, f_incl, f_count] at hl
    rw [← hl] at hs
    simp only [lenField] at hs
    have hs1 := hs
    rw [len_append, len_append, len_append, len_opt (by omega) PQuery.len, len_int (by omega), len_int (by omega),
      len_opt (by omega) PIdentifier.len] at hs1
    simp only [f_pipe, f_prop, f_pres, f_val, f_incl, f_count]
    refine variant (bd := max (optDepth PQuery.depth i) (flat t)) (m := (i, dir, limit, t)) (init := (none, 0, 0, none))
      (merge := mergePipe (innerQuery n)) (C := fun m => PQuery.pipe m.1 m.2.1 m.2.2.1 m.2.2.2) (fun _ => rfl)
      ((((Shapes.opt (by omega) _ _).append (Shapes.int (by omega) (i32_lt _))).append
        (Shapes.int (by omega) (by have := limit.toNat_lt; omega))).append (Shapes.opt (by omega) _ _)) (by omega)
      (by simp only [d_pipe, d_prop, d_pres, d_val, flat_eq]) (fun d' hd => ?_)
    obtain ⟨n, rfl⟩ : ∃ k, n = k + 1 := ⟨n - 1, by omega⟩
    rw [List.append_assoc, List.append_assoc, mergeAll_append,
      merge_inner (put := fun i => (i, 0, 0, none)) (d := d') (n := n) (by omega) (fun _ => rfl) i
        (fun q hq => ih q hq (size_opt (n := 2 ^ 64) (by omega) hq)) (by omega)]
    refine if_bind ?_
    rw [mergeAll_append,
      merge_int (t := (i, dir, 0, none)) (fun h => by rw [i32_zero h]) (by simp [mergePipe, asI32, i32_back]), Option.bind_some,
      mergeAll_append, merge_int (t := (i, dir, limit, none)) (fun h => by
        have : limit = 0 := by apply UInt32.toNat_inj.1; simpa using h
        rw [this]) (by simp [mergePipe, asU32]), Option.bind_some]
    exact merge_ident (put := fun t => (i, dir, limit, t)) (d := d') (fun _ => rfl) t (by omega)
  | .pipeProperty i t, hs, n, d, hn => by
    have ih : ∀ q, i = some q → q.size < 2 ^ 64 → ∀ n d, d ≤ n → mergeAll (PQuery.mergeWith (innerQuery n) d) .unset q.fields =
        if q.depth ≤ d then some q else none := fun q hq h => by
      cases i with
      | none => cases hq
      | some j => obtain rfl : j = q := Option.some.inj hq
                  exact PQuery.merge_fuel j h
    have hl := PQuery.len (.pipeProperty i t)
    simp only [len_msg (show 11 < 16 by omega), len_nil, f_pipe, f_prop, f_pres, f_val, f_incl, f_count] at hl
    rw [← hl] at hs
    simp only [lenField] at hs
    have hs1 := hs
    rw [len_append, len_opt (by omega) PQuery.len, len_opt (by omega) PIdentifier.len] at hs1
    simp only [f_pipe, f_prop, f_pres, f_val, f_incl, f_count]
    refine variant (bd := max (optDepth PQuery.depth i) (flat t)) (m := (i, t)) (init := (none, none))
      (merge := mergePipeProperty (innerQuery n)) (C := fun m => PQuery.pipeProperty m.1 m.2) (fun _ => rfl)
      ((Shapes.opt (by omega) _ _).append (Shapes.opt (by omega) _ _)) (by omega)
      (by simp only [d_pipe, d_prop, d_pres, d_val, flat_eq]) (fun d' hd => ?_)
    obtain ⟨n, rfl⟩ : ∃ k, n = k + 1 := ⟨n - 1, by omega⟩
    rw [mergeAll_append,
      merge_inner (put := fun i => (i, none)) (d := d') (n := n) (by omega) (fun _ => rfl) i
        (fun q hq => ih q hq (size_opt (n := 2 ^ 64) (by omega) hq)) (by omega)]
    exact if_bind (merge_ident (put := fun t => (i, t)) (d := d') (fun _ => rfl) t (by omega))
  | .pipeWithPropertyPresence i t ex, hs, n, d, hn => by
    have ih : ∀ q, i = some q → q.size < 2 ^ 64 → ∀ n d, d ≤ n → mergeAll (PQuery.mergeWith (innerQuery n) d) .unset q.fields =
        if q.depth ≤ d then some q else none := fun q hq h => by
      cases i with
      | none => cases hq
      | some j => obtain rfl : j = q := Option.some.inj hq
                  exact PQuery.merge_fuel j h
    have hl := PQuery.len (.pipeWithPropertyPresence i t ex)
    simp only [len_msg (show 12 < 16 by omega), len_nil, f_pipe, f_prop, f_pres, f_val, f_incl, f_count] at hl
    rw [← hl] at hs
    simp only [lenField] at hs
    have hs1 := hs
    rw [len_append, len_append, len_opt (by omega) PQuery.len, len_opt (by omega) PIdentifier.len, len_bool (by omega)] at hs1
    simp only [f_pipe, f_prop, f_pres, f_val, f_incl, f_count]
    refine variant (bd := max (optDepth PQuery.depth i) (max (flat t) 0)) (m := (i, t, ex)) (init := (none, none, false))
      (merge := mergePresence (innerQuery n)) (C := fun m => PQuery.pipeWithPropertyPresence m.1 m.2.1 m.2.2) (fun _ => rfl)
      (((Shapes.opt (by omega) _ _).append (Shapes.opt (by omega) _ _)).append (Shapes.bool (by omega) _)) (by omega)
      (by simp only [d_pipe, d_prop, d_pres, d_val, flat_eq, Nat.max_zero]) (fun d' hd => ?_)
    obtain ⟨n, rfl⟩ : ∃ k, n = k + 1 := ⟨n - 1, by omega⟩
    rw [List.append_assoc, mergeAll_append,
      merge_inner (put := fun i => (i, none, false)) (d := d') (n := n) (by omega) (fun _ => rfl) i
        (fun q hq => ih q hq (size_opt (n := 2 ^ 64) (by omega) hq)) (by omega)]
    refine if_bind ?_
    rw [mergeAll_append, merge_ident (put := fun t => (i, t, false)) (d := d') (fun _ => rfl) t (by omega)]
    refine if_bind ?_
    rw [if_pos (Nat.zero_le _)]
    exact merge_bool (fun h => by rw [h]) (fun h => by rw [h]; rfl)
  | .pipeWithPropertyValue i t v ex, hs, n, d, hn => by
    have ih : ∀ q, i = some q → q.size < 2 ^ 64 → ∀ n d, d ≤ n → mergeAll (PQuery.mergeWith (innerQuery n) d) .unset q.fields =
        if q.depth ≤ d then some q else none := fun q hq h => by
      cases i with
      | none => cases hq
      | some j => obtain rfl : j = q := Option.some.inj hq
                  exact PQuery.merge_fuel j h
    have hl := PQuery.len (.pipeWithPropertyValue i t v ex)
    simp only [len_msg (show 13 < 16 by omega), len_nil, f_pipe, f_prop, f_pres, f_val, f_incl, f_count] at hl
    rw [← hl] at hs
    simp only [lenField] at hs
    have hs1 := hs
    rw [len_append, len_append, len_append, len_opt (by omega) PQuery.len, len_opt (by omega) PIdentifier.len,
      len_opt (by omega) PJson.len, len_bool (by omega)] at hs1
    simp only [f_pipe, f_prop, f_pres, f_val, f_incl, f_count]
    refine variant (bd := max (optDepth PQuery.depth i) (max (flat t) (max (flat v) 0))) (m := (i, t, v, ex))
      (init := (none, none, none, false))
      (merge := mergeValue (innerQuery n)) (C := fun m => PQuery.pipeWithPropertyValue m.1 m.2.1 m.2.2.1 m.2.2.2) (fun _ => rfl)
      ((((Shapes.opt (by omega) _ _).append (Shapes.opt (by omega) _ _)).append (Shapes.opt (by omega) _ _)).append
        (Shapes.bool (by omega) _)) (by omega)
      (by
        have h : max (if t.isNone then 0 else 1) (if v.isNone then 0 else 1) =
          (if t.isNone ∧ v.isNone then 0 else 1) := by cases t <;> cases v <;> simp
        simp only [d_pipe, d_prop, d_pres, d_val, flat_eq, Nat.max_zero, h]) (fun d' hd => ?_)
    obtain ⟨n, rfl⟩ : ∃ k, n = k + 1 := ⟨n - 1, by omega⟩
    rw [List.append_assoc, List.append_assoc, mergeAll_append,
      merge_inner (put := fun i => (i, none, none, false)) (d := d') (n := n) (by omega) (fun _ => rfl) i
        (fun q hq => ih q hq (size_opt (n := 2 ^ 64) (by omega) hq)) (by omega)]
    refine if_bind ?_
    rw [mergeAll_append, merge_ident (put := fun t => (i, t, none, false)) (d := d') (fun _ => rfl) t (by omega)]
    refine if_bind ?_
    rw [mergeAll_append, merge_json (put := fun v => (i, t, v, false)) (d := d') (fun _ => rfl) v (by omega)]
    refine if_bind ?_
    rw [if_pos (Nat.zero_le _)]
    exact merge_bool (fun h => by rw [h]) (fun h => by rw [h]; rfl)
  | .incl i, hs, n, d, hn => by
    have ih : ∀ q, i = some q → q.size < 2 ^ 64 → ∀ n d, d ≤ n → mergeAll (PQuery.mergeWith (innerQuery n) d) .unset q.fields =
        if q.depth ≤ d then some q else none := fun q hq h => by
      cases i with
      | none => cases hq
      | some j => obtain rfl : j = q := Option.some.inj hq
                  exact PQuery.merge_fuel j h
    have hl := PQuery.len (.incl i)
    simp only [len_msg (show 14 < 16 by omega), len_nil, f_pipe, f_prop, f_pres, f_val, f_incl, f_count] at hl
    rw [← hl] at hs
    simp only [lenField] at hs
    have hs1 := hs
    rw [len_opt (by omega) PQuery.len] at hs1
    simp only [f_pipe, f_prop, f_pres, f_val, f_incl, f_count]
    refine variant (bd := optDepth PQuery.depth i) (m := i) (init := none)
      (merge := mergeInner (innerQuery n)) (C := PQuery.incl) (fun _ => rfl)
      (Shapes.opt (by omega) _ _) (by omega)
      (by simp only [d_incl, d_count]) (fun d' hd => ?_)
    obtain ⟨n, rfl⟩ : ∃ k, n = k + 1 := ⟨n - 1, by omega⟩
    exact merge_inner (put := id) (d := d') (n := n) (by omega) (step := mergeInner (innerQuery (n + 1)) d') (fun _ => by simp [mergeInner]) i
        (fun q hq => ih q hq (size_opt (n := 2 ^ 64) (by omega) hq)) (by omega)
  | .count i, hs, n, d, hn => by
    have ih : ∀ q, i = some q → q.size < 2 ^ 64 → ∀ n d, d ≤ n → mergeAll (PQuery.mergeWith (innerQuery n) d) .unset q.fields =
        if q.depth ≤ d then some q else none := fun q hq h => by
      cases i with
      | none => cases hq
      | some j => obtain rfl : j = q := Option.some.inj hq
                  exact PQuery.merge_fuel j h
    have hl := PQuery.len (.count i)
    simp only [len_msg (show 15 < 16 by omega), len_nil, f_pipe, f_prop, f_pres, f_val, f_incl, f_count] at hl
    rw [← hl] at hs
    simp only [lenField] at hs
    have hs1 := hs
    rw [len_opt (by omega) PQuery.len] at hs1
    simp only [f_pipe, f_prop, f_pres, f_val, f_incl, f_count]
    refine variant (bd := optDepth PQuery.depth i) (m := i) (init := none)
      (merge := mergeInner (innerQuery n)) (C := PQuery.count) (fun _ => rfl)
      (Shapes.opt (by omega) _ _) (by omega)
      (by simp only [d_incl, d_count]) (fun d' hd => ?_)
    obtain ⟨n, rfl⟩ : ∃ k, n = k + 1 := ⟨n - 1, by omega⟩
    exact merge_inner (put := id) (d := d') (n := n) (by omega) (step := mergeInner (innerQuery (n + 1)) d') (fun _ => by simp [mergeInner]) i
        (fun q hq => ih q hq (size_opt (n := 2 ^ 64) (by omega) hq)) (by omega)

theorem PQuery.merge_fields (q : PQuery) (hs : q.size < 2 ^ 64) (d : Nat) :
    mergeAll (PQuery.merge d) .unset q.fields = if q.depth ≤ d then some q else none :=
  PQuery.merge_fuel q hs d d (Nat.le_refl d)

end IndraDB
