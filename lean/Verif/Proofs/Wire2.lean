import Verif.Proofs.Wire
/-
Merging the fields of an encoded message gives the message back.
-/
namespace IndraDB
namespace Wire

/-- A field of a message prost writes, whatever its length. -/
def Shape : Field → Prop
  | (tag, .varint n) => 1 ≤ tag ∧ tag < 16 ∧ n < 2 ^ 64
  | (tag, .len _) => 1 ≤ tag ∧ tag < 16
  | _ => False

/-- All fields are. -/
def Shapes (l : List Field) : Prop := ∀ f ∈ l, Shape f

theorem Shapes.nil : Shapes [] := fun _ h => nomatch h
theorem Shapes.append {a b : List Field} (ha : Shapes a) (hb : Shapes b) : Shapes (a ++ b) := fun f h => by
  rcases List.mem_append.1 h with h | h
  · exact ha f h
  · exact hb f h
theorem Shapes.one {f : Field} (h : Shape f) : Shapes [f] := fun g hg => by rw [List.mem_singleton.1 hg]; exact h
theorem Shapes.msg {tag : Nat} (h : 1 ≤ tag ∧ tag < 16) (l : List Field) : Shapes [msgF tag l] := Shapes.one h
theorem Shapes.opt {α : Type} {tag : Nat} (h : 1 ≤ tag ∧ tag < 16) (f : α → List Field) : ∀ o, Shapes (optF tag f o)
  | none => Shapes.nil
  | some a => Shapes.msg h (f a)
theorem Shapes.rep {α : Type} {tag : Nat} (h : 1 ≤ tag ∧ tag < 16) (f : α → List Field) (l : List α) :
    Shapes (repF tag f l) := fun g hg => by
  obtain ⟨a, _, rfl⟩ := List.mem_map.1 hg
  exact h
theorem Shapes.bytes {tag : Nat} (h : 1 ≤ tag ∧ tag < 16) (b : Bytes) : Shapes (bytesF tag b) := by
  unfold bytesF; split
  · exact Shapes.nil
  · exact Shapes.one h
theorem Shapes.int {tag : Nat} (h : 1 ≤ tag ∧ tag < 16) {n : Nat} (hn : n < 2 ^ 64) : Shapes (intF tag n) := by
  unfold intF; split
  · exact Shapes.nil
  · exact Shapes.one ⟨h.1, h.2, hn⟩
theorem Shapes.bool {tag : Nat} (h : 1 ≤ tag ∧ tag < 16) (b : Bool) : Shapes (boolF tag b) := by
  unfold boolF; split
  · exact Shapes.one ⟨h.1, h.2, by omega⟩
  · exact Shapes.nil

theorem Shapes.ok : ∀ {l : List Field}, Shapes l → (putFields l).length < 2 ^ 64 → ∀ f ∈ l, FieldOk f
  | f :: r, hs, hl, g, hg => by
    simp only [putFields, List.length_append] at hl
    rcases List.mem_cons.1 hg with rfl | hg
    · have h := hs g List.mem_cons_self
      rcases g with ⟨tag, v⟩
      cases v with
      | varint n => exact ⟨h.1, by have := h.2.1; omega, h.2.2⟩
      | len b =>
        refine ⟨h.1, by have := h.2; omega, ?_⟩
        simp only [putField, List.length_append] at hl
        omega
      | fixed64 b => exact h.elim
      | group n => exact h.elim
      | fixed32 b => exact h.elim
    · exact Shapes.ok (fun f hf => hs f (List.mem_cons_of_mem _ hf)) (by omega) g hg

theorem getFields_shapes {l : List Field} (hs : Shapes l) (hl : (putFields l).length < 2 ^ 64) :
    getFields (putFields l) = some l := getFields_put (hs.ok hl)

section
variable {α σ : Type} {fields : α → List Field} {merge : Nat → α → Field → Option α} {empty : α} {depth : α → Nat}

theorem sub_put {a : α} (hs : Shapes (fields a)) (hl : (putFields (fields a)).length < 2 ^ 64)
    (d : Nat) (h : ∀ d', d = d' + 1 → mergeAll (merge d') empty (fields a) = if depth a ≤ d' then some a else none) :
    sub d merge empty (.len (putFields (fields a))) = if 1 + depth a ≤ d then some a else none := by
  cases d with
  | zero => rw [if_neg (by omega)]; rfl
  | succ d =>
    rw [sub]
    simp only [getFields_shapes hs hl]
    rw [h d rfl]
    by_cases hd : depth a ≤ d
    · rw [if_pos hd, if_pos (by omega)]
    · rw [if_neg hd, if_neg (by omega)]

/-- Levels of an optional field. -/
def optDepth (depth : α → Nat) : Option α → Nat
  | none => 0
  | some a => 1 + depth a

/-- Levels of a repeated field. -/
def repDepth (depth : α → Nat) : List α → Nat
  | [] => 0
  | a :: r => max (1 + depth a) (repDepth depth r)

theorem merge_opt {tag d : Nat} {step : σ → Field → Option σ} {put : Option α → σ}
    (hstep : ∀ v, step (put none) (tag, v) = (subOpt d merge empty none v).map put)
    (o : Option α) (ho : ∀ a, o = some a → sub d merge empty (.len (putFields (fields a))) =
      if 1 + depth a ≤ d then some a else none) :
    mergeAll step (put none) (optF tag fields o) = if optDepth depth o ≤ d then some (put o) else none := by
  cases o with
  | none => simp [optF, mergeAll, optDepth]
  | some a =>
    simp only [optF, mergeAll, msgF, hstep, subOpt, Option.getD_none, ho a rfl, optDepth]
    by_cases h : 1 + depth a ≤ d
    · simp [h]
    · simp [h]

theorem merge_rep {tag d : Nat} {step : σ → Field → Option σ} {put : List α → σ}
    (hstep : ∀ l v, step (put l) (tag, v) = (subRep d merge empty l v).map put) :
    ∀ (l : List α) (l0 : List α), (∀ a ∈ l, sub d merge empty (.len (putFields (fields a))) =
      if 1 + depth a ≤ d then some a else none) →
    mergeAll step (put l0) (repF tag fields l) = if repDepth depth l ≤ d then some (put (l0 ++ l)) else none
  | [], l0, _ => by simp [repF, mergeAll, repDepth]
  | a :: r, l0, ho => by
    have : repF tag fields (a :: r) = msgF tag (fields a) :: repF tag fields r := rfl
    simp only [this, mergeAll, msgF, hstep, subRep, ho a List.mem_cons_self, repDepth]
    by_cases h : 1 + depth a ≤ d
    · simp only [h, if_true, Option.map_some]
      rw [merge_rep hstep r (l0 ++ [a]) (fun a ha => ho a (List.mem_cons_of_mem _ ha))]
      rw [List.append_assoc]
      by_cases h2 : repDepth depth r ≤ d
      · simp [h, h2, Nat.max_le]
      · simp [h2, Nat.max_le]
    · simp [h, Nat.max_le]
end

theorem merge_bytes {σ : Type} {tag : Nat} {step : σ → Field → Option σ} {s t : σ} {b : Bytes}
    (h0 : b = [] → s = t) (hstep : step s (tag, .len b) = some t) : mergeAll step s (bytesF tag b) = some t := by
  unfold bytesF; split
  · next h => rw [h0 h]; rfl
  · simp [mergeAll, hstep]

theorem merge_int {σ : Type} {tag n : Nat} {step : σ → Field → Option σ} {s t : σ}
    (h0 : n = 0 → s = t) (hstep : step s (tag, .varint n) = some t) : mergeAll step s (intF tag n) = some t := by
  unfold intF; split
  · next h => rw [h0 h]; rfl
  · simp [mergeAll, hstep]

theorem merge_bool {σ : Type} {tag : Nat} {b : Bool} {step : σ → Field → Option σ} {s t : σ}
    (h0 : b = false → s = t) (hstep : b = true → step s (tag, .varint 1) = some t) :
    mergeAll step s (boolF tag b) = some t := by
  unfold boolF
  cases b with
  | false => rw [h0 rfl]; rfl
  | true => simp [mergeAll, hstep rfl]

theorem if_bind {α β : Type} {a b d : Nat} {x : α} {y : β} {f : α → Option β}
    (h : f x = if b ≤ d then some y else none) :
    (if a ≤ d then some x else none).bind f = if max a b ≤ d then some y else none := by
  by_cases ha : a ≤ d
  · rw [if_pos ha, Option.bind_some, h]
    by_cases hb : b ≤ d
    · rw [if_pos hb, if_pos (by omega)]
    · rw [if_neg hb, if_neg (by omega)]
  · rw [if_neg ha, if_neg (by omega)]; rfl

theorem if_zero {α : Type} {d : Nat} {x : Option α} : x = if 0 ≤ d then x else none := by simp

theorem if_depth {α : Type} {a b d : Nat} {x : α} (h : a = b) :
    (if a ≤ d then some x else none) = if b ≤ d then some x else none := by rw [h]

theorem str_back (s : String) : String.fromUTF8? ⟨(strBytes s).toArray⟩ = some s := by
  have : (⟨(strBytes s).toArray⟩ : ByteArray) = s.toUTF8 := by
    apply ByteArray.ext; simp [strBytes]
  rw [this]
  unfold String.fromUTF8?
  exact dif_pos s.isValidUTF8

theorem str_empty {s : String} (h : strBytes s = []) : s = "" := by
  have h1 := str_back s
  have h2 := str_back ""
  have : strBytes "" = [] := by simp [strBytes]
  rw [h] at h1; rw [this] at h2
  rw [h1] at h2
  simpa using h2

theorem i32_back (n : Int32) : Int32.ofInt (i32Nat n : Nat) = n := by
  apply Int32.toInt_inj.1
  rw [Int32.toInt_ofInt]
  have h1 := n.le_toInt
  have h2 := n.toInt_lt
  unfold i32Nat
  rw [Int.bmod_def]
  simp only [Int32.size]
  split <;> split <;> omega

theorem i32_lt (n : Int32) : i32Nat n < 2 ^ 64 := by
  have h1 := n.le_toInt
  have h2 := n.toInt_lt
  unfold i32Nat
  split <;> omega

theorem i32_zero {n : Int32} (h : i32Nat n = 0) : n = 0 := by
  rw [← i32_back n, h]; rfl

theorem size_opt {α : Type} {size : α → Nat} {o : Option α} {n : Nat} (h : msgField size o < n) {a : α} (ha : o = some a) :
    size a < n := by
  subst ha
  simp only [msgField, lenField] at h
  omega

theorem size_rep {α : Type} {size : α → Nat} : ∀ {l : List α} {n : Nat}, repField size l < n → ∀ a ∈ l, size a < n
  | b :: r, n, h, a, ha => by
    simp only [repField, lenField] at h
    rcases List.mem_cons.1 ha with rfl | ha
    · omega
    · exact size_rep (by omega) a ha

end Wire
open Wire

theorem PUuid.shapes (u : PUuid) : Shapes u.fields := Shapes.bytes (by omega) _
theorem PIdentifier.shapes (u : PIdentifier) : Shapes u.fields := Shapes.bytes (by omega) _
theorem PJson.shapes (u : PJson) : Shapes u.fields := Shapes.bytes (by omega) _

theorem PUuid.merge_fields (u : PUuid) (d : Nat) : mergeAll (PUuid.merge d) ⟨[]⟩ u.fields = if 0 ≤ d then some u else none := by
  rw [if_pos (Nat.zero_le d)]
  exact merge_bytes (fun h => by cases u; simp_all) rfl

theorem PIdentifier.merge_fields (u : PIdentifier) (d : Nat) :
    mergeAll (PIdentifier.merge d) ⟨""⟩ u.fields = if 0 ≤ d then some u else none := by
  rw [if_pos (Nat.zero_le d)]
  exact merge_bytes (fun h => by cases u; have := str_empty h; simp_all) (by simp [PIdentifier.merge, asString, str_back])

theorem PJson.merge_fields (u : PJson) (d : Nat) :
    mergeAll (PJson.merge d) ⟨""⟩ u.fields = if 0 ≤ d then some u else none := by
  rw [if_pos (Nat.zero_le d)]
  exact merge_bytes (fun h => by cases u; have := str_empty h; simp_all) (by simp [PJson.merge, asString, str_back])

theorem PUuid.sub_back (u : PUuid) (h : u.size < 2 ^ 64) (d : Nat) :
    sub d PUuid.merge ⟨[]⟩ (.len (putFields u.fields)) = if 1 + 0 ≤ d then some u else none :=
  sub_put (depth := fun _ => 0) u.shapes (by rw [PUuid.len]; exact h) d (fun d _ => PUuid.merge_fields u d)
theorem PIdentifier.sub_back (u : PIdentifier) (h : u.size < 2 ^ 64) (d : Nat) :
    sub d PIdentifier.merge ⟨""⟩ (.len (putFields u.fields)) = if 1 + 0 ≤ d then some u else none :=
  sub_put (depth := fun _ => 0) u.shapes (by rw [PIdentifier.len]; exact h) d (fun d _ => PIdentifier.merge_fields u d)
theorem PJson.sub_back (u : PJson) (h : u.size < 2 ^ 64) (d : Nat) :
    sub d PJson.merge ⟨""⟩ (.len (putFields u.fields)) = if 1 + 0 ≤ d then some u else none :=
  sub_put (depth := fun _ => 0) u.shapes (by rw [PJson.len]; exact h) d (fun d _ => PJson.merge_fields u d)

namespace Wire
/-- Levels of an optional `Uuid`, `Identifier` or `Json`. -/
def flat {α : Type} : Option α → Nat := optDepth (fun _ => 0)

section
variable {σ : Type} {tag d : Nat} {step : σ → Field → Option σ}

theorem merge_uuid {put : Option PUuid → σ} (hstep : ∀ v, step (put none) (tag, v) = (uuidOpt d none v).map put)
    (o : Option PUuid) (hs : msgField PUuid.size o < 2 ^ 64) :
    mergeAll step (put none) (optF tag PUuid.fields o) = if flat o ≤ d then some (put o) else none :=
  merge_opt (depth := fun _ => 0) hstep o (fun _ h => PUuid.sub_back _ (size_opt hs h) d)
theorem merge_ident {put : Option PIdentifier → σ} (hstep : ∀ v, step (put none) (tag, v) = (identOpt d none v).map put)
    (o : Option PIdentifier) (hs : msgField PIdentifier.size o < 2 ^ 64) :
    mergeAll step (put none) (optF tag PIdentifier.fields o) = if flat o ≤ d then some (put o) else none :=
  merge_opt (depth := fun _ => 0) hstep o (fun _ h => PIdentifier.sub_back _ (size_opt hs h) d)
theorem merge_json {put : Option PJson → σ} (hstep : ∀ v, step (put none) (tag, v) = (jsonOpt d none v).map put)
    (o : Option PJson) (hs : msgField PJson.size o < 2 ^ 64) :
    mergeAll step (put none) (optF tag PJson.fields o) = if flat o ≤ d then some (put o) else none :=
  merge_opt (depth := fun _ => 0) hstep o (fun _ h => PJson.sub_back _ (size_opt hs h) d)
end
end Wire

/-! ### Edges and vertices -/

/-- Levels of an edge. -/
def PEdge.depth (e : PEdge) : Nat := max (flat e.outboundId) (max (flat e.t) (flat e.inboundId))
/-- Levels of a vertex. -/
def PVertex.depth (e : PVertex) : Nat := max (flat e.id) (flat e.t)

theorem PEdge.shapes (e : PEdge) : Shapes e.fields :=
  ((Shapes.opt (by omega) _ _).append (Shapes.opt (by omega) _ _)).append (Shapes.opt (by omega) _ _)
theorem PVertex.shapes (e : PVertex) : Shapes e.fields :=
  (Shapes.opt (by omega) _ _).append (Shapes.opt (by omega) _ _)

theorem PEdge.merge_fields (e : PEdge) (hs : e.size < 2 ^ 64) (d : Nat) :
    mergeAll (PEdge.merge d) ⟨none, none, none⟩ e.fields = if e.depth ≤ d then some e else none := by
  simp only [PEdge.size] at hs
  rcases e with ⟨o, t, i⟩
  simp only at hs
  simp only [PEdge.fields, List.append_assoc]
  rw [mergeAll_append, merge_uuid (put := fun o => (⟨o, none, none⟩ : PEdge)) (d := d) (fun _ => rfl) o (by omega)]
  refine if_bind ?_
  rw [mergeAll_append, merge_ident (put := fun t => (⟨o, t, none⟩ : PEdge)) (d := d) (fun _ => rfl) t (by omega)]
  refine if_bind ?_
  exact merge_uuid (put := fun i => (⟨o, t, i⟩ : PEdge)) (d := d) (fun _ => rfl) i (by omega)

theorem PVertex.merge_fields (e : PVertex) (hs : e.size < 2 ^ 64) (d : Nat) :
    mergeAll (PVertex.merge d) ⟨none, none⟩ e.fields = if e.depth ≤ d then some e else none := by
  simp only [PVertex.size] at hs
  rcases e with ⟨o, t⟩
  simp only at hs
  simp only [PVertex.fields]
  rw [mergeAll_append, merge_uuid (put := fun o => (⟨o, none⟩ : PVertex)) (d := d) (fun _ => rfl) o (by omega)]
  refine if_bind ?_
  exact merge_ident (put := fun t => (⟨o, t⟩ : PVertex)) (d := d) (fun _ => rfl) t (by omega)

theorem PEdge.sub_back (e : PEdge) (h : e.size < 2 ^ 64) (d : Nat) :
    sub d PEdge.merge ⟨none, none, none⟩ (.len (putFields e.fields)) = if 1 + e.depth ≤ d then some e else none :=
  sub_put e.shapes (by rw [PEdge.len]; exact h) d (fun d _ => e.merge_fields h d)
theorem PVertex.sub_back (e : PVertex) (h : e.size < 2 ^ 64) (d : Nat) :
    sub d PVertex.merge ⟨none, none⟩ (.len (putFields e.fields)) = if 1 + e.depth ≤ d then some e else none :=
  sub_put e.shapes (by rw [PVertex.len]; exact h) d (fun d _ => e.merge_fields h d)

end IndraDB
