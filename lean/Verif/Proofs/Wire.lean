import Verif.Model.Wire
import Verif.Proofs.Proto
/-
Encoding and splitting into fields; sizes.
-/
namespace IndraDB
namespace Wire

theorem putVarint_length (n : Nat) : (putVarint n).length = varintLen n := by
  fun_induction putVarint n with
  | case1 n h => rw [varintLen, if_pos h]; rfl
  | case2 n h ih => rw [varintLen, if_neg h, List.length_cons, ih]; omega

theorem getVarint_put (r : Bytes) : ∀ (k n : Nat), n < 2 * 128 ^ k → getVarint (k + 1) (putVarint n ++ r) = some (n, r)
  | 0, n, h => by
    rw [putVarint, if_pos (by omega), List.cons_append, List.nil_append, getVarint]
    have : (UInt8.ofNat n).toNat = n := by simp; omega
    rw [this, if_pos (by omega), if_neg (by omega)]
  | k + 1, n, h => by
    rw [putVarint]
    split
    · rw [List.cons_append, List.nil_append, getVarint]
      have : (UInt8.ofNat n).toNat = n := by simp; omega
      rw [this, if_pos (by omega), if_neg (by omega)]
    · rw [List.cons_append, getVarint]
      have : (UInt8.ofNat (n % 128 + 128)).toNat = n % 128 + 128 := by simp; omega
      rw [this, if_neg (by omega), getVarint_put r k (n / 128) (by rw [Nat.pow_succ] at h; omega)]
      simp only [Option.some.injEq, Prod.mk.injEq, and_true]
      omega

theorem getVarint_ten {n : Nat} (h : n < 2 ^ 64) (r : Bytes) : getVarint 10 (putVarint n ++ r) = some (n, r) :=
  getVarint_put r 9 n (by simpa using h)

theorem getKey_put {tag w : Nat} (h1 : 1 ≤ tag) (h2 : tag < 2 ^ 29) (hw : w < 8) (r : Bytes) :
    getKey (putVarint (8 * tag + w) ++ r) = some (tag, w, r) := by
  rw [getKey, getVarint_ten (by omega)]
  simp only
  rw [if_pos ⟨by omega, by omega⟩]
  simp only [Option.some.injEq, Prod.mk.injEq, and_true]
  omega

/-- A field as prost writes it. -/
def FieldOk : Field → Prop
  | (tag, .varint n) => 1 ≤ tag ∧ tag < 2 ^ 29 ∧ n < 2 ^ 64
  | (tag, .len b) => 1 ≤ tag ∧ tag < 2 ^ 29 ∧ b.length < 2 ^ 64
  | (tag, .fixed64 b) => 1 ≤ tag ∧ tag < 2 ^ 29 ∧ b.length = 8
  | (tag, .fixed32 b) => 1 ≤ tag ∧ tag < 2 ^ 29 ∧ b.length = 4
  | _ => False

theorem getField_put {f : Field} (hf : FieldOk f) (r : Bytes) : ∃ wt b, getKey (putField f ++ r) = some (f.1, wt, b) ∧
    ∀ k, getVal (k + 1) wt f.1 b = some (f.2, r) := by
  match f, hf with
  | (tag, .varint n), ⟨h1, h2, h3⟩ =>
    refine ⟨0, putVarint n ++ r, ?_, fun k => ?_⟩
    · rw [putField, List.append_assoc]; exact getKey_put (w := 0) h1 (by omega) (by omega) _
    · rw [getVal, if_pos rfl, getVarint_ten h3]; rfl
  | (tag, .len b), ⟨h1, h2, h3⟩ =>
    refine ⟨2, putVarint b.length ++ (b ++ r), ?_, fun k => ?_⟩
    · rw [putField, List.append_assoc, List.append_assoc]; exact getKey_put h1 (by omega) (by omega) _
    · rw [getVal, if_neg (by omega), if_neg (by omega), if_pos rfl, getVarint_ten h3]
      simp
  | (tag, .fixed64 b), ⟨h1, h2, h3⟩ =>
    refine ⟨1, b ++ r, ?_, fun k => ?_⟩
    · rw [putField, List.append_assoc]; exact getKey_put h1 (by omega) (by omega) _
    · rw [getVal, if_neg (by omega), if_pos rfl, if_pos (by simp; omega), ← h3]
      simp
  | (tag, .fixed32 b), ⟨h1, h2, h3⟩ =>
    refine ⟨5, b ++ r, ?_, fun k => ?_⟩
    · rw [putField, List.append_assoc]; exact getKey_put h1 (by omega) (by omega) _
    · rw [getVal, if_neg (by omega), if_neg (by omega), if_neg (by omega), if_neg (by omega), if_pos rfl,
        if_pos (by simp; omega), ← h3]
      simp

theorem varintLen_pos (n : Nat) : 1 ≤ varintLen n := by rw [varintLen]; split <;> omega

theorem putField_ne {f : Field} : putField f ≠ [] := by
  have h : ∀ n, putVarint n ≠ [] := fun n hn => by
    have := varintLen_pos n
    rw [← putVarint_length, hn] at this
    simp at this
  rcases f with ⟨t, v⟩
  cases v <;> simp [putField, h]

theorem getFieldsN_put : ∀ (l : List Field), (∀ f ∈ l, FieldOk f) → ∀ n, l.length ≤ n → getFieldsN n (putFields l) = some l
  | [], _, n, _ => by cases n <;> rfl
  | f :: r, h, n, hn => by
    obtain ⟨n, rfl⟩ : ∃ m, n = m + 1 := ⟨n - 1, by simp at hn; omega⟩
    obtain ⟨wt, b, h1, h2⟩ := getField_put (h f List.mem_cons_self) (putFields r)
    have hne : putField f ++ putFields r ≠ [] := by simp [putField_ne]
    rw [putFields]
    rw [getFieldsN.eq_3 _ _ (fun h => hne h), h1]
    simp only [h2]
    rw [getFieldsN_put r (fun f hf => h f (List.mem_cons_of_mem _ hf)) n (by simpa using hn)]
    rfl

theorem putFields_length_le : ∀ l : List Field, l.length ≤ (putFields l).length
  | [] => Nat.le_refl _
  | f :: r => by
    have := putFields_length_le r
    have h : 1 ≤ (putField f).length := by
      have := @putField_ne f
      cases h : putField f with
      | nil => exact absurd h this
      | cons => simp
    simp only [putFields, List.length_append, List.length_cons]
    omega

theorem getFields_put {l : List Field} (h : ∀ f ∈ l, FieldOk f) : getFields (putFields l) = some l :=
  getFieldsN_put l h _ (putFields_length_le l)

theorem putFields_append (a b : List Field) : putFields (a ++ b) = putFields a ++ putFields b := by
  induction a with
  | nil => rfl
  | cons f r ih => simp [putFields, ih]

theorem mergeAll_append {α : Type} (f : α → Field → Option α) (l r : List Field) : ∀ a, mergeAll f a (l ++ r) =
    (mergeAll f a l).bind (fun a => mergeAll f a r) := by
  induction l with
  | nil => intro a; rfl
  | cons x l ih =>
    intro a
    simp only [List.cons_append, mergeAll]
    cases f a x with
    | none => rfl
    | some b => exact ih b

/-! ### Sizes -/

theorem varintLen_small {n : Nat} (h : n < 128) : varintLen n = 1 := by rw [varintLen, if_pos h]

theorem len_msg {tag : Nat} (h : tag < 16) (l : List Field) (r : List Field) :
    (putFields (msgF tag l :: r)).length = lenField (putFields l).length + (putFields r).length := by
  simp only [putFields, msgF, putField, List.length_append, putVarint_length, lenField, varintLen_small (show 8 * tag + 2 < 128 by omega)]

theorem len_nil : (putFields []).length = 0 := rfl

theorem len_append (a b : List Field) : (putFields (a ++ b)).length = (putFields a).length + (putFields b).length := by
  rw [putFields_append, List.length_append]

theorem len_bytes {tag : Nat} (h : tag < 16) (b : Bytes) : (putFields (bytesF tag b)).length = bytesField b.length := by
  unfold bytesF bytesField
  by_cases hb : b = []
  · simp [hb, putFields]
  · rw [if_neg hb, if_neg (by simpa using hb)]
    simp [putFields, putField, putVarint_length, lenField, varintLen_small (show 8 * tag + 2 < 128 by omega)]
    omega

theorem len_int {tag : Nat} (h : tag < 16) (n : Nat) : (putFields (intF tag n)).length = intField n := by
  unfold intF intField
  split
  · rfl
  · simp [putFields, putField, putVarint_length, varintLen_small (show 8 * tag < 128 by omega)]

theorem len_bool {tag : Nat} (h : tag < 16) (b : Bool) : (putFields (boolF tag b)).length = boolField b := by
  unfold boolF boolField
  split
  · simp [putFields, putField, putVarint_length, varintLen_small (show 8 * tag < 128 by omega), varintLen_small (show 1 < 128 by omega)]
  · rfl

theorem len_opt {α : Type} {tag : Nat} (h : tag < 16) {f : α → List Field} {size : α → Nat}
    (hs : ∀ a, (putFields (f a)).length = size a) (o : Option α) : (putFields (optF tag f o)).length = msgField size o := by
  cases o with
  | none => rfl
  | some a => simp only [optF, msgField, len_msg h, hs, len_nil, Nat.add_zero]

theorem len_rep {α : Type} {tag : Nat} (h : tag < 16) {f : α → List Field} {size : α → Nat}
    (hs : ∀ a, (putFields (f a)).length = size a) (l : List α) : (putFields (repF tag f l)).length = repField size l := by
  induction l with
  | nil => rfl
  | cons a r ih =>
    have : repF tag f (a :: r) = msgF tag (f a) :: repF tag f r := rfl
    rw [this, len_msg h, ih, hs, repField]

end Wire
open Wire

theorem PUuid.len (u : PUuid) : (putFields u.fields).length = u.size := len_bytes (by omega) _
theorem PIdentifier.len (u : PIdentifier) : (putFields u.fields).length = u.size := len_bytes (by omega) _
theorem PJson.len (u : PJson) : (putFields u.fields).length = u.size := len_bytes (by omega) _
theorem PEdge.len (e : PEdge) : (putFields e.fields).length = e.size := by
  simp only [PEdge.fields, PEdge.size, len_append, len_opt (show 1 < 16 by omega) PUuid.len,
    len_opt (show 2 < 16 by omega) PIdentifier.len, len_opt (show 3 < 16 by omega) PUuid.len]
theorem PVertex.len (e : PVertex) : (putFields e.fields).length = e.size := by
  simp only [PVertex.fields, PVertex.size, len_append, len_opt (show 1 < 16 by omega) PUuid.len,
    len_opt (show 2 < 16 by omega) PIdentifier.len]

theorem PQuery.len : ∀ q : PQuery, (putFields q.fields).length = q.size
  | .unset => rfl
  | .allVertex | .allEdge => by simp [PQuery.fields, PQuery.size, len_msg, len_nil]
  | .rangeVertex limit t s => by
    simp [PQuery.fields, PQuery.size, len_msg, len_nil, len_int, len_opt (show 2 < 16 by omega) PIdentifier.len,
      len_opt (show 3 < 16 by omega) PUuid.len, len_append, Nat.add_assoc]
  | .specificVertex l => by simp [PQuery.fields, PQuery.size, len_msg, len_nil, len_rep (show 1 < 16 by omega) PUuid.len]
  | .vertexWithPropertyPresence n | .edgeWithPropertyPresence n => by
    simp [PQuery.fields, PQuery.size, len_msg, len_nil, len_opt (show 1 < 16 by omega) PIdentifier.len]
  | .vertexWithPropertyValue n v | .edgeWithPropertyValue n v => by
    simp [PQuery.fields, PQuery.size, len_msg, len_nil, len_append, len_opt (show 1 < 16 by omega) PIdentifier.len,
      len_opt (show 2 < 16 by omega) PJson.len]
  | .specificEdge l => by simp [PQuery.fields, PQuery.size, len_msg, len_nil, len_rep (show 1 < 16 by omega) PEdge.len]
  | .pipe i d limit t => by
    cases i with
    | none => simp [PQuery.fields, PQuery.size, len_msg, len_nil, len_append, len_int, i32Field, i32Nat,
        len_opt (show 4 < 16 by omega) PIdentifier.len, Nat.add_assoc]
    | some i => simp [PQuery.fields, PQuery.size, len_msg, len_nil, len_append, len_int, i32Field, i32Nat,
        len_opt (show 4 < 16 by omega) PIdentifier.len, PQuery.len i, Nat.add_assoc]
  | .pipeProperty i n => by
    cases i with
    | none => simp [PQuery.fields, PQuery.size, len_msg, len_nil, len_opt (show 2 < 16 by omega) PIdentifier.len]
    | some i => simp [PQuery.fields, PQuery.size, len_msg, len_nil, len_opt (show 2 < 16 by omega) PIdentifier.len, PQuery.len i]
  | .pipeWithPropertyPresence i n ex => by
    cases i with
    | none => simp [PQuery.fields, PQuery.size, len_msg, len_nil, len_append, len_bool, len_opt (show 2 < 16 by omega) PIdentifier.len]
    | some i => simp [PQuery.fields, PQuery.size, len_msg, len_nil, len_append, len_bool, len_opt (show 2 < 16 by omega) PIdentifier.len,
        PQuery.len i, Nat.add_assoc]
  | .pipeWithPropertyValue i n v eq => by
    cases i with
    | none => simp [PQuery.fields, PQuery.size, len_msg, len_nil, len_append, len_bool, len_opt (show 2 < 16 by omega) PIdentifier.len,
        len_opt (show 3 < 16 by omega) PJson.len, Nat.add_assoc]
    | some i => simp [PQuery.fields, PQuery.size, len_msg, len_nil, len_append, len_bool, len_opt (show 2 < 16 by omega) PIdentifier.len,
        len_opt (show 3 < 16 by omega) PJson.len, PQuery.len i, Nat.add_assoc]
  | .incl i => by
    cases i with
    | none => simp [PQuery.fields, PQuery.size, len_msg, len_nil]
    | some i => simp [PQuery.fields, PQuery.size, len_msg, len_nil, PQuery.len i]
  | .count i => by
    cases i with
    | none => simp [PQuery.fields, PQuery.size, len_msg, len_nil]
    | some i => simp [PQuery.fields, PQuery.size, len_msg, len_nil, PQuery.len i]

theorem PNamedProperty.len (p : PNamedProperty) : (putFields p.fields).length = p.size := by
  simp only [PNamedProperty.fields, PNamedProperty.size, len_append, len_opt (show 2 < 16 by omega) PJson.len,
    len_opt (show 3 < 16 by omega) PIdentifier.len]
  omega
theorem PVertexProperties.len (p : PVertexProperties) : (putFields p.fields).length = p.size := by
  simp only [PVertexProperties.fields, PVertexProperties.size, len_append, len_opt (show 1 < 16 by omega) PVertex.len,
    len_rep (show 2 < 16 by omega) PNamedProperty.len]
theorem PEdgeProperties.len (p : PEdgeProperties) : (putFields p.fields).length = p.size := by
  simp only [PEdgeProperties.fields, PEdgeProperties.size, len_append, len_opt (show 1 < 16 by omega) PEdge.len,
    len_rep (show 2 < 16 by omega) PNamedProperty.len]

theorem POutput.len (o : POutput) : (putFields o.fields).length = o.size := by
  cases o with
  | unset => rfl
  | vertices l => simp [POutput.fields, POutput.size, len_msg, len_nil, len_rep (show 1 < 16 by omega) PVertex.len]
  | edges l => simp [POutput.fields, POutput.size, len_msg, len_nil, len_rep (show 1 < 16 by omega) PEdge.len]
  | count n => simp [POutput.fields, POutput.size, putFields, putField, putVarint_length, varintLen_small]
  | vertexProperties l =>
    simp [POutput.fields, POutput.size, len_msg, len_nil, len_rep (show 1 < 16 by omega) PVertexProperties.len]
  | edgeProperties l =>
    simp [POutput.fields, POutput.size, len_msg, len_nil, len_rep (show 1 < 16 by omega) PEdgeProperties.len]

theorem PBulkInsertItem.len (i : PBulkInsertItem) : (putFields i.fields).length = i.size := by
  cases i with
  | unset => rfl
  | vertex v => simp [PBulkInsertItem.fields, PBulkInsertItem.size, len_msg, len_nil, PVertex.len]
  | edge v => simp [PBulkInsertItem.fields, PBulkInsertItem.size, len_msg, len_nil, PEdge.len]
  | vertexProperty i n v =>
    simp only [PBulkInsertItem.fields, PBulkInsertItem.size, len_msg (show 3 < 16 by omega), len_nil, len_append,
      len_opt (show 1 < 16 by omega) PUuid.len, len_opt (show 3 < 16 by omega) PJson.len,
      len_opt (show 4 < 16 by omega) PIdentifier.len, Nat.add_zero]
    congr 1; omega
  | edgeProperty i n v =>
    simp only [PBulkInsertItem.fields, PBulkInsertItem.size, len_msg (show 4 < 16 by omega), len_nil, len_append,
      len_opt (show 1 < 16 by omega) PEdge.len, len_opt (show 3 < 16 by omega) PJson.len,
      len_opt (show 4 < 16 by omega) PIdentifier.len, Nat.add_zero]
    congr 1; omega

theorem PIndexPropertyRequest.len (r : PIndexPropertyRequest) : (putFields r.fields).length = r.size :=
  len_opt (show 1 < 16 by omega) PIdentifier.len _
theorem PSetPropertiesRequest.len (r : PSetPropertiesRequest) : (putFields r.fields).length = r.size := by
  simp only [PSetPropertiesRequest.fields, PSetPropertiesRequest.size, len_append, len_opt (show 1 < 16 by omega) PQuery.len,
    len_opt (show 2 < 16 by omega) PIdentifier.len, len_opt (show 3 < 16 by omega) PJson.len]
theorem PExecutePluginRequest.len (r : PExecutePluginRequest) : (putFields r.fields).length = r.size := by
  simp only [PExecutePluginRequest.fields, PExecutePluginRequest.size, len_append, len_bytes (show 1 < 16 by omega),
    len_opt (show 2 < 16 by omega) PJson.len]

end IndraDB
