import Verif.Proofs.Values
import Verif.Spec.JsonOrder
/-
Order laws of JSON comparison (`json.rs:59-144`).
-/
set_option linter.unusedSimpArgs false
set_option linter.unusedSectionVars false
namespace IndraDB

theorem intCmp_swap (a b : Int) : intCmp b a = (intCmp a b).swap := by
  unfold intCmp
  by_cases h : a < b
  · rw [if_neg (by omega), if_pos h, if_pos h]; rfl
  · by_cases h2 : b < a
    · rw [if_pos h2, if_neg h, if_pos h2]; rfl
    · rw [if_neg h2, if_neg h, if_neg h, if_neg h2]; rfl

theorem intCmp_lt {a b : Int} : intCmp a b = .lt ↔ a < b := by
  unfold intCmp
  split
  · simp; omega
  · split <;> simp <;> omega

theorem intCmp_comp {a b c : Int} (h1 : intCmp a b ≠ .gt) (h2 : intCmp b c ≠ .gt) :
    intCmp a c = (intCmp a b).then (intCmp b c) := by
  unfold intCmp at *
  by_cases k1 : a < b <;> by_cases k2 : b < a <;> by_cases k3 : b < c <;> by_cases k4 : c < b <;> simp only [k1, k2, k3, k4, if_true, if_false, ne_eq, not_true, reduceCtorEq, not_false_eq_true] at h1 h2 ⊢ <;>
    first
    | omega
    | (rw [if_pos (by omega)]; rfl)
    | (rw [if_neg (by omega), if_neg (by omega)]; rfl)

theorem bytesCmp_swap (a b : Bytes) : bytesCmp b a = (bytesCmp a b).swap := by
  unfold bytesCmp
  by_cases h : Order.lt a b = true
  · have h2 : Order.lt b a = false := by
      cases h3 : Order.lt b a
      · rfl
      · exact absurd (Order.trans _ _ _ h h3) (by simp [Order.irrefl])
    simp [h, h2]
  · by_cases h2 : Order.lt b a = true
    · simp [h, h2]
    · simp [h, h2]

theorem bytesCmp_comp {a b c : Bytes} (h1 : bytesCmp a b ≠ .gt) (h2 : bytesCmp b c ≠ .gt) :
    bytesCmp a c = (bytesCmp a b).then (bytesCmp b c) := by
  have hlt : ∀ x y : Bytes, bytesCmp x y = .lt ↔ Order.lt x y = true := by
    intro x y; unfold bytesCmp; split
    · simp; assumption
    · split <;> simp <;> simp_all
  cases e1 : bytesCmp a b with
  | gt => exact absurd e1 h1
  | eq => rw [bytesCmp_eq.1 e1]; rfl
  | lt =>
    cases e2 : bytesCmp b c with
    | gt => exact absurd e2 h2
    | eq => rw [← bytesCmp_eq.1 e2, e1]; rfl
    | lt => exact (hlt _ _).2 (Order.trans _ _ _ ((hlt _ _).1 e1) ((hlt _ _).1 e2))

theorem boolCmp_swap (a b : Bool) : boolCmp b a = (boolCmp a b).swap := by cases a <;> cases b <;> rfl

theorem boolCmp_comp {a b c : Bool} (h1 : boolCmp a b ≠ .gt) (h2 : boolCmp b c ≠ .gt) :
    boolCmp a c = (boolCmp a b).then (boolCmp b c) := by
  cases a <;> cases b <;> cases c <;> first | rfl | exact absurd rfl h1 | exact absurd rfl h2

theorem Num.cmp_swap (a b : Num) : b.cmp a = (a.cmp b).swap := by
  rw [Num.cmp_eq, Num.cmp_eq]
  cases a.intVal <;> cases b.intVal <;> exact intCmp_swap _ _

mutual
theorem Json.cmp_swap : ∀ a b : Json, b.partialCmp a = (a.partialCmp b).map Ordering.swap
  | .null, b => by cases b <;> simp [Json.partialCmp]
  | .bool x, b => by cases b <;> simp [Json.partialCmp, boolCmp_swap x]
  | .num x, b => by cases b <;> simp [Json.partialCmp, Num.cmp_swap x]
  | .str x, b => by cases b <;> simp [Json.partialCmp, bytesCmp_swap x]
  | .arr x, b => by cases b <;> simp [Json.partialCmp, JArr.cmp_swap x]
  | .obj x, b => by cases b <;> simp [Json.partialCmp, JObj.cmp_swap x]
theorem JArr.cmp_swap : ∀ a b : JArr, b.partialCmp a = (a.partialCmp b).map Ordering.swap
  | .nil, b => by cases b <;> simp [JArr.partialCmp]
  | .cons x r, b => by
    cases b with
    | nil => simp [JArr.partialCmp]
    | cons y s =>
      simp only [JArr.partialCmp]
      rw [Json.cmp_swap x y, JArr.cmp_swap r s]
      cases x.partialCmp y with
      | none => rfl
      | some o => cases o <;> rfl
theorem JObj.cmp_swap : ∀ a b : JObj, b.partialCmp a = (a.partialCmp b).map Ordering.swap
  | .nil, b => by cases b <;> simp [JObj.partialCmp]
  | .cons k x r, b => by
    cases b with
    | nil => simp [JObj.partialCmp]
    | cons l y s =>
      simp only [JObj.partialCmp]
      rw [bytesCmp_swap k l, Json.cmp_swap x y, JObj.cmp_swap r s]
      cases bytesCmp k l with
      | lt => rfl
      | gt => rfl
      | eq =>
        cases x.partialCmp y with
        | none => rfl
        | some o => cases o <;> rfl
end

section
variable {P : Num → Prop}
variable (hP : ∀ a b c : Num, P a → P b → P c → a.cmp b ≠ .gt → b.cmp c ≠ .gt → a.cmp c = (a.cmp b).then (b.cmp c))
include hP

mutual
theorem Json.cmp_comp : ∀ (a b c : Json) (o o' : Ordering), a.AllNums P → b.AllNums P → c.AllNums P →
    a.partialCmp b = some o → b.partialCmp c = some o' → o ≠ .gt → o' ≠ .gt → a.partialCmp c = some (o.then o')
  | .null, b, c, o, o' => by
    cases b <;> cases c <;> simp [Json.partialCmp]
    intro _ h1 h2 _ _; rw [← h1, ← h2]; rfl
  | .bool x, b, c, o, o' => by
    cases b <;> cases c <;> simp [Json.partialCmp]
    rintro - - - rfl rfl h1 h2; exact boolCmp_comp h1 h2
  | .num x, b, c, o, o' => by
    cases b <;> cases c <;> simp [Json.partialCmp, Json.AllNums]
    rintro p1 p2 p3 rfl rfl h1 h2; exact hP _ _ _ p1 p2 p3 h1 h2
  | .str x, b, c, o, o' => by
    cases b <;> cases c <;> simp [Json.partialCmp]
    rintro - - - rfl rfl h1 h2; exact bytesCmp_comp h1 h2
  | .arr x, b, c, o, o' => by
    cases b <;> cases c <;> simp only [Json.partialCmp, Json.AllNums, reduceCtorEq, false_implies, implies_true]
    exact JArr.cmp_comp x _ _ o o'
  | .obj x, b, c, o, o' => by
    cases b <;> cases c <;> simp only [Json.partialCmp, Json.AllNums, reduceCtorEq, false_implies, implies_true]
    exact JObj.cmp_comp x _ _ o o'
theorem JArr.cmp_comp : ∀ (a b c : JArr) (o o' : Ordering), a.AllNums P → b.AllNums P → c.AllNums P →
    a.partialCmp b = some o → b.partialCmp c = some o' → o ≠ .gt → o' ≠ .gt → a.partialCmp c = some (o.then o')
  | .nil, b, c, o, o' => by
    cases b <;> cases c <;> simp only [JArr.partialCmp, Option.some.injEq] <;> rintro - - - rfl h2 h3 h4
    · subst h2; rfl
    · subst h2; rfl
    · subst h2; exact absurd rfl h4
    · rfl
  | .cons x r, b, c, o, o' => by
    intro p1 p2 p3 h1 h2 h3 h4
    cases b with
    | nil => simp only [JArr.partialCmp, Option.some.injEq] at h1; exact absurd h1.symm h3
    | cons y s => cases c with
      | nil => simp only [JArr.partialCmp, Option.some.injEq] at h2; exact absurd h2.symm h4
      | cons z t =>
        have ih := Json.cmp_comp x y z
        have ih2 := JArr.cmp_comp r s t
        simp only [JArr.partialCmp] at h1 h2 ⊢
        cases e1 : x.partialCmp y with
        | none => rw [e1] at h1; simp at h1
        | some o1 =>
          cases e2 : y.partialCmp z with
          | none => rw [e2] at h2; simp at h2
          | some o2 =>
            rw [e1] at h1; rw [e2] at h2
            have n1 : o1 ≠ .gt := by rintro rfl; simp at h1; exact h3 h1.symm
            have n2 : o2 ≠ .gt := by rintro rfl; simp at h2; exact h4 h2.symm
            rw [ih o1 o2 p1.1 p2.1 p3.1 e1 e2 n1 n2]
            cases o1 with
            | gt => exact absurd rfl n1
            | lt => simp at h1; subst h1; rfl
            | eq => cases o2 with
              | gt => exact absurd rfl n2
              | lt =>
                simp at h1 h2; subst h2
                cases o <;> first | rfl | exact absurd rfl h3
              | eq => exact ih2 o o' p1.2 p2.2 p3.2 h1 h2 h3 h4
theorem JObj.cmp_comp : ∀ (a b c : JObj) (o o' : Ordering), a.AllNums P → b.AllNums P → c.AllNums P →
    a.partialCmp b = some o → b.partialCmp c = some o' → o ≠ .gt → o' ≠ .gt → a.partialCmp c = some (o.then o')
  | .nil, b, c, o, o' => by
    cases b <;> cases c <;> simp only [JObj.partialCmp, Option.some.injEq] <;> rintro - - - rfl h2 h3 h4
    · subst h2; rfl
    · subst h2; rfl
    · subst h2; exact absurd rfl h4
    · rfl
  | .cons k x r, b, c, o, o' => by
    intro p1 p2 p3 h1 h2 h3 h4
    cases b with
    | nil => simp only [JObj.partialCmp, Option.some.injEq] at h1; exact absurd h1.symm h3
    | cons l y s => cases c with
      | nil => simp only [JObj.partialCmp, Option.some.injEq] at h2; exact absurd h2.symm h4
      | cons m z t =>
        have ih := Json.cmp_comp x y z
        have ih2 := JObj.cmp_comp r s t
        simp only [JObj.partialCmp] at h1 h2 ⊢
        have k1 : bytesCmp k l ≠ .gt := by intro h; rw [h] at h1; simp at h1; exact h3 h1.symm
        have k2 : bytesCmp l m ≠ .gt := by intro h; rw [h] at h2; simp at h2; exact h4 h2.symm
        rw [bytesCmp_comp k1 k2]
        cases ek1 : bytesCmp k l with
        | gt => exact absurd ek1 k1
        | lt => rw [ek1] at h1; simp at h1; subst h1; rfl
        | eq =>
          rw [ek1] at h1
          cases ek2 : bytesCmp l m with
          | gt => exact absurd ek2 k2
          | lt =>
            rw [ek2] at h2; simp at h2; subst h2
            cases o <;> first | rfl | exact absurd rfl h3
          | eq =>
            rw [ek2] at h2
            simp only [Ordering.then] at h1 h2 ⊢
            cases e1 : x.partialCmp y with
            | none => rw [e1] at h1; simp at h1
            | some o1 =>
              cases e2 : y.partialCmp z with
              | none => rw [e2] at h2; simp at h2
              | some o2 =>
                rw [e1] at h1; rw [e2] at h2
                have n1 : o1 ≠ .gt := by rintro rfl; simp at h1; exact h3 h1.symm
                have n2 : o2 ≠ .gt := by rintro rfl; simp at h2; exact h4 h2.symm
                rw [ih o1 o2 p1.1 p2.1 p3.1 e1 e2 n1 n2]
                cases o1 with
                | gt => exact absurd rfl n1
                | lt => simp at h1; subst h1; rfl
                | eq => cases o2 with
                  | gt => exact absurd rfl n2
                  | lt =>
                    simp at h1 h2; subst h2
                    cases o <;> first | rfl | exact absurd rfl h3
                  | eq => exact ih2 o o' p1.2 p2.2 p3.2 h1 h2 h3 h4
end
end

theorem Num.int_comp (a b c : Num) (ha : a.IsInt) (hb : b.IsInt) (hc : c.IsInt) (h1 : a.cmp b ≠ .gt) (h2 : b.cmp c ≠ .gt) :
    a.cmp c = (a.cmp b).then (b.cmp c) := by
  have : ∀ x : Num, x.IsInt → ∃ v, x.intVal = some v := by
    intro x hx; cases x <;> simp [Num.IsInt, Num.intVal] at *
  obtain ⟨x, hx⟩ := this a ha; obtain ⟨y, hy⟩ := this b hb; obtain ⟨z, hz⟩ := this c hc
  simp only [Num.cmp_eq, hx, hy, hz] at *
  exact intCmp_comp h1 h2

theorem intCmp_scale (x y k : Int) (hk : 0 < k) : intCmp (x * k) (y * k) = intCmp x y := by
  have h1 : x * k < y * k ↔ x < y := Int.mul_lt_mul_right hk
  have h2 : y * k < x * k ↔ y < x := Int.mul_lt_mul_right hk
  unfold intCmp; simp only [h1, h2]

theorem roundF64_id {n : Nat} (h : n ≤ 2^53) : roundF64 n = n := by
  rcases Nat.lt_or_eq_of_le h with h | h
  · unfold roundF64; rw [if_pos h]
  · subst h; decide +kernel

theorem Num.exact_scaled {a b : Num} (ha : a.IsExact) (hb : b.IsExact) : a.cmp b = intCmp a.f64Scaled b.f64Scaled := by
  have hk : (0 : Int) < 2^1074 := Int.pow_pos (by omega)
  rw [Num.cmp_eq]
  cases a <;> cases b <;> simp only [Num.intVal, Num.IsExact, Num.f64Scaled] at * <;>
    (try rw [roundF64_id ha]) <;> (try rw [roundF64_id hb])
  · rw [intCmp_scale _ _ _ hk]
  · rw [← Int.neg_mul, intCmp_scale _ _ _ hk]; rfl
  · rw [← Int.neg_mul, intCmp_scale _ _ _ hk]; rfl
  · rw [← Int.neg_mul, ← Int.neg_mul, intCmp_scale _ _ _ hk]; rfl

theorem Num.exact_comp (a b c : Num) (ha : a.IsExact) (hb : b.IsExact) (hc : c.IsExact) (h1 : a.cmp b ≠ .gt) (h2 : b.cmp c ≠ .gt) :
    a.cmp c = (a.cmp b).then (b.cmp c) := by
  rw [Num.exact_scaled ha hb] at *
  rw [Num.exact_scaled hb hc] at *
  rw [Num.exact_scaled ha hc]
  exact intCmp_comp h1 h2

/-! ### Rounding is monotone, so `<` is transitive on all numbers -/

theorem roundF64_bounds {n : Nat} (h : 2^53 ≤ n) :
    2 ^ n.log2 ≤ n / 2 ^ (n.log2 - 52) * 2 ^ (n.log2 - 52) ∧ n / 2 ^ (n.log2 - 52) * 2 ^ (n.log2 - 52) ≤ roundF64 n ∧
    roundF64 n ≤ (n / 2 ^ (n.log2 - 52) + 1) * 2 ^ (n.log2 - 52) ∧
    (n / 2 ^ (n.log2 - 52) + 1) * 2 ^ (n.log2 - 52) ≤ 2 ^ (n.log2 + 1) := by
  have hlog : 53 ≤ n.log2 := (Nat.le_log2 (by omega)).2 h
  have e : 2 ^ n.log2 = 2 ^ 52 * 2 ^ (n.log2 - 52) := by rw [← Nat.pow_add]; congr 1; omega
  have e' : 2 ^ (n.log2 + 1) = 2 ^ 53 * 2 ^ (n.log2 - 52) := by rw [← Nat.pow_add]; congr 1; omega
  refine ⟨?_, ?_, ?_, ?_⟩
  · rw [e]
    apply Nat.mul_le_mul_right
    rw [Nat.le_div_iff_mul_le (Nat.two_pow_pos _), ← e]
    exact Nat.log2_self_le (by omega)
  · unfold roundF64
    rw [if_neg (by omega)]
    simp only
    split
    · exact Nat.le_refl _
    · exact Nat.mul_le_mul_right _ (by omega)
  · unfold roundF64
    rw [if_neg (by omega)]
    simp only
    split
    · exact Nat.mul_le_mul_right _ (by omega)
    · exact Nat.le_refl _
  · rw [e']
    apply Nat.mul_le_mul_right
    have : n < 2 ^ 53 * 2 ^ (n.log2 - 52) := by rw [← e']; exact Nat.lt_log2_self
    have := (Nat.div_lt_iff_lt_mul (Nat.two_pow_pos (n.log2 - 52))).2 this
    omega

theorem roundF64_mono {m n : Nat} (h : m ≤ n) : roundF64 m ≤ roundF64 n := by
  by_cases hn : n < 2^53
  · rw [roundF64_id (by omega), roundF64_id (by omega)]; exact h
  have bn := roundF64_bounds (n := n) (by omega)
  have ln : 53 ≤ n.log2 := (Nat.le_log2 (by omega)).2 (by omega)
  by_cases hm : m < 2^53
  · rw [roundF64_id (by omega)]
    have : 2 ^ 53 ≤ 2 ^ n.log2 := Nat.pow_le_pow_right (by omega) ln
    omega
  have bm := roundF64_bounds (n := m) (by omega)
  have hl : m.log2 ≤ n.log2 := (Nat.le_log2 (by omega)).2 (Nat.le_trans (Nat.log2_self_le (by omega)) h)
  rcases Nat.lt_or_eq_of_le hl with hl | hl
  · have : 2 ^ (m.log2 + 1) ≤ 2 ^ n.log2 := Nat.pow_le_pow_right (by omega) hl
    omega
  · rw [hl] at bm
    have hq := Nat.div_le_div_right (c := 2 ^ (n.log2 - 52)) h
    rcases Nat.lt_or_eq_of_le hq with hq | hq
    · have := Nat.mul_le_mul_right (2 ^ (n.log2 - 52)) (Nat.succ_le_of_lt hq)
      simp only [Nat.succ_eq_add_one] at this
      omega
    · have hr : m % 2 ^ (n.log2 - 52) ≤ n % 2 ^ (n.log2 - 52) := by
        have h1 := Nat.div_add_mod m (2 ^ (n.log2 - 52))
        have h2 := Nat.div_add_mod n (2 ^ (n.log2 - 52))
        rw [hq] at h1
        omega
      unfold roundF64
      rw [if_neg hm, if_neg hn]
      simp only
      rw [hl, hq]
      split
      · split
        · exact Nat.le_refl _
        · exact Nat.mul_le_mul_right _ (by omega)
      · rw [if_neg (by omega)]; exact Nat.le_refl _

theorem Num.scaled_mono {a b : Num} {x y : Int} (ha : a.intVal = some x) (hb : b.intVal = some y) (h : x ≤ y) :
    a.f64Scaled ≤ b.f64Scaled := by
  have hk : (0 : Int) ≤ 2^1074 := Int.le_of_lt (Int.pow_pos (by omega))
  cases a with
  | float => simp [Num.intVal] at ha
  | posInt n =>
    cases b with
    | float => simp [Num.intVal] at hb
    | posInt m =>
      simp only [Num.intVal, Option.some.injEq] at ha hb
      exact Int.mul_le_mul_of_nonneg_right (by exact_mod_cast roundF64_mono (by omega)) hk
    | negInt m => simp only [Num.intVal, Option.some.injEq] at ha hb; omega
  | negInt n =>
    cases b with
    | float => simp [Num.intVal] at hb
    | posInt m =>
      exact Int.le_trans (Int.le_of_lt (Num.scaled_neg_neg n)) (Num.scaled_pos_nonneg m)
    | negInt m =>
      simp only [Num.intVal, Option.some.injEq] at ha hb
      have : (roundF64 (m.val + 1) : Int) ≤ roundF64 (n.val + 1) := by exact_mod_cast roundF64_mono (by omega)
      exact Int.neg_le_neg (Int.mul_le_mul_of_nonneg_right this hk)

theorem Num.cmp_lt_trans {a b c : Num} (h1 : a.cmp b = .lt) (h2 : b.cmp c = .lt) : a.cmp c = .lt := by
  rw [Num.cmp_eq] at h1 h2 ⊢
  cases ha : a.intVal with
  | none =>
    cases hb : b.intVal with
    | none =>
      simp only [ha, hb, intCmp_lt] at h1 h2 ⊢
      omega
    | some y =>
      cases hc : c.intVal with
      | none => simp only [ha, hb, hc, intCmp_lt] at h1 h2 ⊢; omega
      | some z =>
        simp only [ha, hb, hc, intCmp_lt] at h1 h2 ⊢
        have := Num.scaled_mono hb hc (by omega); omega
  | some x =>
    cases hb : b.intVal with
    | none =>
      cases hc : c.intVal with
      | none => simp only [ha, hb, hc, intCmp_lt] at h1 h2 ⊢; omega
      | some z =>
        simp only [ha, hb, hc, intCmp_lt] at h1 h2 ⊢
        apply Int.lt_of_not_ge
        intro h
        have := Num.scaled_mono hc ha h; omega
    | some y =>
      cases hc : c.intVal with
      | none =>
        simp only [ha, hb, hc, intCmp_lt] at h1 h2 ⊢
        have := Num.scaled_mono ha hb (by omega); omega
      | some z => simp only [ha, hb, hc, intCmp_lt] at h1 h2 ⊢; omega

/-! ### Sequences -/

section
variable {α : Type} (f : α → α → Option Ordering)

/-- `partial_cmp_by` (`json.rs:117-144`) on lists. -/
def lexCmp : List α → List α → Option Ordering
  | [], [] => some .eq
  | [], _ :: _ => some .lt
  | _ :: _, [] => some .gt
  | a :: r, b :: s => match f a b with
    | some .eq => lexCmp r s
    | nonEq => nonEq

theorem lexBelow_cons {E L : α → α → Prop} {a b : α} {r s : List α} :
    LexBelow E L (a :: r) (b :: s) ↔ L a b ∨ (E a b ∧ LexBelow E L r s) := by
  constructor
  · rintro ⟨k, h1, h2⟩
    cases k with
    | zero =>
      left
      rcases h2 with ⟨h, _⟩ | ⟨x, y, hx, hy, h⟩
      · simp at h
      · simp at hx hy; subst hx hy; exact h
    | succ k =>
      right
      obtain ⟨x, y, hx, hy, h⟩ := h1 0 (by omega)
      simp at hx hy; subst hx hy
      refine ⟨h, k, fun i hi => ?_, by simpa using h2⟩
      have := h1 (i + 1) (by omega)
      simpa using this
  · rintro (h | ⟨h, k, h1, h2⟩)
    · exact ⟨0, fun i hi => absurd hi (by omega), Or.inr ⟨a, b, by simp, by simp, h⟩⟩
    · refine ⟨k + 1, fun i hi => ?_, by simpa using h2⟩
      cases i with
      | zero => exact ⟨a, b, by simp, by simp, h⟩
      | succ i => have := h1 i (by omega); simpa using this

theorem lexCmp_lt : ∀ l m : List α, lexCmp f l m = some .lt ↔ LexBelow (fun x y => f x y = some .eq) (fun x y => f x y = some .lt) l m
  | [], [] => by
    simp only [lexCmp]
    constructor
    · intro h; simp at h
    · rintro ⟨k, _, ⟨_, y, hy⟩ | ⟨x, y, hx, _⟩⟩
      · simp at hy
      · simp at hx
  | [], b :: s => by
    simp only [lexCmp, true_iff]
    exact ⟨0, fun i hi => absurd hi (by omega), Or.inl ⟨by simp, b, by simp⟩⟩
  | a :: r, [] => by
    simp only [lexCmp]
    constructor
    · intro h; simp at h
    · rintro ⟨k, _, ⟨_, y, hy⟩ | ⟨x, y, _, hy, _⟩⟩ <;> simp at hy
  | a :: r, b :: s => by
    rw [lexBelow_cons]
    simp only [lexCmp]
    cases h : f a b with
    | none => simp
    | some o => cases o <;> simp [lexCmp_lt r s]

theorem lexCmp_eq : ∀ l m : List α, lexCmp f l m = some .eq ↔ Pairwise₂ (fun x y => f x y = some .eq) l m
  | [], [] => by simp [lexCmp, Pairwise₂]
  | [], b :: s => by simp [lexCmp, Pairwise₂]
  | a :: r, [] => by simp [lexCmp, Pairwise₂]
  | a :: r, b :: s => by
    have ih := lexCmp_eq r s
    simp only [lexCmp]
    constructor
    · intro h
      cases e : f a b with
      | none => rw [e] at h; simp at h
      | some o =>
        rw [e] at h
        cases o <;> simp at h
        obtain ⟨h1, h2⟩ := ih.1 h
        refine ⟨by simp [h1], fun i x y hx hy => ?_⟩
        cases i with
        | zero => simp at hx hy; subst hx hy; exact e
        | succ i => exact h2 i x y (by simpa using hx) (by simpa using hy)
    · rintro ⟨h1, h2⟩
      rw [h2 0 a b (by simp) (by simp)]
      exact ih.2 ⟨by simpa using h1, fun i x y hx hy => h2 (i + 1) x y (by simpa using hx) (by simpa using hy)⟩
end

theorem JArr.partialCmp_ofList : ∀ l m : List Json, (JArr.ofList l).partialCmp (JArr.ofList m) = lexCmp Json.partialCmp l m
  | [], [] => rfl
  | [], _ :: _ => rfl
  | _ :: _, [] => rfl
  | a :: r, b :: s => by
    simp only [JArr.ofList, JArr.partialCmp, lexCmp, JArr.partialCmp_ofList r s]
    cases a.partialCmp b with
    | none => rfl
    | some o => cases o <;> rfl

/-- The closure of `json.rs:104-111`. -/
def entryCmp (x y : Bytes × Json) : Option Ordering :=
  match bytesCmp x.1 y.1 with
  | .eq => x.2.partialCmp y.2
  | nonEq => some nonEq

theorem JObj.partialCmp_ofList : ∀ l m : List (Bytes × Json), (JObj.ofList l).partialCmp (JObj.ofList m) = lexCmp entryCmp l m
  | [], [] => rfl
  | [], (_, _) :: _ => rfl
  | (_, _) :: _, [] => rfl
  | (k, a) :: r, (l, b) :: s => by
    simp only [JObj.ofList, JObj.partialCmp, lexCmp, entryCmp, JObj.partialCmp_ofList r s]
    cases bytesCmp k l with
    | lt => rfl
    | gt => rfl
    | eq =>
      cases a.partialCmp b with
      | none => rfl
      | some o => cases o <;> rfl

theorem entryCmp_lt (x y : Bytes × Json) :
    entryCmp x y = some .lt ↔ Order.lt x.1 y.1 = true ∨ (x.1 = y.1 ∧ x.2.partialCmp y.2 = some .lt) := by
  unfold entryCmp bytesCmp
  by_cases h : Order.lt x.1 y.1 = true
  · simp [h]
  · by_cases h2 : Order.lt y.1 x.1 = true
    · have : x.1 ≠ y.1 := by rintro e; rw [e, Order.irrefl] at h2; simp at h2
      simp [h, h2, this]
    · have : x.1 = y.1 := Order.tri _ _ (by simpa using h) (by simpa using h2)
      simp [this, Order.irrefl]

theorem entryCmp_eq (x y : Bytes × Json) : entryCmp x y = some .eq ↔ x.1 = y.1 ∧ x.2.partialCmp y.2 = some .eq := by
  unfold entryCmp
  cases h : bytesCmp x.1 y.1 with
  | eq => simp [bytesCmp_eq.1 h]
  | lt => simp; intro e; rw [bytesCmp_eq.2 e] at h; simp at h
  | gt => simp; intro e; rw [bytesCmp_eq.2 e] at h; simp at h

end IndraDB
