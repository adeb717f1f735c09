import Verif.Proofs.JsonFloat
/-
How far the float that is read is from the number that is written (C93).
-/
namespace IndraDB

/-- `a` is `b` up to the factor `p / q` and up to `c`. -/
def Close (p q c a b : Nat) : Prop := a * p ≤ (b + c) * q ∧ b * p ≤ (a + c) * q

theorem Close.refl {p q : Nat} (h : p ≤ q) (a : Nat) : Close p q 0 a a := ⟨Nat.mul_le_mul_left _ h, Nat.mul_le_mul_left _ h⟩

theorem Close.symm {p q c a b : Nat} (h : Close p q c a b) : Close p q c b a := ⟨h.2, h.1⟩

theorem close_half {p q p' q' c c' a b b' : Nat} (hp : p' ≤ q') (h : a * p ≤ (b + c) * q) (h' : b * p' ≤ (b' + c') * q') :
    a * (p * p') ≤ (b' + (c + c')) * (q * q') :=
  calc a * (p * p') = a * p * p' := (Nat.mul_assoc _ _ _).symm
    _ ≤ (b + c) * q * p' := Nat.mul_le_mul_right _ h
    _ = q * (b * p') + q * (c * p') := by
      rw [Nat.mul_comm (b + c) q, Nat.mul_assoc, Nat.add_mul, Nat.mul_add]
    _ ≤ q * ((b' + c') * q') + q * (c * q') :=
      Nat.add_le_add (Nat.mul_le_mul_left _ h') (Nat.mul_le_mul_left _ (Nat.mul_le_mul_left _ hp))
    _ = (b' + (c + c')) * (q * q') := by
      rw [← Nat.mul_add, ← Nat.add_mul, show b' + c' + c = b' + (c + c') by omega, Nat.mul_left_comm]

theorem Close.trans {p q p' q' c c' a b b' : Nat} (hp : p ≤ q) (hp' : p' ≤ q') (h : Close p q c a b) (h' : Close p' q' c' b b') :
    Close (p * p') (q * q') (c + c') a b' := by
  refine ⟨close_half hp' h.1 h'.1, ?_⟩
  have := close_half hp h'.2 h.2
  rw [Nat.mul_comm p p', Nat.mul_comm q q', Nat.add_comm c c']
  exact this

theorem Close.mul {p q c a b : Nat} (h : Close p q c a b) (k : Nat) : Close p q (c * k) (a * k) (b * k) := by
  constructor
  · rw [← Nat.add_mul, Nat.mul_right_comm, Nat.mul_right_comm _ k q]; exact Nat.mul_le_mul_right _ h.1
  · rw [← Nat.add_mul, Nat.mul_right_comm, Nat.mul_right_comm _ k q]; exact Nat.mul_le_mul_right _ h.2

theorem Close.cancel {p q c a b k : Nat} (hk : 0 < k) (h : Close p q (c * k) (a * k) (b * k)) : Close p q c a b := by
  unfold Close at h
  rw [← Nat.add_mul, ← Nat.add_mul, Nat.mul_right_comm, Nat.mul_right_comm _ k q, Nat.mul_right_comm b, Nat.mul_right_comm _ k q] at h
  exact ⟨Nat.le_of_mul_le_mul_right h.1 hk, Nat.le_of_mul_le_mul_right h.2 hk⟩

theorem Close.more {p q c c' a b : Nat} (h : Close p q c a b) (hc : c ≤ c') : Close p q c' a b :=
  ⟨Nat.le_trans h.1 (Nat.mul_le_mul_right _ (by omega)), Nat.le_trans h.2 (Nat.mul_le_mul_right _ (by omega))⟩

/-- One rounding. -/
def P : Nat := 2 ^ 53 - 1
def Q : Nat := 2 ^ 53

theorem close_of_err {a b c : Nat} (h1 : 2 ^ 53 * a ≤ 2 ^ 53 * b + b + 2 ^ 53 * c) (h2 : 2 ^ 53 * b ≤ 2 ^ 53 * a + b + 2 ^ 53 * c) :
    Close P Q c a b := by
  unfold Close P Q
  constructor <;> omega

/-- The error of rounding: half a unit in the last of 53 bits. -/
theorem roundUnits_err (n d : Nat) (hd : 0 < d) :
    (2 ^ 53 * (roundUnits n d * d) ≤ 2 ^ 53 * n + (n + 2 ^ 52 * d) ∧ 2 ^ 53 * n ≤ 2 ^ 53 * (roundUnits n d * d) + (n + 2 ^ 52 * d)) ∧
    (2 ^ 52 * d ≤ n → 2 ^ 53 * (roundUnits n d * d) ≤ 2 ^ 53 * n + n ∧ 2 ^ 53 * n ≤ 2 ^ 53 * (roundUnits n d * d) + n) := by
  obtain ⟨s, t, r, c, hn, hr, hc, e, ht, hs⟩ := roundUnits_spec n d hd
  have e1 : roundUnits n d * d = c * (d * 2 ^ s) := by rw [e, Nat.mul_assoc, Nat.mul_comm (2 ^ s) d]
  rw [e1]
  have hbig : s = 0 ∨ 2 ^ 52 * (d * 2 ^ s) ≤ n := by
    rcases hs with hs | hs
    · exact Or.inl hs
    · right
      have : d * 2 ^ s * 2 ^ 52 ≤ d * 2 ^ s * t := Nat.mul_le_mul_left _ hs
      omega
  have h0 : s = 0 → d * 2 ^ s = d := fun h => by rw [h, Nat.pow_zero, Nat.mul_one]
  generalize hE : d * 2 ^ s = E at *
  have hcE : c * E = E * t ∨ c * E = E * t + E := by
    rcases hc with ⟨rfl, _⟩ | ⟨rfl, _⟩
    · exact Or.inl (Nat.mul_comm _ _)
    · right; rw [Nat.add_mul, Nat.one_mul, Nat.mul_comm]
  have hc' : (c * E = E * t ∧ 2 * r ≤ E) ∨ (c * E = E * t + E ∧ E ≤ 2 * r) := by
    rcases hc with ⟨rfl, h⟩ | ⟨rfl, h⟩
    · exact Or.inl ⟨Nat.mul_comm _ _, h⟩
    · exact Or.inr ⟨by rw [Nat.add_mul, Nat.one_mul, Nat.mul_comm], h⟩
  clear hc hcE hs ht e1 e hE
  generalize c * E = a at *
  generalize E * t = b at *
  rcases hbig with hbig | hbig
  · have := h0 hbig
    subst this
    omega
  · omega

theorem round_close (n d : Nat) (hd : 0 < d) : Close P Q d (roundUnits n d * d) n := by
  have h := (roundUnits_err n d hd).1
  exact close_of_err (by omega) (by omega)

theorem round_close_normal (n d : Nat) (hd : 0 < d) (hn : 2 ^ 52 * d ≤ n) : Close P Q 0 (roundUnits n d * d) n := by
  have h := (roundUnits_err n d hd).2 hn
  exact close_of_err (by omega) (by omega)

theorem PQ : P ≤ Q := by decide

/-- Digits as a float, and the table of powers. -/
theorem whole_close (n : Nat) (h : 0 < n) : Close P Q 0 (roundUnits (n * 2 ^ 1074) 1) (n * 2 ^ 1074) := by
  have h0 : (2 : Nat) ^ 52 ≤ 2 ^ 1074 := Nat.pow_le_pow_right (by decide) (by decide)
  have h1 : 2 ^ 52 * 1 ≤ n * 2 ^ 1074 := by rw [Nat.mul_one]; exact Nat.le_trans h0 (Nat.le_mul_of_pos_left _ h)
  have := round_close_normal (n * 2 ^ 1074) 1 (by decide) h1
  rw [Nat.mul_one] at this
  exact this

theorem pow10_close (k : Nat) : Close P Q 0 (pow10 k) (10 ^ k * 2 ^ 1074) := whole_close (10 ^ k) (Nat.pow_pos (by decide))

theorem close_half_of {a b : Nat} (h : Close P Q 0 a b) : b ≤ 2 * a ∧ a ≤ 2 * b := by
  unfold Close P Q at h; omega

theorem pow10_pos (k : Nat) : 0 < pow10 k := by
  have h := (close_half_of (pow10_close k)).1
  have : 0 < 10 ^ k * 2 ^ 1074 := Nat.mul_pos (Nat.pow_pos (by decide)) (Nat.pow_pos (by decide))
  generalize 10 ^ k * 2 ^ 1074 = b at *
  omega

/-- Division by a power of ten. -/
theorem div_close (x k : Nat) : Close (P * P) (Q * Q) (2 * 10 ^ k) (divUnits x (pow10 k) * 10 ^ k) x := by
  have hp : (0 : Nat) < 2 ^ 1074 := Nat.pow_pos (by decide)
  refine Close.cancel hp ?_
  have h1 := (pow10_close k).symm.mul (divUnits x (pow10 k))
  have h2 := round_close (x * 2 ^ 1074) (pow10 k) (pow10_pos k)
  have h3 := (close_half_of (pow10_close k)).2
  rw [Nat.mul_comm (pow10 k)] at h1
  have h := (h1.trans PQ PQ h2).more (c' := 2 * 10 ^ k * 2 ^ 1074) (by rw [Nat.zero_mul, Nat.zero_add, Nat.mul_assoc]; exact h3)
  rw [show 10 ^ k * 2 ^ 1074 * divUnits x (pow10 k) = divUnits x (pow10 k) * 10 ^ k * 2 ^ 1074 by
    rw [Nat.mul_comm, Nat.mul_assoc]] at h
  exact h

/-- Multiplication with a power of ten. -/
theorem mul_close (n k : Nat) (hn : 0 < n) :
    Close (P * P * P) (Q * Q * Q) 0 (mulUnits (roundUnits (n * 2 ^ 1074) 1) (pow10 k)) (n * 10 ^ k * 2 ^ 1074) := by
  have hp : (0 : Nat) < 2 ^ 1074 := Nat.pow_pos (by decide)
  have hx := whole_close n hn
  have hy := pow10_close k
  generalize hX : roundUnits (n * 2 ^ 1074) 1 = x at *
  generalize pow10 k = y at *
  have hbig : 2 ^ 52 * 2 ^ 1074 ≤ x * y := by
    have h1 := (close_half_of hx).1
    have h2 := (close_half_of hy).1
    have h3 : 2 ^ 1074 ≤ 2 * x := Nat.le_trans (Nat.le_mul_of_pos_left _ hn) h1
    have h4 : 2 ^ 1074 ≤ 2 * y := Nat.le_trans (Nat.le_mul_of_pos_left _ (Nat.pow_pos (by decide))) h2
    have h5 : 2 ^ 1073 ≤ x := by
      have : (2 : Nat) ^ 1074 = 2 * 2 ^ 1073 := by rw [Nat.mul_comm, ← Nat.pow_succ]
      omega
    have h6 : 2 ^ 1073 ≤ y := by
      have : (2 : Nat) ^ 1074 = 2 * 2 ^ 1073 := by rw [Nat.mul_comm, ← Nat.pow_succ]
      omega
    refine Nat.le_trans ?_ (Nat.mul_le_mul h5 h6)
    rw [← Nat.pow_add, ← Nat.pow_add]
    exact Nat.pow_le_pow_right (by decide) (by decide)
  have h1 := round_close_normal (x * y) (2 ^ 1074) hp hbig
  have h2 := hx.mul y
  have h3 := hy.mul (n * 2 ^ 1074)
  rw [Nat.zero_mul] at h2 h3
  rw [Nat.mul_comm y] at h3
  have h := (h1.trans PQ PQ h2).trans (Nat.mul_le_mul PQ PQ) PQ h3
  refine Close.cancel hp ?_
  rw [Nat.zero_mul]
  rw [show 10 ^ k * 2 ^ 1074 * (n * 2 ^ 1074) = n * 10 ^ k * 2 ^ 1074 * 2 ^ 1074 by
    rw [Nat.mul_comm (10 ^ k * 2 ^ 1074), Nat.mul_assoc n, Nat.mul_assoc n, Nat.mul_assoc n, Nat.mul_comm (2 ^ 1074)]] at h
  exact h

/-! ### Digits that do not fit in 64 bits -/

theorem digitsVal_acc (b : Bytes) (v : Nat) :
    b.foldl (fun v x => v * 10 + (x.toNat - 48)) v = v * 10 ^ b.length + digitsVal b := by
  unfold digitsVal
  induction b generalizing v with
  | nil => simp
  | cons x r ih =>
    simp only [List.foldl_cons, List.length_cons]
    rw [ih, ih (0 * 10 + (x.toNat - 48)), Nat.zero_mul, Nat.zero_add, Nat.add_mul, Nat.pow_succ, Nat.add_assoc,
      Nat.mul_assoc, Nat.mul_comm 10]

theorem digitsVal_append (a b : Bytes) : digitsVal (a ++ b) = digitsVal a * 10 ^ b.length + digitsVal b := by
  rw [← digitsVal_acc]; unfold digitsVal; rw [List.foldl_append]

theorem digitsVal_lt {b : Bytes} (h : AllDigits b) : digitsVal b < 10 ^ b.length := by
  induction b with
  | nil => decide
  | cons x r ih =>
    have hx := h x (List.mem_cons_self)
    have hr := ih (fun y hy => h y (List.mem_cons_of_mem _ hy))
    have : digitsVal (x :: r) = (x.toNat - 48) * 10 ^ r.length + digitsVal r := by
      have := digitsVal_acc r (x.toNat - 48)
      rw [← this]; unfold digitsVal; simp
    rw [this, List.length_cons, Nat.pow_succ]
    have h9 : (x.toNat - 48) * 10 ^ r.length ≤ 9 * 10 ^ r.length := Nat.mul_le_mul_right _ (by omega)
    omega

/-- What is read, what is left, and that nothing is left or what is read has 60 bits. -/
theorem takeDigits_spec (b : Bytes) (hb : AllDigits b) (v n : Nat) : ∃ b1 b2, b = b1 ++ b2 ∧
    takeDigits v n b = (v * 10 ^ b1.length + digitsVal b1, n + b1.length) ∧ (b2 = [] ∨ 2 ^ 60 ≤ v * 10 ^ b1.length + digitsVal b1) := by
  induction b generalizing v n with
  | nil => exact ⟨[], [], rfl, by simp [takeDigits, digitsVal], Or.inl rfl⟩
  | cons x r ih =>
    have hx := hb x (List.mem_cons_self)
    unfold takeDigits
    by_cases h : v * 10 + (x.toNat - 48) < 18446744073709551616
    · obtain ⟨b1, b2, rfl, h1, h2⟩ := ih (fun y hy => hb y (List.mem_cons_of_mem _ hy)) (v * 10 + (x.toNat - 48)) (n + 1)
      have e : v * 10 ^ (x :: b1).length + digitsVal (x :: b1) = (v * 10 + (x.toNat - 48)) * 10 ^ b1.length + digitsVal b1 := by
        have := digitsVal_acc b1 (x.toNat - 48)
        have e2 : digitsVal (x :: b1) = (x.toNat - 48) * 10 ^ b1.length + digitsVal b1 := by
          rw [← this]; unfold digitsVal; simp
        rw [e2, List.length_cons, Nat.pow_succ, Nat.add_mul, Nat.mul_assoc, Nat.mul_comm 10, Nat.add_assoc]
      refine ⟨x :: b1, b2, rfl, ?_, ?_⟩
      · rw [if_pos h, h1, e, List.length_cons, Nat.add_assoc, Nat.add_comm 1]
      · rw [e]; exact h2
    · refine ⟨[], x :: r, rfl, by rw [if_neg h]; simp [digitsVal], Or.inr ?_⟩
      simp only [List.length_nil, Nat.pow_zero, Nat.mul_one, digitsVal, List.foldl_nil, Nat.add_zero]
      omega

def P60 : Nat := 2 ^ 60 - 1
def Q60 : Nat := 2 ^ 60

theorem PQ60 : P60 ≤ Q60 := by decide

theorem close_band {S W a b : Nat} (hS : 2 ^ 60 ≤ S) (ha : S * W ≤ a) (ha' : a ≤ (S + 1) * W) (hb : S * W ≤ b) (hb' : b ≤ (S + 1) * W) :
    Close P60 Q60 0 a b := by
  have key : ∀ x y, x ≤ (S + 1) * W → S * W ≤ y → x * P60 ≤ (y + 0) * Q60 := by
    intro x y hx hy
    calc x * P60 ≤ (S + 1) * W * P60 := Nat.mul_le_mul_right _ hx
      _ = (S + 1) * P60 * W := by rw [Nat.mul_right_comm]
      _ ≤ S * Q60 * W := Nat.mul_le_mul_right _ (by unfold P60 Q60; omega)
      _ = S * W * Q60 := by rw [Nat.mul_right_comm]
      _ ≤ (y + 0) * Q60 := Nat.mul_le_mul_right _ hy
  exact ⟨key a b ha' hb, key b a hb' ha⟩

/-- The digits that are read stand for the number, up to one part in `2^60`. -/
theorem Decimal.parts_close (d : Decimal) (hi : AllDigits d.int) (hf : AllDigits d.frac) : ∃ r j : Nat,
    d.parts.2 = (r : Int) - (j : Int) ∧ r ≤ d.int.length ∧ j ≤ d.frac.length ∧
    Close P60 Q60 0 (d.parts.1 * 10 ^ (r + d.frac.length)) (d.digits * 10 ^ j) ∧ (d.parts.1 = 0 ↔ d.digits = 0) := by
  obtain ⟨i1, i2, ei, hti, hs⟩ := takeDigits_spec d.int hi 0 0
  obtain ⟨f1, f2, ef, htf, hs'⟩ := takeDigits_spec d.frac hf (digitsVal i1) 0
  rw [Nat.zero_mul, Nat.zero_add, Nat.zero_add] at hti
  rw [Nat.zero_mul, Nat.zero_add] at hs
  have e1 : d.parts = (digitsVal i1 * 10 ^ f1.length + digitsVal f1, (i2.length : Int) - (f1.length : Int)) := by
    unfold Decimal.parts
    rw [hti]
    simp only []
    rw [htf, Nat.zero_add, ei, List.length_append, Nat.add_sub_cancel_left]
  have hf1 : digitsVal f1 < 10 ^ f1.length := digitsVal_lt (fun x hx => hf x (by rw [ef]; exact List.mem_append_left _ hx))
  have hf2 : digitsVal f2 < 10 ^ f2.length := digitsVal_lt (fun x hx => hf x (by rw [ef]; exact List.mem_append_right _ hx))
  have hi2 : digitsVal i2 < 10 ^ i2.length := digitsVal_lt (fun x hx => hi x (by rw [ei]; exact List.mem_append_right _ hx))
  have e2 : d.digits = ((digitsVal i1 * 10 ^ i2.length + digitsVal i2) * 10 ^ f1.length + digitsVal f1) * 10 ^ f2.length + digitsVal f2 := by
    unfold Decimal.digits
    rw [ei, ef, ← List.append_assoc, digitsVal_append, digitsVal_append, digitsVal_append]
  refine ⟨i2.length, f1.length, by rw [e1], by rw [ei, List.length_append]; omega, by rw [ef, List.length_append]; omega, ?_, ?_⟩
  · rw [e1, e2, ef, List.length_append]
    simp only []
    generalize digitsVal i1 = S at *
    generalize digitsVal i2 = u at *
    generalize digitsVal f1 = J at *
    generalize digitsVal f2 = w at *
    rw [Nat.pow_add, Nat.pow_add]
    generalize hA : 10 ^ f1.length = A at *
    generalize hB : 10 ^ f2.length = B at *
    have hC0 : i2 = [] → 10 ^ i2.length = 1 := fun h => by rw [h]; rfl
    have hB0 : f2 = [] → B = 1 := fun h => by rw [← hB, h]; rfl
    generalize hC : 10 ^ i2.length = C at *
    have hA1 : 0 < A := hA ▸ Nat.pow_pos (by decide)
    have hB1 : 0 < B := hB ▸ Nat.pow_pos (by decide)
    have hC1 : 0 < C := hC ▸ Nat.pow_pos (by decide)
    rcases hs with hs | hs
    · have hc := hC0 hs
      subst hc
      have hu : u = 0 := by omega
      subst hu
      rcases hs' with hs' | hs'
      · have hb := hB0 hs'
        subst hb
        have hw : w = 0 := by omega
        subst hw
        have : (S * A + J) * (1 * (A * 1)) = (((S * 1 + 0) * A + J) * 1 + 0) * A := by
          simp only [Nat.mul_one, Nat.one_mul, Nat.add_zero]
        rw [this]
        exact Close.refl PQ60 _
      · refine close_band (S := S * A + J) (W := A * B) hs' ?_ ?_ ?_ ?_
        · rw [Nat.one_mul]; exact Nat.le_refl _
        · rw [Nat.one_mul]; exact Nat.mul_le_mul_right _ (by omega)
        · rw [Nat.mul_one, Nat.add_zero, Nat.mul_comm A B, ← Nat.mul_assoc]
          exact Nat.mul_le_mul_right _ (Nat.le_add_right _ _)
        · rw [Nat.mul_one, Nat.add_zero, Nat.mul_comm A B, ← Nat.mul_assoc]
          refine Nat.mul_le_mul_right _ ?_
          rw [Nat.add_mul (S * A + J) 1, Nat.one_mul]
          omega
    · refine close_band (S := S) (W := C * A * B * A) hs ?_ ?_ ?_ ?_
      · have : S * (C * A * B * A) = S * A * (C * (A * B)) := by
          rw [Nat.mul_assoc S A, Nat.mul_comm A (C * (A * B)), ← Nat.mul_assoc C A B]
        rw [this]
        exact Nat.mul_le_mul_right _ (Nat.le_add_right _ _)
      · have : (S + 1) * (C * A * B * A) = (S * A + A) * (C * (A * B)) := by
          rw [show S * A + A = (S + 1) * A by rw [Nat.add_mul, Nat.one_mul], Nat.mul_assoc (S + 1) A, Nat.mul_comm A (C * (A * B)),
            ← Nat.mul_assoc C A B]
        rw [this]
        exact Nat.mul_le_mul_right _ (by omega)
      · have : S * (C * A * B * A) = S * C * A * B * A := by simp only [Nat.mul_assoc]
        rw [this]
        refine Nat.mul_le_mul_right _ (Nat.le_trans (Nat.mul_le_mul_right _ ?_) (Nat.le_add_right _ _))
        exact Nat.le_trans (Nat.mul_le_mul_right _ (Nat.le_add_right _ _)) (Nat.le_add_right _ _)
      · have : (S + 1) * (C * A * B * A) = (S + 1) * C * A * B * A := by simp only [Nat.mul_assoc]
        rw [this]
        refine Nat.mul_le_mul_right _ ?_
        have h1 : S * C + u + 1 ≤ (S + 1) * C := by rw [Nat.add_mul, Nat.one_mul]; omega
        have h2 : (S * C + u) * A + J + 1 ≤ (S + 1) * C * A := by
          refine Nat.le_trans ?_ (Nat.mul_le_mul_right A h1)
          rw [Nat.add_mul (S * C + u), Nat.one_mul]; omega
        refine Nat.le_trans ?_ (Nat.mul_le_mul_right B h2)
        rw [Nat.add_mul ((S * C + u) * A + J) 1, Nat.one_mul]
        omega
  · rw [e1, e2]
    simp only []
    have hA1 : 0 < 10 ^ f1.length := Nat.pow_pos (by decide)
    have hB1 : 0 < 10 ^ f2.length := Nat.pow_pos (by decide)
    have hC1 : 0 < 10 ^ i2.length := Nat.pow_pos (by decide)
    have hz2 : i2 = [] → digitsVal i2 = 0 := fun h => by rw [h]; rfl
    have hz4 : f2 = [] → digitsVal f2 = 0 := fun h => by rw [h]; rfl
    have big : 2 ^ 60 ≤ digitsVal i1 → digitsVal i1 ≠ 0 := fun h => by omega
    simp only [Nat.add_eq_zero_iff, Nat.mul_eq_zero]
    constructor
    · rintro ⟨h1, h2⟩
      have h1' : digitsVal i1 = 0 := by omega
      have h3 : digitsVal i2 = 0 := by
        rcases hs with hs | hs
        · exact hz2 hs
        · exact absurd h1' (big hs)
      have h4 : digitsVal f2 = 0 := by
        rcases hs' with hs' | hs'
        · exact hz4 hs'
        · rw [h1', Nat.zero_mul, h2] at hs'
          exact absurd hs' (by decide)
      exact ⟨Or.inl ⟨Or.inl ⟨Or.inl h1', h3⟩, h2⟩, h4⟩
    · intro h
      omega

/-! ### The float -/

theorem F64.ofUnits_some {neg : Bool} {u : Nat} {f : F64} (hu : ∃ m k, m < 2 ^ 53 ∧ u = m * 2 ^ k) (h : F64.ofUnits neg u = some f) :
    f.units = u ∧ f.neg = neg := by
  unfold F64.ofUnits at h
  split at h
  · cases h
    exact ⟨rfl, rfl⟩
  · rename_i h52
    split at h
    · rename_i hexp
      cases h
      refine ⟨?_, rfl⟩
      unfold F64.units
      simp only [Nat.add_one_ne_zero, if_false, Nat.add_sub_cancel]
      have hne : u ≠ 0 := by intro e; subst e; exact h52 (by decide)
      have h1 := Nat.log2_self_le hne
      have h2 := Nat.lt_log2_self (n := u)
      have h3 : 52 ≤ u.log2 := by
        rcases Nat.lt_or_ge u.log2 52 with hlt | hge
        · have : 2 ^ (u.log2 + 1) ≤ 2 ^ 52 := Nat.pow_le_pow_right (by decide) hlt
          omega
        · exact hge
      have e1 : u.log2 = u.log2 - 52 + 52 := by omega
      generalize u.log2 - 52 = s at *
      rw [e1] at h1 h2
      have hdvd : 2 ^ s ∣ u := by
        obtain ⟨m, k, hm, rfl⟩ := hu
        rcases Nat.lt_or_ge k s with hlt | hge
        · exfalso
          have ha : m * 2 ^ k < 2 ^ 53 * 2 ^ k := Nat.mul_lt_mul_of_pos_right hm (Nat.pow_pos (by decide))
          have hb : 2 ^ 53 * 2 ^ k ≤ 2 ^ (s + 52) := by
            rw [← Nat.pow_add]; exact Nat.pow_le_pow_right (by decide) (by omega)
          omega
        · exact Nat.dvd_trans (Nat.pow_dvd_pow 2 hge) (Nat.dvd_mul_left _ _)
      obtain ⟨c, rfl⟩ := hdvd
      have hp : (0 : Nat) < 2 ^ s := Nat.pow_pos (by decide)
      rw [Nat.mul_div_cancel_left _ hp]
      have hc1 : 2 ^ 52 ≤ c := by
        rw [Nat.pow_add] at h1; exact Nat.le_of_mul_le_mul_left h1 hp
      have hc2 : c < 2 ^ 53 := by
        rw [Nat.add_assoc, Nat.pow_add] at h2; exact Nat.lt_of_mul_lt_mul_left h2
      rw [show 2 ^ 52 + c % 4503599627370496 = c by omega, Nat.mul_comm]
    · cases h

theorem F64.ofUnits_none {neg : Bool} {u : Nat} (h : F64.ofUnits neg u = none) : 2 ^ 2098 ≤ u := by
  unfold F64.ofUnits at h
  split at h
  · cases h
  · rename_i h52
    split at h
    · cases h
    · have hne : u ≠ 0 := by intro e; subst e; exact h52 (by decide)
      exact Nat.le_trans (Nat.pow_le_pow_right (by decide) (by omega)) (Nat.log2_self_le hne)

theorem roundUnits_zero {n d : Nat} (h : 2 * n < d) : roundUnits n d = 0 := by
  unfold roundUnits
  have h1 : n / d = 0 := Nat.div_eq_of_lt (by omega)
  have h2 : Nat.log2 0 - 52 = 0 := by decide
  simp only [h1, h2, Nat.pow_zero, Nat.mul_one]
  rw [if_pos (by left; rw [Nat.mod_eq_of_lt (by omega)]; exact h)]

def P5 : Nat := P * (P * P) * (P * P)
def Q5 : Nat := Q * (Q * Q) * (Q * Q)
theorem PQ2 : P * P ≤ Q * Q := Nat.mul_le_mul PQ PQ
theorem PQ3 : P * (P * P) ≤ Q * (Q * Q) := Nat.mul_le_mul PQ PQ2
theorem PQ5 : P5 ≤ Q5 := Nat.mul_le_mul PQ3 PQ2

theorem Close.pad {c a b : Nat} (h : Close (P * (P * P)) (Q * (Q * Q)) c a b) : Close P5 Q5 c a b := by
  have := h.trans PQ3 PQ2 (Close.refl PQ2 b)
  rw [Nat.add_zero] at this
  exact this

theorem fromParts_ofNat (neg : Bool) (sig k : Nat) : fromParts neg sig (Int.ofNat k) =
    if k ≤ 308 then F64.ofUnits neg (mulUnits (roundUnits (sig * 2 ^ 1074) 1) (pow10 k))
    else if sig = 0 then F64.ofUnits neg 0 else none := rfl
theorem fromParts_negSucc (neg : Bool) (sig k : Nat) : fromParts neg sig (Int.negSucc k) =
    F64.ofUnits neg (downUnits (k + 1) (roundUnits (sig * 2 ^ 1074) 1) (k + 1)) := rfl

theorem divUnits_zero (k : Nat) : divUnits 0 (pow10 k) = 0 := by
  unfold divUnits
  rw [Nat.zero_mul]
  exact roundUnits_zero (by have := pow10_pos k; omega)

theorem downUnits_zero (n k : Nat) : downUnits n 0 k = 0 := by
  cases n with
  | zero => rfl
  | succ n =>
    unfold downUnits
    split
    · exact divUnits_zero k
    · rfl

/-- One division after the digits. -/
theorem down_one (sig k : Nat) (hs : 0 < sig) :
    Close (P * (P * P)) (Q * (Q * Q)) (2 * 10 ^ k) (divUnits (roundUnits (sig * 2 ^ 1074) 1) (pow10 k) * 10 ^ k) (sig * 2 ^ 1074) := by
  have := (div_close (roundUnits (sig * 2 ^ 1074) 1) k).trans PQ2 PQ (whole_close sig hs)
  rw [Nat.mul_comm (P * P), Nat.mul_comm (Q * Q)] at this
  exact this

/-- Two divisions: the result is zero if the exponent of the second is that large. -/
theorem down_two (sig : Nat) (hs : sig < 2 ^ 64) :
    divUnits (divUnits (roundUnits (sig * 2 ^ 1074) 1) (pow10 308)) (pow10 308) = 0 := by
  have hp : (0 : Nat) < 2 ^ 1074 := Nat.pow_pos (by decide)
  have h10 : (2 : Nat) ^ 1023 ≤ 10 ^ 308 := by decide +kernel
  have hy : 2 ^ 1023 * 2 ^ 1074 ≤ 2 * pow10 308 :=
    Nat.le_trans (Nat.mul_le_mul_right _ h10) (close_half_of (pow10_close 308)).1
  have hx : roundUnits (sig * 2 ^ 1074) 1 ≤ 2 ^ 65 * 2 ^ 1074 := by
    rcases Nat.eq_zero_or_pos sig with rfl | hs0
    · rw [Nat.zero_mul, roundUnits_zero (by decide)]; exact Nat.zero_le _
    · refine Nat.le_trans (close_half_of (whole_close sig hs0)).2 ?_
      rw [← Nat.mul_assoc]
      exact Nat.mul_le_mul_right _ (by omega)
  generalize roundUnits (sig * 2 ^ 1074) 1 = x at *
  have hpos := pow10_pos 308
  have h1 := (round_close (x * 2 ^ 1074) (pow10 308) hpos).1
  have hz : divUnits x (pow10 308) = roundUnits (x * 2 ^ 1074) (pow10 308) := rfl
  rw [← hz] at h1
  generalize divUnits x (pow10 308) = x1 at *
  generalize pow10 308 = y at *
  unfold divUnits
  apply roundUnits_zero
  have hx1 : x1 ≤ 2 ^ 1000 := by
    refine Nat.le_of_not_lt fun hlt => ?_
    have ha : 2 ^ 1000 * y ≤ x1 * y := Nat.mul_le_mul_right _ (Nat.le_of_lt hlt)
    have hb : x * 2 ^ 1074 ≤ 2 ^ 65 * 2 ^ 1074 * 2 ^ 1074 := Nat.mul_le_mul_right _ hx
    have hc : 2 ^ 65 * 2 ^ 1074 * 2 ^ 1074 ≤ 2 ^ 117 * (2 ^ 1023 * 2 ^ 1074) := by
      rw [← Nat.pow_add, ← Nat.pow_add, ← Nat.pow_add, ← Nat.pow_add]
      exact Nat.pow_le_pow_right (by decide) (by decide)
    have hd : 2 ^ 117 * (2 ^ 1023 * 2 ^ 1074) ≤ 2 ^ 117 * (2 * y) := Nat.mul_le_mul_left _ hy
    have he : (2 : Nat) ^ 200 * y ≤ 2 ^ 1000 * y := Nat.mul_le_mul_right _ (Nat.pow_le_pow_right (by decide) (by decide))
    have hf : x * 2 ^ 1074 ≤ 2 ^ 117 * (2 * y) := Nat.le_trans hb (Nat.le_trans hc hd)
    have hg : 2 ^ 200 * y ≤ x1 * y := Nat.le_trans he ha
    unfold P Q at h1
    generalize x * 2 ^ 1074 = A at *
    generalize x1 * y = B at *
    clear ha hb hc hd he hx hlt hp h10 hz
    omega
  have ha : x1 * 2 ^ 1074 ≤ 2 ^ 1000 * 2 ^ 1074 := Nat.mul_le_mul_right _ hx1
  have hb : 2 ^ 3 * (2 ^ 1000 * 2 ^ 1074) ≤ 2 ^ 1023 * 2 ^ 1074 := by
    rw [← Nat.pow_add, ← Nat.pow_add, ← Nat.pow_add]
    exact Nat.pow_le_pow_right (by decide) (by decide)
  generalize x1 * 2 ^ 1074 = A at *
  generalize 2 ^ 1000 * 2 ^ 1074 = B at *
  generalize 2 ^ 1023 * 2 ^ 1074 = C at *
  clear hx1 h1 hx hz hp h10
  omega

theorem downUnits_close (sig k : Nat) (hs0 : 0 < sig) (hs : sig < 2 ^ 64) :
    Close P5 Q5 (3 * 10 ^ (k + 1)) (downUnits (k + 1) (roundUnits (sig * 2 ^ 1074) 1) (k + 1) * 10 ^ (k + 1)) (sig * 2 ^ 1074) := by
  by_cases h1 : k + 1 ≤ 308
  · have e : downUnits (k + 1) (roundUnits (sig * 2 ^ 1074) 1) (k + 1) = divUnits (roundUnits (sig * 2 ^ 1074) 1) (pow10 (k + 1)) := by
      rw [downUnits, if_pos h1]
    rw [e]
    exact (down_one sig (k + 1) hs0).pad.more (Nat.mul_le_mul_right _ (by decide))
  · have e : downUnits (k + 1) (roundUnits (sig * 2 ^ 1074) 1) (k + 1) =
        downUnits k (divUnits (roundUnits (sig * 2 ^ 1074) 1) (pow10 308)) (k + 1 - 308) := by
      rw [downUnits, if_neg h1]
      split
      · rename_i h0
        rw [h0, divUnits_zero, downUnits_zero]
      · rfl
    rw [e]
    obtain ⟨k', rfl⟩ : ∃ k', k = k' + 1 := ⟨k - 1, by omega⟩
    by_cases h2 : k' + 1 + 1 - 308 ≤ 308
    · rw [downUnits, if_pos h2]
      have ha := (div_close (divUnits (roundUnits (sig * 2 ^ 1074) 1) (pow10 308)) (k' + 1 + 1 - 308)).mul (10 ^ 308)
      have hb := ha.trans PQ2 PQ3 (down_one sig 308 hs0)
      rw [Nat.mul_assoc _ (10 ^ (k' + 1 + 1 - 308)), Nat.mul_assoc _ (10 ^ (k' + 1 + 1 - 308)) (10 ^ 308), ← Nat.pow_add,
        show k' + 1 + 1 - 308 + 308 = k' + 1 + 1 by omega, Nat.mul_comm (P * P), Nat.mul_comm (Q * Q)] at hb
      refine hb.more ?_
      have h308 : 2 * 10 ^ 308 ≤ 10 ^ (k' + 1 + 1) := by
        have : 10 ^ 309 ≤ 10 ^ (k' + 1 + 1) := Nat.pow_le_pow_right (by decide) (by omega)
        refine Nat.le_trans ?_ this
        rw [Nat.pow_succ 10 308, Nat.mul_comm]
        exact Nat.mul_le_mul_left _ (by decide)
      generalize 10 ^ (k' + 1 + 1) = a at *
      generalize 10 ^ 308 = b at *
      omega
    · have e2 : downUnits (k' + 1) (divUnits (roundUnits (sig * 2 ^ 1074) 1) (pow10 308)) (k' + 1 + 1 - 308) = 0 := by
        rw [downUnits, if_neg h2, down_two sig hs, downUnits_zero]
        split <;> rfl
      rw [e2, Nat.zero_mul]
      refine Close.more ?_ (Nat.le_mul_of_pos_left _ (by decide))
      have h616 : sig * 2 ^ 1074 ≤ 10 ^ (k' + 1 + 1) := by
        have h3 : (10 : Nat) ^ 616 ≤ 10 ^ (k' + 1 + 1) := Nat.pow_le_pow_right (by decide) (by omega)
        have h4 : 2 ^ 64 * 2 ^ 1074 ≤ 10 ^ 616 := by decide +kernel
        exact Nat.le_trans (Nat.mul_le_mul_right _ (Nat.le_of_lt hs)) (Nat.le_trans h4 h3)
      constructor
      · rw [Nat.zero_mul]; exact Nat.zero_le _
      · rw [Nat.zero_add]
        exact Nat.mul_le_mul h616 PQ5

theorem downUnits_bits (n x k : Nat) (hx : ∃ m j, m < 2 ^ 53 ∧ x = m * 2 ^ j) : ∃ m j, m < 2 ^ 53 ∧ downUnits n x k = m * 2 ^ j := by
  induction n generalizing x k with
  | zero => exact hx
  | succ n ih =>
    unfold downUnits
    split
    · exact roundUnits_bits _ _ (pow10_pos k)
    · split
      · exact ⟨0, 0, by decide, rfl⟩
      · exact ih _ _ (roundUnits_bits _ _ (pow10_pos 308))

/-- What `f64_from_parts` makes of digits and a power of ten. -/
theorem fromParts_close (neg : Bool) (sig : Nat) (t : Int) (hs : sig < 2 ^ 64) :
    (fromParts neg sig t = none ∧ 309 ≤ t ∧ sig ≠ 0) ∨
    ∃ z, (∃ m j, m < 2 ^ 53 ∧ z = m * 2 ^ j) ∧ fromParts neg sig t = F64.ofUnits neg z ∧
      Close P5 Q5 (3 * 10 ^ (-t).toNat) (z * 10 ^ (-t).toNat) (sig * 10 ^ t.toNat * 2 ^ 1074) := by
  have hz : ∃ m j, m < 2 ^ 53 ∧ (0 : Nat) = m * 2 ^ j := ⟨0, 0, by decide, rfl⟩
  rcases Nat.eq_zero_or_pos sig with rfl | hs0
  · right
    refine ⟨0, hz, ?_, ?_⟩
    · cases t with
      | ofNat k =>
        rw [fromParts_ofNat]
        split
        · rw [Nat.zero_mul, roundUnits_zero (by decide)]
          unfold mulUnits
          rw [Nat.zero_mul, roundUnits_zero (by rw [Nat.mul_zero]; exact Nat.pow_pos (by decide))]
        · rfl
      | negSucc k =>
        rw [fromParts_negSucc, Nat.zero_mul, roundUnits_zero (by decide), downUnits_zero]
    · rw [Nat.zero_mul, Nat.zero_mul, Nat.zero_mul]
      exact (Close.refl PQ5 0).more (Nat.zero_le _)
  · cases t with
    | ofNat k =>
      by_cases hk : k ≤ 308
      · right
        refine ⟨mulUnits (roundUnits (sig * 2 ^ 1074) 1) (pow10 k), roundUnits_bits _ _ (Nat.pow_pos (by decide)),
          by rw [fromParts_ofNat, if_pos hk], ?_⟩
        have e : (-(Int.ofNat k)).toNat = 0 := by simp
        rw [e, Nat.pow_zero, Nat.mul_one, Nat.mul_one]
        have := mul_close sig k hs0
        rw [Nat.mul_assoc P, Nat.mul_assoc Q] at this
        exact this.pad.more (Nat.zero_le _)
      · left
        refine ⟨by rw [fromParts_ofNat, if_neg hk, if_neg (by omega)], ?_, by omega⟩
        show (309 : Int) ≤ (k : Int)
        omega
    | negSucc k =>
      right
      refine ⟨_, downUnits_bits _ _ _ (roundUnits_bits _ _ (by decide)), fromParts_negSucc neg sig k, ?_⟩
      have e1 : (-(Int.negSucc k)).toNat = k + 1 := rfl
      have e2 : (Int.negSucc k).toNat = 0 := rfl
      rw [e1, e2, Nat.pow_zero, Nat.mul_one]
      exact downUnits_close sig k hs0 hs

end IndraDB
