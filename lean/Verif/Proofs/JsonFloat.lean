import Verif.Spec.JsonFloat
import Verif.Proofs.JsonText
/-
Reading floats: rounding is to the nearest, and short decimals are read exactly.
-/
namespace IndraDB

theorem near_of (e t r c w : Nat) (hr : r < e) (hc : c = t ∧ 2 * r ≤ e ∨ c = t + 1 ∧ e ≤ 2 * r)
    (hw : w ≤ e * t ∨ ∃ j, w = j * e) :
    (((e * t + r : Nat) : Int) - ((c * e : Nat) : Int)).natAbs ≤ (((e * t + r : Nat) : Int) - (w : Int)).natAbs := by
  have h1 : (t + 1) * e = e * t + e := by rw [Nat.add_mul, Nat.one_mul, Nat.mul_comm]
  have h2 : t * e = e * t := Nat.mul_comm _ _
  have hw' : w ≤ e * t ∨ e * t + e ≤ w := by
    rcases hw with h | ⟨j, rfl⟩
    · exact Or.inl h
    · rcases Nat.lt_or_ge t j with h | h
      · right; rw [← h1]; exact Nat.mul_le_mul_right _ h
      · left; rw [← h2]; exact Nat.mul_le_mul_right _ h
  rcases hc with ⟨rfl, h⟩ | ⟨rfl, h⟩
  · rw [h2]; generalize e * c = x at *; omega
  · rw [h1]; generalize e * t = x at *; omega

/-- What rounding does, in numbers. -/
theorem roundUnits_spec (n d : Nat) (hd : 0 < d) : ∃ s t r c, n = d * 2 ^ s * t + r ∧ r < d * 2 ^ s ∧
    (c = t ∧ 2 * r ≤ d * 2 ^ s ∨ c = t + 1 ∧ d * 2 ^ s ≤ 2 * r) ∧ roundUnits n d = c * 2 ^ s ∧ t < 2 ^ 53 ∧ (s = 0 ∨ 2 ^ 52 ≤ t) := by
  have hpos : 0 < d * 2 ^ ((n / d).log2 - 52) := Nat.mul_pos hd (Nat.pow_pos (by decide))
  refine ⟨(n / d).log2 - 52, n / (d * 2 ^ ((n / d).log2 - 52)), n % (d * 2 ^ ((n / d).log2 - 52)), _,
    (Nat.div_add_mod _ _).symm, Nat.mod_lt _ hpos, ?_, rfl, ?_, ?_⟩
  · generalize n % (d * 2 ^ ((n / d).log2 - 52)) = r
    generalize d * 2 ^ ((n / d).log2 - 52) = e
    split
    · left; refine ⟨rfl, ?_⟩; omega
    · right; refine ⟨rfl, ?_⟩; omega
  · rw [← Nat.div_div_eq_div_mul]
    refine Nat.div_lt_of_lt_mul ?_
    rw [← Nat.pow_add]
    rcases Nat.eq_zero_or_pos (n / d) with h0 | h0
    · rw [h0]; exact Nat.pow_pos (by decide)
    · refine Nat.lt_of_lt_of_le Nat.lt_log2_self (Nat.pow_le_pow_right (by decide) (by omega))
  · by_cases h : (n / d).log2 ≤ 52
    · left; omega
    · right
      rw [← Nat.div_div_eq_div_mul]
      refine (Nat.le_div_iff_mul_le (Nat.pow_pos (by decide))).2 ?_
      rw [← Nat.pow_add, show 52 + ((n / d).log2 - 52) = (n / d).log2 by omega]
      refine Nat.log2_self_le (fun h0 => ?_)
      rw [h0] at h
      exact h (by decide)

/-- Rounding gives a number with 53 bits. -/
theorem roundUnits_bits (n d : Nat) (hd : 0 < d) : ∃ m k, m < 2 ^ 53 ∧ roundUnits n d = m * 2 ^ k := by
  obtain ⟨s, t, r, c, -, -, hc, e, ht, -⟩ := roundUnits_spec n d hd
  by_cases h : c < 2 ^ 53
  · exact ⟨c, s, h, e⟩
  · have : c = 2 ^ 53 := by
      rcases hc with ⟨rfl, -⟩ | ⟨rfl, -⟩ <;> omega
    refine ⟨2 ^ 52, s + 1, by decide, ?_⟩
    rw [e, this, ← Nat.pow_add, ← Nat.pow_add]
    congr 1; omega

/-- Rounding gives the nearest number with 53 bits. -/
theorem roundUnits_near (n d m k : Nat) (hd : 0 < d) (hm : m < 2 ^ 53) :
    ((n : Int) - ((roundUnits n d * d : Nat) : Int)).natAbs ≤ ((n : Int) - ((m * 2 ^ k * d : Nat) : Int)).natAbs := by
  obtain ⟨s, t, r, c, hn, hr, hc, e, ht, hs⟩ := roundUnits_spec n d hd
  rw [e, show c * 2 ^ s * d = c * (d * 2 ^ s) by rw [Nat.mul_assoc, Nat.mul_comm (2 ^ s) d], hn]
  refine near_of _ _ _ _ _ hr hc ?_
  have hv : m * 2 ^ k ≤ t * 2 ^ s ∨ ∃ j, m * 2 ^ k = j * 2 ^ s := by
    rcases hs with rfl | hs
    · exact Or.inr ⟨m * 2 ^ k, by rw [Nat.pow_zero, Nat.mul_one]⟩
    · rcases Nat.lt_or_ge k s with h | h
      · left
        have h1 : m * 2 ^ k ≤ 2 ^ 53 * 2 ^ k := Nat.mul_le_mul_right _ (Nat.le_of_lt hm)
        have h2 : 2 ^ 53 * 2 ^ k ≤ 2 ^ 52 * 2 ^ s := by
          rw [← Nat.pow_add, ← Nat.pow_add]; exact Nat.pow_le_pow_right (by decide) (by omega)
        exact Nat.le_trans h1 (Nat.le_trans h2 (Nat.mul_le_mul_right _ hs))
      · right
        refine ⟨m * 2 ^ (k - s), ?_⟩
        rw [Nat.mul_assoc, ← Nat.pow_add, Nat.sub_add_cancel h]
  rcases hv with h | ⟨j, h⟩
  · left
    calc m * 2 ^ k * d ≤ t * 2 ^ s * d := Nat.mul_le_mul_right _ h
      _ = d * 2 ^ s * t := by rw [Nat.mul_comm, Nat.mul_comm t, Nat.mul_assoc]
  · exact Or.inr ⟨j, by rw [h, Nat.mul_assoc, Nat.mul_comm (2 ^ s)]⟩

/-- A number with 53 bits is not changed by rounding. -/
theorem roundUnits_exact (m k d : Nat) (hd : 0 < d) (hm : m < 2 ^ 53) : roundUnits (m * 2 ^ k * d) d = m * 2 ^ k := by
  have h := roundUnits_near (m * 2 ^ k * d) d m k hd hm
  generalize roundUnits (m * 2 ^ k * d) d = x at *
  generalize m * 2 ^ k = y at *
  have h1 : x * d = y * d := by
    generalize x * d = a at *
    generalize y * d = b at *
    omega
  exact Nat.eq_of_mul_eq_mul_right hd h1

/-- Only the fraction counts. -/
theorem roundUnits_only (n d n' d' u : Nat) (hd : 0 < d) (e : n * d' = n' * d)
    (h : ∀ m k, m < 2 ^ 53 → m * 2 ^ k ≠ u →
      ((n' : Int) - ((u * d' : Nat) : Int)).natAbs < ((n' : Int) - ((m * 2 ^ k * d' : Nat) : Int)).natAbs)
    (hu : ∃ m k, m < 2 ^ 53 ∧ u = m * 2 ^ k) : roundUnits n d = u := by
  obtain ⟨m, k, hm, e1⟩ := roundUnits_bits n d hd
  obtain ⟨m', k', hm', rfl⟩ := hu
  have h1 := roundUnits_near n d m' k' hd hm'
  by_cases hne : m * 2 ^ k = m' * 2 ^ k'
  · exact e1.trans hne
  · have h2 := h m k hm hne
    exfalso
    rw [e1] at h1
    generalize m * 2 ^ k = x at *
    generalize m' * 2 ^ k' = y at *
    have h3 := Nat.mul_lt_mul_of_pos_right h2 hd
    have h4 := Nat.mul_le_mul_right d' h1
    have a : ∀ z : Nat, ((n' : Int) - ((z * d' : Nat) : Int)).natAbs * d = ((n : Int) - ((z * d : Nat) : Int)).natAbs * d' := by
      intro z
      rw [← Int.natAbs_natCast d, ← Int.natAbs_mul, Int.natAbs_natCast, ← Int.natAbs_natCast d', ← Int.natAbs_mul, Int.natAbs_natCast,
        Int.sub_mul, Int.sub_mul, ← Int.natCast_mul, ← Int.natCast_mul, ← Int.natCast_mul, ← Int.natCast_mul, e,
        Nat.mul_assoc, Nat.mul_assoc, Nat.mul_comm d d']
    rw [a, a] at h3
    omega

/-- A float is found from its magnitude. -/
theorem F64.ofUnits_units (f : F64) : F64.ofUnits f.neg f.units = some f := by
  obtain ⟨neg, ⟨e, he⟩, ⟨x, hx⟩⟩ := f
  unfold F64.units F64.ofUnits
  by_cases h0 : e = 0
  · subst h0
    simp only [if_true]
    rw [dif_pos hx]
  · simp only [if_neg h0]
    have hp : 0 < 2 ^ (e - 1) := Nat.pow_pos (by decide)
    have hl : ((2 ^ 52 + x) * 2 ^ (e - 1)).log2 = 52 + (e - 1) := by
      refine (Nat.log2_eq_iff ?_).2 ⟨?_, ?_⟩
      · exact Nat.ne_of_gt (Nat.mul_pos (by omega) hp)
      · rw [Nat.pow_add]; exact Nat.mul_le_mul_right _ (by omega)
      · rw [show 52 + (e - 1) + 1 = 53 + (e - 1) by omega, Nat.pow_add]; exact Nat.mul_lt_mul_of_pos_right (by omega) hp
    have hge : ¬ (2 ^ 52 + x) * 2 ^ (e - 1) < 2 ^ 52 := by
      have := Nat.le_mul_of_pos_right (2 ^ 52 + x) hp
      omega
    rw [dif_neg hge]
    have hs : ((2 ^ 52 + x) * 2 ^ (e - 1)).log2 - 52 = e - 1 := by omega
    have hd : ((2 ^ 52 + x) * 2 ^ (e - 1)) / 2 ^ (e - 1) = 2 ^ 52 + x := Nat.mul_div_cancel _ hp
    rw [dif_pos (by omega)]
    congr 2
    · exact Fin.ext (by show _ - 52 + 1 = e; omega)
    · refine Fin.ext ?_
      show _ % 4503599627370496 = x
      rw [hs, hd, show (2 ^ 52 + x : Nat) = 4503599627370496 + x from rfl, Nat.add_mod_left, Nat.mod_eq_of_lt hx]

theorem F64.units_bits (f : F64) : ∃ m k, m < 2 ^ 53 ∧ f.units = m * 2 ^ k := by
  unfold F64.units
  have := f.frac.isLt
  split
  · exact ⟨f.frac.val, 0, by omega, by rw [Nat.pow_zero, Nat.mul_one]⟩
  · exact ⟨2 ^ 52 + f.frac.val, f.exp.val - 1, by omega, rfl⟩

theorem digitsVal_from (b : Bytes) (v : Nat) : v ≤ b.foldl (fun v x => v * 10 + (x.toNat - 48)) v := by
  induction b generalizing v with
  | nil => exact Nat.le_refl _
  | cons x r ih => exact Nat.le_trans (show v ≤ v * 10 + (x.toNat - 48) by omega) (ih _)

theorem takeDigits_all (b : Bytes) (v n : Nat) (h : b.foldl (fun v x => v * 10 + (x.toNat - 48)) v < 2 ^ 53) :
    takeDigits v n b = (b.foldl (fun v x => v * 10 + (x.toNat - 48)) v, n + b.length) := by
  induction b generalizing v n with
  | nil => rfl
  | cons x r ih =>
    unfold takeDigits
    have := digitsVal_from r (v * 10 + (x.toNat - 48))
    rw [List.foldl_cons] at h
    rw [if_pos (by omega), ih _ _ h, List.foldl_cons, List.length_cons, Nat.add_assoc, Nat.add_comm 1]

theorem decVal_digitsVal (b : Bytes) (v : Nat) : JsonRead.decVal v b = b.foldl (fun v x => v * 10 + (x.toNat - 48)) v := by
  induction b generalizing v with
  | nil => rfl
  | cons x r ih => exact ih _

theorem Decimal.parts_short (d : Decimal) (h : d.digits < 2 ^ 53) : d.parts = (d.digits, - (d.frac.length : Int)) := by
  unfold Decimal.digits digitsVal at *
  rw [List.foldl_append] at *
  have h1 := digitsVal_from d.frac (d.int.foldl (fun v x => v * 10 + (x.toNat - 48)) 0)
  unfold Decimal.parts
  rw [takeDigits_all d.int 0 0 (Nat.lt_of_le_of_lt h1 h)]
  simp only []
  rw [takeDigits_all d.frac _ 0 h]
  simp

theorem Decimal.scale_exponent (d : Decimal) : d.scale = - (d.frac.length : Int) + d.exponent := by
  unfold Decimal.scale Decimal.exponent
  cases d.exp with
  | none => simp
  | some p =>
    obtain ⟨neg, e⟩ := p
    simp only [decVal_digitsVal, digitsVal]
    omega

theorem pow10_small (k : Nat) (h : k ≤ 22) : pow10 k = 10 ^ k * 2 ^ 1074 := by
  have h5 : 5 ^ k < 2 ^ 53 := Nat.lt_of_le_of_lt (Nat.pow_le_pow_right (by decide) h) (by decide)
  have e := roundUnits_exact (5 ^ k) (k + 1074) 1 (by decide) h5
  rw [Nat.mul_one, Nat.pow_add, ← Nat.mul_assoc, ← Nat.mul_pow] at e
  exact e

theorem whole_exact (n : Nat) (h : n < 2 ^ 53) : roundUnits (n * 2 ^ 1074) 1 = n * 2 ^ 1074 := by
  have e := roundUnits_exact n 1074 1 (by decide) h
  rw [Nat.mul_one] at e
  exact e

/-- Short decimals are read as the float they stand for. -/
theorem Decimal.read_short (d : Decimal) (f : F64) (hs : d.Short) (hm : d.Means f) : d.read = some f := by
  obtain ⟨h1, h2, h3⟩ := hs
  have hp : (0 : Nat) < 2 ^ 1074 := Nat.pow_pos (by decide)
  unfold Decimal.read
  rw [Decimal.parts_short d h1]
  simp only []
  rw [← Decimal.scale_exponent, if_neg (by have := d.scale_exponent; omega), ← F64.ofUnits_units f, hm.sign]
  have near := hm.nearest
  unfold Decimal.far Decimal.above Decimal.below at near
  generalize hk : d.scale = k at *
  cases k with
  | ofNat k =>
    have hk' : k ≤ 22 := h2
    unfold fromParts
    simp only []
    rw [if_pos (by omega), whole_exact _ h1, pow10_small k hk']
    have a1 : (Int.ofNat k).toNat = k := rfl
    have a2 : (-(Int.ofNat k)).toNat = 0 := by simp
    rw [a1, a2] at near
    congr 1
    unfold mulUnits
    refine roundUnits_only _ _ (d.digits * 10 ^ k * 2 ^ 1074) (10 ^ 0) _ hp ?_ near f.units_bits
    rw [Nat.pow_zero, Nat.mul_one, Nat.mul_assoc, Nat.mul_left_comm (2 ^ 1074), ← Nat.mul_assoc, ← Nat.mul_assoc]
  | negSucc k =>
    have hk' : k + 1 ≤ 22 := h2
    unfold fromParts downUnits
    simp only []
    rw [if_pos (by omega), whole_exact _ h1, pow10_small (k + 1) hk']
    have a1 : (Int.negSucc k).toNat = 0 := rfl
    have a2 : (-(Int.negSucc k)).toNat = k + 1 := rfl
    rw [a1, a2] at near
    congr 1
    unfold divUnits
    refine roundUnits_only _ _ (d.digits * 10 ^ 0 * 2 ^ 1074) (10 ^ (k + 1)) _ (Nat.mul_pos (Nat.pow_pos (by decide)) hp)
      ?_ near f.units_bits
    rw [Nat.pow_zero, Nat.mul_one, Nat.mul_assoc, Nat.mul_comm (2 ^ 1074) (10 ^ (k + 1))]

theorem near_of_lt (e t r c w : Nat) (hr : r < e) (hc : c = t ∧ 2 * r ≤ e ∨ c = t + 1 ∧ e ≤ 2 * r)
    (hw : w ≤ e * t ∨ ∃ j, w = j * e) (ht : 2 * r ≠ e) (hne : w ≠ c * e) :
    (((e * t + r : Nat) : Int) - ((c * e : Nat) : Int)).natAbs < (((e * t + r : Nat) : Int) - (w : Int)).natAbs := by
  have h1 : (t + 1) * e = e * t + e := by rw [Nat.add_mul, Nat.one_mul, Nat.mul_comm]
  have h2 : t * e = e * t := Nat.mul_comm _ _
  have hw' : w ≤ e * t ∨ e * t + e ≤ w := by
    rcases hw with h | ⟨j, rfl⟩
    · exact Or.inl h
    · rcases Nat.lt_or_ge t j with h | h
      · right; rw [← h1]; exact Nat.mul_le_mul_right _ h
      · left; rw [← h2]; exact Nat.mul_le_mul_right _ h
  rcases hc with ⟨rfl, h⟩ | ⟨rfl, h⟩
  · rw [h2] at hne ⊢; clear h1 h2 hw; generalize e * c = x at *; omega
  · rw [h1] at hne ⊢; clear h1 h2 hw; generalize e * t = x at *; omega

/-- How to see which float a decimal stands for. -/
theorem Decimal.means_of (d : Decimal) (f : F64) (s t r c : Nat) (sign : d.neg = f.neg) (hd : 0 < d.below)
    (hn : d.above * 2 ^ 1074 = d.below * 2 ^ s * t + r)
    (hr : r < d.below * 2 ^ s) (hc : c = t ∧ 2 * r ≤ d.below * 2 ^ s ∨ c = t + 1 ∧ d.below * 2 ^ s ≤ 2 * r) (ht : 2 * r ≠ d.below * 2 ^ s)
    (hu : f.units = c * 2 ^ s) (hs : s = 0 ∨ 2 ^ 52 ≤ t) : d.Means f := by
  refine ⟨sign, fun m k hm hne => ?_⟩
  unfold Decimal.far
  rw [hu] at *
  rw [hn, show c * 2 ^ s * d.below = c * (d.below * 2 ^ s) by rw [Nat.mul_assoc, Nat.mul_comm (2 ^ s) d.below]]
  refine near_of_lt _ _ _ _ _ hr hc ?_ ht ?_
  · have hv : m * 2 ^ k ≤ t * 2 ^ s ∨ ∃ j, m * 2 ^ k = j * 2 ^ s := by
      rcases hs with rfl | hs
      · exact Or.inr ⟨m * 2 ^ k, by rw [Nat.pow_zero, Nat.mul_one]⟩
      · rcases Nat.lt_or_ge k s with h | h
        · left
          have h1 : m * 2 ^ k ≤ 2 ^ 53 * 2 ^ k := Nat.mul_le_mul_right _ (Nat.le_of_lt hm)
          have h2 : 2 ^ 53 * 2 ^ k ≤ 2 ^ 52 * 2 ^ s := by
            rw [← Nat.pow_add, ← Nat.pow_add]; exact Nat.pow_le_pow_right (by decide) (by omega)
          exact Nat.le_trans h1 (Nat.le_trans h2 (Nat.mul_le_mul_right _ hs))
        · right
          refine ⟨m * 2 ^ (k - s), ?_⟩
          rw [Nat.mul_assoc, ← Nat.pow_add, Nat.sub_add_cancel h]
    rcases hv with h | ⟨j, h⟩
    · left
      calc m * 2 ^ k * d.below ≤ t * 2 ^ s * d.below := Nat.mul_le_mul_right _ h
        _ = d.below * 2 ^ s * t := by rw [Nat.mul_comm, Nat.mul_comm t, Nat.mul_assoc]
    · exact Or.inr ⟨j, by rw [h, Nat.mul_assoc, Nat.mul_comm (2 ^ s)]⟩
  · intro e
    rw [Nat.mul_comm d.below, ← Nat.mul_assoc] at e
    exact hne (Nat.eq_of_mul_eq_mul_right hd e)

end IndraDB
