import Verif.Proofs.JsonAccuracy
import Verif.Spec.JsonAccuracy
/-
How far the float that is read is from the number that is written (C93), continued.
-/
namespace IndraDB

theorem takeDigits_lt (b : Bytes) (v n : Nat) (h : v < 2 ^ 64) : (takeDigits v n b).1 < 2 ^ 64 := by
  induction b generalizing v n with
  | nil => exact h
  | cons x r ih =>
    unfold takeDigits
    split
    · rename_i h'
      exact ih _ _ h'
    · exact h

theorem Decimal.parts_lt (d : Decimal) : d.parts.1 < 2 ^ 64 := takeDigits_lt _ _ _ (takeDigits_lt _ _ _ (by decide))

def P6 : Nat := P5 * P60
def Q6 : Nat := Q5 * Q60

theorem q6_le : 2 ^ 53 * Q6 ≤ (2 ^ 53 + 6) * P6 := by decide +kernel
theorem p6_le : (2 ^ 53 - 6) * Q6 ≤ 2 ^ 53 * P6 := by decide +kernel
theorem p6_pos : 0 < P6 := by decide +kernel
theorem q6_pos : 0 < Q6 := by decide +kernel

theorem close_err {a b c : Nat} (h : Close P6 Q6 (3 * c) a b) :
    2 ^ 53 * a ≤ 2 ^ 53 * b + (6 * b + 2 ^ 53 * (4 * c)) ∧ 2 ^ 53 * b ≤ 2 ^ 53 * a + (6 * b + 2 ^ 53 * (4 * c)) := by
  have h1 : 2 ^ 53 * a ≤ (b + 3 * c) * (2 ^ 53 + 6) := by
    refine Nat.le_of_mul_le_mul_right ?_ p6_pos
    calc 2 ^ 53 * a * P6 = 2 ^ 53 * (a * P6) := Nat.mul_assoc _ _ _
      _ ≤ 2 ^ 53 * ((b + 3 * c) * Q6) := Nat.mul_le_mul_left _ h.1
      _ = (b + 3 * c) * (2 ^ 53 * Q6) := Nat.mul_left_comm _ _ _
      _ ≤ (b + 3 * c) * ((2 ^ 53 + 6) * P6) := Nat.mul_le_mul_left _ q6_le
      _ = (b + 3 * c) * (2 ^ 53 + 6) * P6 := (Nat.mul_assoc _ _ _).symm
  have h2 : b * (2 ^ 53 - 6) ≤ 2 ^ 53 * (a + 3 * c) := by
    refine Nat.le_of_mul_le_mul_right ?_ q6_pos
    calc b * (2 ^ 53 - 6) * Q6 = b * ((2 ^ 53 - 6) * Q6) := Nat.mul_assoc _ _ _
      _ ≤ b * (2 ^ 53 * P6) := Nat.mul_le_mul_left _ p6_le
      _ = 2 ^ 53 * (b * P6) := Nat.mul_left_comm _ _ _
      _ ≤ 2 ^ 53 * ((a + 3 * c) * Q6) := Nat.mul_le_mul_left _ h.2
      _ = 2 ^ 53 * (a + 3 * c) * Q6 := (Nat.mul_assoc _ _ _).symm
  omega

theorem close60_half {a b : Nat} (h : Close P60 Q60 0 a b) : a ≤ 2 * b ∧ b ≤ 2 * a := by
  unfold Close P60 Q60 at h; omega

theorem pow_ten_pos (k : Nat) : 0 < 10 ^ k := Nat.pow_pos (by decide)

/-- The number that is read, in units. -/
theorem Decimal.read_units (d : Decimal) (h : d.Usual) :
    (d.read = none ∧ 2 ^ 1023 * d.below ≤ d.above) ∨
    ∃ z, (∃ m j, m < 2 ^ 53 ∧ z = m * 2 ^ j) ∧ d.read = F64.ofUnits d.neg z ∧
      Close P6 Q6 (3 * d.below) (z * d.below) (d.above * 2 ^ 1074) := by
  obtain ⟨hi, hf, hl⟩ := h
  obtain ⟨r, j, ht, hr, hj, hc, h0⟩ := d.parts_close hi hf
  have hlt := d.parts_lt
  have hsc := d.scale_exponent
  have h10 : (2 : Nat) ^ 1024 ≤ 10 ^ 309 := by decide +kernel
  unfold Decimal.read
  simp only []
  unfold Decimal.above Decimal.below
  by_cases hex : 2147483647 < d.exponent.natAbs
  · rw [if_pos hex]
    by_cases hz : d.parts.1 ≠ 0 ∧ 0 < d.exponent
    · left
      rw [if_pos hz]
      refine ⟨rfl, ?_⟩
      have hD : 0 < d.digits := by
        rcases Nat.eq_zero_or_pos d.digits with e | e
        · exact absurd (h0.2 e) hz.1
        · exact e
      have e1 : (-d.scale).toNat = 0 := by omega
      have e2 : 309 ≤ d.scale.toNat := by omega
      rw [e1, Nat.pow_zero, Nat.mul_one]
      have h1 : (10 : Nat) ^ 309 ≤ 10 ^ d.scale.toNat := Nat.pow_le_pow_right (by decide) e2
      have h2 : (2 : Nat) ^ 1023 ≤ 2 ^ 1024 := Nat.pow_le_pow_right (by decide) (by decide)
      exact Nat.le_trans (Nat.le_trans h2 (Nat.le_trans h10 h1)) (Nat.le_mul_of_pos_left _ hD)
    · right
      rw [if_neg hz]
      refine ⟨0, ⟨0, 0, by decide, rfl⟩, rfl, ?_⟩
      rw [Nat.zero_mul]
      by_cases hs : d.parts.1 = 0
      · rw [h0.1 hs, Nat.zero_mul, Nat.zero_mul]
        exact (Close.refl (Nat.mul_le_mul PQ5 PQ60) 0).more (Nat.zero_le _)
      · have hneg : d.exponent < 0 := by omega
        have e1 : d.scale.toNat = 0 := by omega
        have hD : d.digits < 10 ^ (d.int.length + d.frac.length) := by
          have : AllDigits (d.int ++ d.frac) := fun x hx => by
            rcases List.mem_append.1 hx with hx | hx
            · exact hi x hx
            · exact hf x hx
          have := digitsVal_lt this
          rw [List.length_append] at this
          exact this
        rw [e1, Nat.pow_zero, Nat.mul_one]
        have hb : d.digits * 2 ^ 1074 ≤ 10 ^ (-d.scale).toNat := by
          have h1 : d.digits * 2 ^ 1074 ≤ 10 ^ (d.int.length + d.frac.length) * 10 ^ 1074 :=
            Nat.mul_le_mul (Nat.le_of_lt hD) (Nat.pow_le_pow_left (by decide) _)
          rw [← Nat.pow_add] at h1
          exact Nat.le_trans h1 (Nat.pow_le_pow_right (by decide) (by omega))
        refine Close.more (c := 10 ^ (-d.scale).toNat) ?_ (Nat.le_mul_of_pos_left _ (by decide))
        constructor
        · rw [Nat.zero_mul]; exact Nat.zero_le _
        · rw [Nat.zero_add]
          exact Nat.mul_le_mul hb (Nat.mul_le_mul PQ5 PQ60)
  · rw [if_neg hex]
    generalize hT : d.parts.2 + d.exponent = t
    have hid : t.toNat + j + (-d.scale).toNat = (-t).toNat + (r + d.frac.length) + d.scale.toNat := by omega
    rcases fromParts_close d.neg d.parts.1 t hlt with ⟨hn, h309, hs⟩ | ⟨z, hz, he, hcl⟩
    · left
      refine ⟨hn, ?_⟩
      have e1 : (-t).toNat = 0 := by omega
      have e2 : 309 ≤ t.toNat := by omega
      rw [e1, Nat.zero_add] at hid
      have h1 : d.parts.1 * 10 ^ (r + d.frac.length) * 10 ^ d.scale.toNat ≤ 2 * (d.digits * 10 ^ j) * 10 ^ d.scale.toNat :=
        Nat.mul_le_mul_right _ (close60_half hc).1
      rw [Nat.mul_assoc, ← Nat.pow_add, ← hid] at h1
      have h2 : 10 ^ (309 + j + (-d.scale).toNat) ≤ d.parts.1 * 10 ^ (t.toNat + j + (-d.scale).toNat) :=
        Nat.le_trans (Nat.pow_le_pow_right (by decide) (by omega)) (Nat.le_mul_of_pos_left _ (by omega))
      have h3 := Nat.le_trans h2 h1
      have h4 : 10 ^ 309 * 10 ^ (-d.scale).toNat ≤ 2 * (d.digits * 10 ^ d.scale.toNat) := by
        refine Nat.le_of_mul_le_mul_right ?_ (pow_ten_pos j)
        calc 10 ^ 309 * 10 ^ (-d.scale).toNat * 10 ^ j = 10 ^ (309 + j + (-d.scale).toNat) := by
              rw [← Nat.pow_add, ← Nat.pow_add, Nat.add_right_comm]
          _ ≤ 2 * (d.digits * 10 ^ j) * 10 ^ d.scale.toNat := h3
          _ = 2 * (d.digits * 10 ^ d.scale.toNat) * 10 ^ j := by
              rw [Nat.mul_assoc, Nat.mul_assoc 2, Nat.mul_right_comm d.digits]
      have h5 : 2 * (2 ^ 1023 * 10 ^ (-d.scale).toNat) ≤ 10 ^ 309 * 10 ^ (-d.scale).toNat := by
        rw [← Nat.mul_assoc]
        refine Nat.mul_le_mul_right _ ?_
        rw [Nat.mul_comm, ← Nat.pow_succ]
        exact h10
      have h6 := Nat.le_trans h5 h4
      exact Nat.le_of_mul_le_mul_left h6 (by decide)
    · right
      refine ⟨z, hz, he, ?_⟩
      have h1 := hcl.mul (10 ^ (r + d.frac.length + d.scale.toNat))
      have h2 := hc.mul (10 ^ (t.toNat + d.scale.toNat) * 2 ^ 1074)
      rw [Nat.zero_mul] at h2
      have e1 : d.parts.1 * 10 ^ t.toNat * 2 ^ 1074 * 10 ^ (r + d.frac.length + d.scale.toNat) =
          d.parts.1 * 10 ^ (r + d.frac.length) * (10 ^ (t.toNat + d.scale.toNat) * 2 ^ 1074) := by
        rw [Nat.pow_add 10 (r + d.frac.length), Nat.pow_add 10 t.toNat]
        simp only [Nat.mul_assoc, Nat.mul_left_comm, Nat.mul_comm]
      rw [e1] at h1
      have h3 := h1.trans PQ5 PQ60 h2
      have hexp : (-t).toNat + (r + d.frac.length + d.scale.toNat) = (-d.scale).toNat + (t.toNat + j) := by omega
      have e2 : z * 10 ^ (-t).toNat * 10 ^ (r + d.frac.length + d.scale.toNat) = z * 10 ^ (-d.scale).toNat * 10 ^ (t.toNat + j) := by
        rw [Nat.mul_assoc, ← Nat.pow_add, hexp, Nat.pow_add, Nat.mul_assoc]
      have e3 : 3 * 10 ^ (-t).toNat * 10 ^ (r + d.frac.length + d.scale.toNat) = 3 * 10 ^ (-d.scale).toNat * 10 ^ (t.toNat + j) := by
        rw [Nat.mul_assoc, ← Nat.pow_add, hexp, Nat.pow_add, Nat.mul_assoc]
      have e4 : d.digits * 10 ^ j * (10 ^ (t.toNat + d.scale.toNat) * 2 ^ 1074) =
          d.digits * 10 ^ d.scale.toNat * 2 ^ 1074 * 10 ^ (t.toNat + j) := by
        rw [Nat.pow_add 10 t.toNat, Nat.pow_add 10 t.toNat]
        simp only [Nat.mul_assoc, Nat.mul_left_comm, Nat.mul_comm]
      rw [e2, e3, e4, Nat.add_zero] at h3
      exact h3.cancel (pow_ten_pos _)

/-- A number that is read is near the one that is written. -/
theorem Decimal.read_approx (d : Decimal) (h : d.Usual) (f : F64) (hf : d.read = some f) : d.Approx f := by
  rcases d.read_units h with ⟨hn, _⟩ | ⟨z, hz, he, hc⟩
  · rw [hn] at hf; cases hf
  · rw [he] at hf
    obtain ⟨hu, hneg⟩ := F64.ofUnits_some hz hf
    refine ⟨hneg, ?_⟩
    have := close_err hc
    unfold Decimal.far
    rw [hu]
    omega

/-- A number that is refused is at least `2^1023`. -/
theorem Decimal.read_none (d : Decimal) (h : d.Usual) (hn : d.read = none) : 2 ^ 1023 * d.below ≤ d.above := by
  rcases d.read_units h with ⟨_, hb⟩ | ⟨z, hz, he, hc⟩
  · exact hb
  · rw [he] at hn
    have hz := F64.ofUnits_none hn
    have hc := (close_err hc).1
    have h1 : 2 ^ 2098 * d.below ≤ z * d.below := Nat.mul_le_mul_right _ hz
    have hpos : 0 < d.below := pow_ten_pos _
    have h2 : 2 ^ 2098 * d.below = 2 * (2 ^ 2097 * d.below) := by
      rw [← Nat.mul_assoc, Nat.mul_comm 2, ← Nat.pow_succ]
    have h3 : 2 ^ 3 * d.below ≤ 2 ^ 2097 * d.below := Nat.mul_le_mul_right _ (Nat.pow_le_pow_right (by decide) (by decide))
    have h4 : 2 ^ 2097 * d.below ≤ d.above * 2 ^ 1074 := by
      rw [h2] at h1
      generalize 2 ^ 2097 * d.below = B at *
      generalize d.above * 2 ^ 1074 = n at *
      generalize z * d.below = a at *
      clear h2 hz he
      omega
    have h5 : 2 ^ 1023 * d.below * 2 ^ 1074 = 2 ^ 2097 * d.below := by
      rw [Nat.mul_right_comm, ← Nat.pow_add]
    rw [← h5] at h4
    exact Nat.le_of_mul_le_mul_right h4 (Nat.pow_pos (by decide))

/-- What the digits stand for is near. -/
theorem Decimal.Means.err {d : Decimal} {f : F64} (h : d.Means f) :
    2 ^ 53 * d.far f.units ≤ d.above * 2 ^ 1074 + 2 ^ 52 * d.below := by
  have hpos : 0 < d.below := pow_ten_pos _
  obtain ⟨m, k, hm, e⟩ := roundUnits_bits (d.above * 2 ^ 1074) d.below hpos
  have h1 := (roundUnits_err (d.above * 2 ^ 1074) d.below hpos).1
  have h2 : 2 ^ 53 * d.far (roundUnits (d.above * 2 ^ 1074) d.below) ≤ d.above * 2 ^ 1074 + 2 ^ 52 * d.below := by
    unfold Decimal.far; omega
  by_cases he : m * 2 ^ k = f.units
  · rw [← he, ← e]; exact h2
  · have h3 := h.nearest m k hm he
    rw [e] at h2
    omega

/-- Hence a float that is written and read is near the one before. -/
theorem F64.near_of {d : Decimal} {f g : F64} (hm : d.Means f) (ha : d.Approx g) : f.Near g := by
  have hpos : 0 < d.below := pow_ten_pos _
  have h1 := hm.err
  have h2 := ha.near
  unfold Decimal.far at h1 h2
  generalize hn : d.above * 2 ^ 1074 = n at *
  have key : 2 ^ 53 * (g.units * d.below) ≤ 2 ^ 53 * (f.units * d.below) + (8 * (f.units * d.below) + 2 ^ 53 * (5 * d.below)) ∧
      2 ^ 53 * (f.units * d.below) ≤ 2 ^ 53 * (g.units * d.below) + (8 * (f.units * d.below) + 2 ^ 53 * (5 * d.below)) := by
    generalize g.units * d.below = a at *
    generalize f.units * d.below = b at *
    omega
  refine ⟨ha.sign.trans hm.sign, ?_, ?_⟩
  · have : 2 ^ 53 * g.units ≤ 2 ^ 53 * f.units + (8 * f.units + 2 ^ 53 * 5) := by
      refine Nat.le_of_mul_le_mul_right ?_ hpos
      have := key.1
      simp only [Nat.add_mul, Nat.mul_assoc] at *
      exact this
    omega
  · have : 2 ^ 53 * f.units ≤ 2 ^ 53 * g.units + (8 * f.units + 2 ^ 53 * 5) := by
      refine Nat.le_of_mul_le_mul_right ?_ hpos
      have := key.2
      simp only [Nat.add_mul, Nat.mul_assoc] at *
      exact this
    omega

/-- A float below `2^1022` is always read back. -/
theorem Decimal.read_small {d : Decimal} {f : F64} (hu : d.Usual) (hm : d.Means f) (hf : f.units < 2 ^ 2096) : ∃ g, d.read = some g := by
  rcases h : d.read with _ | g
  · exfalso
    have h1 := d.read_none hu h
    have h2 := hm.err
    have hpos : 0 < d.below := pow_ten_pos _
    have h3 : 2 ^ 1023 * d.below * 2 ^ 1074 ≤ d.above * 2 ^ 1074 := Nat.mul_le_mul_right _ h1
    rw [Nat.mul_right_comm, ← Nat.pow_add] at h3
    have h4 : f.units * d.below ≤ 2 ^ 2096 * d.below := Nat.mul_le_mul_right _ (Nat.le_of_lt hf)
    have h5 : 2 ^ (1023 + 1074) * d.below = 2 * (2 ^ 2096 * d.below) := by
      rw [← Nat.mul_assoc, Nat.mul_comm 2, ← Nat.pow_succ]
    have h6 : 2 ^ 3 * d.below ≤ 2 ^ 2096 * d.below := Nat.mul_le_mul_right _ (Nat.pow_le_pow_right (by decide) (by decide))
    rw [h5] at h3
    unfold Decimal.far at h2
    generalize 2 ^ 2096 * d.below = B at *
    generalize d.above * 2 ^ 1074 = n at *
    generalize f.units * d.below = b at *
    clear hf h5 h1
    omega
  · exact ⟨g, rfl⟩

mutual
theorem Json.near_back {F : Floats} {P : F64 → Prop} (h : ∀ f g, P f → F.back f = some g → f.Near g) :
    ∀ {v w : Json}, v.FloatsAre P → v.back F = some w → v.Near w
  | .num (.float f), w, hv, hb => by
    simp only [Json.back, Num.back, Option.map_map, Option.map_eq_some_iff] at hb
    obtain ⟨g, hg, rfl⟩ := hb
    exact h f g hv hg
  | .num (.posInt _), w, _, hb | .num (.negInt _), w, _, hb | .null, w, _, hb | .bool _, w, _, hb | .str _, w, _, hb => by
    simp only [Json.back, Num.back, Option.map_some, Option.some.injEq] at hb
    subst hb
    simp only [Json.Near]
  | .arr a, w, hv, hb => by
    simp only [Json.back, Option.map_eq_some_iff] at hb
    obtain ⟨b, hb, rfl⟩ := hb
    exact JArr.near_back h (v := a) hv hb
  | .obj o, w, hv, hb => by
    simp only [Json.back, Option.map_eq_some_iff] at hb
    obtain ⟨b, hb, rfl⟩ := hb
    exact JObj.near_back h (v := o) hv hb
theorem JArr.near_back {F : Floats} {P : F64 → Prop} (h : ∀ f g, P f → F.back f = some g → f.Near g) :
    ∀ {v w : JArr}, v.FloatsAre P → v.back F = some w → v.Near w
  | .nil, w, _, hb => by
    simp only [JArr.back, Option.some.injEq] at hb
    subst hb
    simp only [JArr.Near]
  | .cons v r, w, hv, hb => by
    simp only [JArr.back, Option.bind_eq_some_iff, Option.map_eq_some_iff] at hb
    obtain ⟨v', h1, r', h2, rfl⟩ := hb
    exact ⟨Json.near_back h hv.1 h1, JArr.near_back h hv.2 h2⟩
theorem JObj.near_back {F : Floats} {P : F64 → Prop} (h : ∀ f g, P f → F.back f = some g → f.Near g) :
    ∀ {v w : JObj}, v.FloatsAre P → v.back F = some w → v.Near w
  | .nil, w, _, hb => by
    simp only [JObj.back, Option.some.injEq] at hb
    subst hb
    simp only [JObj.Near]
  | .cons k v r, w, hv, hb => by
    simp only [JObj.back, Option.bind_eq_some_iff, Option.map_eq_some_iff] at hb
    obtain ⟨v', h1, r', h2, rfl⟩ := hb
    exact ⟨rfl, Json.near_back h hv.1 h1, JObj.near_back h hv.2 h2⟩
end

end IndraDB
