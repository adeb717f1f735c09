import Verif.Proofs.JsonLaws
import Verif.Spec.Values
/-
Lemmas for the properties of values: comparison as written in the source, transitivity on number classes, hash input.
-/
set_option linter.unusedSimpArgs false
set_option linter.unusedVariables false
set_option exponentiation.threshold 2000
namespace IndraDB

/-! ### Numbers -/

theorem roundF64_small {n : Nat} (h : n ≤ 2^53) : roundF64 n = n := by
  by_cases h2 : n < 2^53
  · simp [roundF64, h2]
  · have : n = 2^53 := by omega
    subst this; decide +kernel

theorem Num.exact_cmp {a b : Num} (ha : a.IsExact) (hb : b.IsExact) : a.cmp b = .eq ↔ a.f64Scaled = b.f64Scaled := by
  rw [Num.cmp_eq_iff]
  have hz : (2 : Int) ^ 1074 ≠ 0 := by
    exact Int.ne_of_gt (Int.pow_pos (by omega))
  cases a <;> cases b <;> simp only [Num.intVal, Num.f64Scaled, Num.IsExact] at *
  · rw [roundF64_small ha, roundF64_small hb]
    exact ⟨fun h => by rw [h], fun h => Int.eq_of_mul_eq_mul_right hz h⟩
  · rw [roundF64_small ha, roundF64_small hb, ← Int.neg_mul]
    exact ⟨fun h => by push_cast; rw [h], fun h => by have := Int.eq_of_mul_eq_mul_right hz h; omega⟩
  · rw [roundF64_small ha, roundF64_small hb, ← Int.neg_mul]
    exact ⟨fun h => by push_cast; rw [h], fun h => by have := Int.eq_of_mul_eq_mul_right hz h; omega⟩
  · rw [roundF64_small ha, roundF64_small hb, ← Int.neg_mul, ← Int.neg_mul]
    exact ⟨fun h => by push_cast; rw [h], fun h => by have := Int.eq_of_mul_eq_mul_right hz h; omega⟩

theorem Num.int_cmp {a b : Num} (ha : a.IsInt) (hb : b.IsInt) : a.cmp b = .eq ↔ a = b := by
  rw [Num.cmp_eq_iff]
  cases a with
  | float f => cases ha
  | posInt n => cases b with
    | float f => cases hb
    | posInt m => simp [Num.intVal, Fin.ext_iff]; omega
    | negInt m => simp [Num.intVal]; omega
  | negInt n => cases b with
    | float f => cases hb
    | posInt m => simp [Num.intVal]; omega
    | negInt m => simp [Num.intVal, Fin.ext_iff]; omega

/-- A float with the same value is the same float, apart from the sign of zero. -/
theorem F64.scaled_inj {f g : F64} (hf : ¬ (f.neg = true ∧ f.exp.val = 0 ∧ f.frac.val = 0))
    (hg : ¬ (g.neg = true ∧ g.exp.val = 0 ∧ g.frac.val = 0)) (h : f.scaled = g.scaled) : f = g := by
  obtain ⟨n1, e1, f1⟩ := f
  obtain ⟨n2, e2, f2⟩ := g
  have key : ∀ (e1 e2 : Fin 2047) (f1 f2 : Fin 4503599627370496),
      (if e1.val = 0 then f1.val else (2^52 + f1.val) * 2^(e1.val - 1)) =
      (if e2.val = 0 then f2.val else (2^52 + f2.val) * 2^(e2.val - 1)) → e1 = e2 ∧ f1 = f2 := by
    intro e1 e2 f1 f2 h
    have h1 := f1.isLt; have h2 := f2.isLt
    -- the magnitude determines the exponent
    have mono : ∀ (x y : Nat) (a b : Nat), a < 2^52 → b < 2^52 → x < y → (2^52 + a) * 2^x < (2^52 + b) * 2^y := by
      intro x y a b ha hb hxy
      have : 2^y = 2^(y - x - 1) * 2 * 2^x := by
        rw [← Nat.pow_succ, ← Nat.pow_add]; congr 1; omega
      rw [this, ← Nat.mul_assoc]
      apply Nat.mul_lt_mul_of_pos_right _ (Nat.two_pow_pos _)
      have h3 : 1 ≤ 2^(y-x-1) := Nat.one_le_two_pow
      have h4 : (2^52 + b) * (1 * 2) ≤ (2^52 + b) * (2^(y-x-1) * 2) := Nat.mul_le_mul_left _ (Nat.mul_le_mul_right _ h3)
      omega
    by_cases z1 : e1.val = 0 <;> by_cases z2 : e2.val = 0 <;> simp only [z1, z2, if_true, if_false] at h
    · exact ⟨Fin.ext (by omega), Fin.ext h⟩
    · have : 1 ≤ 2^(e2.val - 1) := Nat.one_le_two_pow
      have h4 : (2^52 + f2.val) * 1 ≤ (2^52 + f2.val) * 2^(e2.val - 1) := Nat.mul_le_mul_left _ this
      omega
    · have : 1 ≤ 2^(e1.val - 1) := Nat.one_le_two_pow
      have h4 : (2^52 + f1.val) * 1 ≤ (2^52 + f1.val) * 2^(e1.val - 1) := Nat.mul_le_mul_left _ this
      omega
    · rcases Nat.lt_trichotomy (e1.val - 1) (e2.val - 1) with hlt | heq | hgt
      · have := mono _ _ f1.val f2.val (by omega) (by omega) hlt; omega
      · rw [heq] at h
        have := Nat.eq_of_mul_eq_mul_right (Nat.two_pow_pos _) h
        exact ⟨Fin.ext (by omega), Fin.ext (by omega)⟩
      · have := mono _ _ f2.val f1.val (by omega) (by omega) hgt; omega
  simp only [F64.scaled] at h
  simp only at hf hg
  have zero : ∀ (e : Fin 2047) (f : Fin 4503599627370496),
      (if e.val = 0 then f.val else (2^52 + f.val) * 2^(e.val - 1)) = 0 → e.val = 0 ∧ f.val = 0 := by
    intro e f h
    split at h
    · exact ⟨by assumption, h⟩
    · have : 0 < (2^52 + f.val) * 2^(e.val - 1) := Nat.mul_pos (by omega) (Nat.two_pow_pos _)
      omega
  generalize hm1 : (if e1.val = 0 then f1.val else (2^52 + f1.val) * 2^(e1.val - 1)) = m1 at h
  generalize hm2 : (if e2.val = 0 then f2.val else (2^52 + f2.val) * 2^(e2.val - 1)) = m2 at h
  have zz1 : m1 = 0 → n1 = true → False := fun hz hn => by
    have := zero e1 f1 (hm1.trans hz); exact hf ⟨hn, this⟩
  have zz2 : m2 = 0 → n2 = true → False := fun hz hn => by
    have := zero e2 f2 (hm2.trans hz); exact hg ⟨hn, this⟩
  have : n1 = n2 ∧ m1 = m2 := by
    cases n1 <;> cases n2 <;> simp at h zz1 zz2 ⊢ <;> omega
  obtain ⟨rfl, hm⟩ := this
  obtain ⟨rfl, rfl⟩ := key e1 e2 f1 f2 (by rw [hm1, hm2, hm])
  rfl

theorem Num.float_cmp {a b : Num} (ha : a.IsFloatNotNegZero) (hb : b.IsFloatNotNegZero) : a.cmp b = .eq ↔ a = b := by
  cases a with
  | posInt _ => cases ha
  | negInt _ => cases ha
  | float f => cases b with
    | posInt _ => cases hb
    | negInt _ => cases hb
    | float g =>
      rw [Num.cmp_eq_iff]
      simp only [Num.intVal, Num.f64Scaled]
      exact ⟨fun h => by rw [F64.scaled_inj ha hb h], fun h => by rw [Num.float.inj h]⟩

/-! ### Values whose numbers come from one class -/
section
variable {P : Num → Prop} {R T : Num → Num → Prop}

mutual
theorem Json.Rel.mono_on : ∀ a b : Json, a.AllNums P → b.AllNums P → (∀ x y, P x → P y → R x y → T x y) → a.Rel R b → a.Rel T b
  | .null, b, _, _, _, h => by cases b <;> simp_all [Json.Rel]
  | .bool x, b, _, _, _, h => by cases b <;> simp_all [Json.Rel]
  | .num x, b, ha, hb, hR, h => by
    cases b <;> simp only [Json.Rel] at h ⊢
    exact hR _ _ ha hb h
  | .str x, b, _, _, _, h => by cases b <;> simp_all [Json.Rel]
  | .arr x, b, ha, hb, hR, h => by
    cases b <;> simp only [Json.Rel] at h ⊢
    exact JArr.Rel.mono_on x _ ha hb hR h
  | .obj x, b, ha, hb, hR, h => by
    cases b <;> simp only [Json.Rel] at h ⊢
    exact JObj.Rel.mono_on x _ ha hb hR h
theorem JArr.Rel.mono_on : ∀ a b : JArr, a.AllNums P → b.AllNums P → (∀ x y, P x → P y → R x y → T x y) → a.Rel R b → a.Rel T b
  | .nil, b, _, _, _, h => by cases b <;> simp_all [JArr.Rel]
  | .cons x r, b, ha, hb, hR, h => by
    cases b with
    | nil => exact h.elim
    | cons y s => exact ⟨Json.Rel.mono_on x y ha.1 hb.1 hR h.1, JArr.Rel.mono_on r s ha.2 hb.2 hR h.2⟩
theorem JObj.Rel.mono_on : ∀ a b : JObj, a.AllNums P → b.AllNums P → (∀ x y, P x → P y → R x y → T x y) → a.Rel R b → a.Rel T b
  | .nil, b, _, _, _, h => by cases b <;> simp_all [JObj.Rel]
  | .cons k x r, b, ha, hb, hR, h => by
    cases b with
    | nil => exact h.elim
    | cons l y s => exact ⟨h.1, Json.Rel.mono_on x y ha.1 hb.1 hR h.2.1, JObj.Rel.mono_on r s ha.2 hb.2 hR h.2.2⟩
end

mutual
theorem Json.Rel.eq : ∀ a b : Json, a.Rel (fun x y => x = y) b → a = b
  | .null, b, h => by cases b <;> simp_all [Json.Rel]
  | .bool x, b, h => by cases b <;> simp_all [Json.Rel]
  | .num x, b, h => by cases b <;> simp_all [Json.Rel]
  | .str x, b, h => by cases b <;> simp_all [Json.Rel]
  | .arr x, b, h => by
    cases b <;> simp only [Json.Rel] at h
    rw [JArr.Rel.eq x _ h]
  | .obj x, b, h => by
    cases b <;> simp only [Json.Rel] at h
    rw [JObj.Rel.eq x _ h]
theorem JArr.Rel.eq : ∀ a b : JArr, a.Rel (fun x y => x = y) b → a = b
  | .nil, b, h => by cases b <;> simp_all [JArr.Rel]
  | .cons x r, b, h => by
    cases b with
    | nil => exact h.elim
    | cons y s => rw [Json.Rel.eq x y h.1, JArr.Rel.eq r s h.2]
theorem JObj.Rel.eq : ∀ a b : JObj, a.Rel (fun x y => x = y) b → a = b
  | .nil, b, h => by cases b <;> simp_all [JObj.Rel]
  | .cons k x r, b, h => by
    cases b with
    | nil => exact h.elim
    | cons l y s => rw [h.1, Json.Rel.eq x y h.2.1, JObj.Rel.eq r s h.2.2]
end
end

/-! ### Hash input -/

theorem append_ff {a b x y : Bytes} (ha : (255 : UInt8) ∉ a) (hb : (255 : UInt8) ∉ b)
    (h : a ++ 255 :: x = b ++ 255 :: y) : a = b ∧ x = y := by
  induction a generalizing b with
  | nil => cases b with
    | nil => simpa using h
    | cons c b => simp at h; simp [← h.1] at hb
  | cons d a ih => cases b with
    | nil => simp at h; simp [h.1] at ha
    | cons c b =>
      simp only [List.cons_append, List.cons.injEq] at h
      simp only [List.mem_cons, not_or] at ha hb
      obtain ⟨h1, h2⟩ := ih ha.2 hb.2 h.2
      exact ⟨by rw [h.1, h1], h2⟩

/-- Scalars are self-delimiting in the hash input. -/
theorem Json.scalar_stream {a b : Json} {x y : Bytes} (ha : a.Scalar) (hb : b.Scalar) (ua : a.Utf8) (ub : b.Utf8)
    (h : a.stream ++ x = b.stream ++ y) : a.Rel (fun x y => x.bits64 = y.bits64) b ∧ x = y := by
  cases a with
  | arr _ => exact ha.elim
  | obj _ => exact ha.elim
  | null => cases b <;> simp_all [Json.stream, Json.Rel, Json.Scalar]
  | bool p =>
    cases b <;> simp_all [Json.stream, Json.Rel, Json.Scalar]
    obtain ⟨h, _⟩ := h
    rename_i q
    cases p <;> cases q <;> simp_all
  | num p =>
    cases b <;> simp_all [Json.stream, Json.Rel, Json.Scalar]
    rename_i q
    have := List.append_inj h (by simp [le64])
    exact ⟨le64_inj p.bits_lt q.bits_lt this.1, this.2⟩
  | str p =>
    cases b <;> simp_all [Json.stream, Json.Rel, Json.Scalar]
    exact append_ff ua ub h

theorem JArr.scalar_stream : ∀ {a b : JArr}, a.AllScalar → b.AllScalar → a.Utf8 → b.Utf8 →
    a.stream = b.stream → a.Rel (fun x y => x.bits64 = y.bits64) b
  | .nil, .nil, _, _, _, _, _ => trivial
  | .nil, .cons v r, _, hb, _, _, h => by
    cases v <;> simp_all [JArr.stream, Json.stream, JArr.AllScalar, Json.Scalar]
  | .cons v r, .nil, ha, _, _, _, h => by
    cases v <;> simp_all [JArr.stream, Json.stream, JArr.AllScalar, Json.Scalar]
  | .cons v r, .cons w s, ha, hb, ua, ub, h => by
    have := Json.scalar_stream ha.1 hb.1 ua.1 ub.1 h
    exact ⟨this.1, JArr.scalar_stream ha.2 hb.2 ua.2 ub.2 this.2⟩

theorem JObj.scalar_stream : ∀ {a b : JObj}, a.AllScalar → b.AllScalar → a.Utf8 → b.Utf8 →
    a.stream = b.stream → a.Rel (fun x y => x.bits64 = y.bits64) b
  | .nil, .nil, _, _, _, _, _ => trivial
  | .nil, .cons k v r, _, hb, _, _, h => by simp [JObj.stream] at h
  | .cons k v r, .nil, ha, _, _, _, h => by simp [JObj.stream] at h
  | .cons k v r, .cons l w s, ha, hb, ua, ub, h => by
    simp only [JObj.stream, List.append_assoc, List.cons_append, List.nil_append] at h
    obtain ⟨h1, h2⟩ := append_ff ua.1 ub.1 h
    have := Json.scalar_stream ha.1 hb.1 ua.2.1 ub.2.1 h2
    exact ⟨h1, this.1, JObj.scalar_stream ha.2 hb.2 ua.2.2 ub.2.2 this.2⟩

theorem Json.flat_stream {a b : Json} (ha : a.Flat) (hb : b.Flat) (ua : a.Utf8) (ub : b.Utf8)
    (h : a.stream = b.stream) : a.Rel (fun x y => x.bits64 = y.bits64) b := by
  by_cases sa : a.Scalar
  · by_cases sb : b.Scalar
    · exact (Json.scalar_stream (x := []) (y := []) sa sb ua ub (by simp [h])).1
    · cases a <;> cases b <;> simp_all [Json.stream, Json.Scalar]
  · cases a <;> first | exact absurd trivial sa | skip
    · cases b <;> simp_all [Json.stream, Json.Scalar]
      exact JArr.scalar_stream ha hb ua ub h
    · cases b <;> simp_all [Json.stream, Json.Scalar]
      exact JObj.scalar_stream ha hb ua ub h

mutual
theorem Json.shape_stream : ∀ (a b : Json) {x y : Bytes}, a.SameShape b → a.Utf8 → b.Utf8 →
    a.stream ++ x = b.stream ++ y → a.Rel (fun x y => x.bits64 = y.bits64) b ∧ x = y
  | .arr p, b, _, _, hs, ua, ub, h => by
    cases b <;> simp only [Json.SameShape] at hs
    simp only [Json.stream, List.cons_append, List.cons.injEq, true_and] at h
    exact JArr.shape_stream p _ hs ua ub h
  | .obj p, b, _, _, hs, ua, ub, h => by
    cases b <;> simp only [Json.SameShape] at hs
    simp only [Json.stream, List.cons_append, List.cons.injEq, true_and] at h
    exact JObj.shape_stream p _ hs ua ub h
  | .null, b, _, _, hs, ua, ub, h => Json.scalar_stream trivial (by cases b <;> simp_all [Json.SameShape, Json.Scalar]) ua ub h
  | .bool p, b, _, _, hs, ua, ub, h => Json.scalar_stream trivial (by cases b <;> simp_all [Json.SameShape, Json.Scalar]) ua ub h
  | .num p, b, _, _, hs, ua, ub, h => Json.scalar_stream trivial (by cases b <;> simp_all [Json.SameShape, Json.Scalar]) ua ub h
  | .str p, b, _, _, hs, ua, ub, h => Json.scalar_stream trivial (by cases b <;> simp_all [Json.SameShape, Json.Scalar]) ua ub h
theorem JArr.shape_stream : ∀ (a b : JArr) {x y : Bytes}, a.SameShape b → a.Utf8 → b.Utf8 →
    a.stream ++ x = b.stream ++ y → a.Rel (fun x y => x.bits64 = y.bits64) b ∧ x = y
  | .nil, b, _, _, hs, ua, ub, h => by
    cases b <;> simp_all [JArr.SameShape, JArr.stream, JArr.Rel]
  | .cons p r, b, _, _, hs, ua, ub, h => by
    cases b with
    | nil => exact hs.elim
    | cons q s =>
      simp only [JArr.stream, List.append_assoc] at h
      obtain ⟨h1, h2⟩ := Json.shape_stream p q hs.1 ua.1 ub.1 h
      obtain ⟨h3, h4⟩ := JArr.shape_stream r s hs.2 ua.2 ub.2 h2
      exact ⟨⟨h1, h3⟩, h4⟩
theorem JObj.shape_stream : ∀ (a b : JObj) {x y : Bytes}, a.SameShape b → a.Utf8 → b.Utf8 →
    a.stream ++ x = b.stream ++ y → a.Rel (fun x y => x.bits64 = y.bits64) b ∧ x = y
  | .nil, b, _, _, hs, ua, ub, h => by
    cases b <;> simp_all [JObj.SameShape, JObj.stream, JObj.Rel]
  | .cons k p r, b, _, _, hs, ua, ub, h => by
    cases b with
    | nil => exact hs.elim
    | cons l q s =>
      simp only [JObj.stream, List.append_assoc, List.cons_append, List.nil_append] at h
      obtain ⟨h0, h⟩ := append_ff ua.1 ub.1 h
      obtain ⟨h1, h2⟩ := Json.shape_stream p q hs.1 ua.2.1 ub.2.1 h
      obtain ⟨h3, h4⟩ := JObj.shape_stream r s hs.2 ua.2.2 ub.2.2 h2
      exact ⟨⟨h0, h1, h3⟩, h4⟩
end

theorem Num.bits_inj_i64 {a b : Num} (ha : a.IsI64) (hb : b.IsI64) (h : a.bits64 = b.bits64) : a = b := by
  cases a with
  | float _ => cases ha
  | posInt n => cases b with
    | float _ => cases hb
    | posInt m => rw [Num.bits_inj_pos h]
    | negInt m => simp only [Num.bits64, Num.IsI64] at *; omega
  | negInt n => cases b with
    | float _ => cases hb
    | posInt m => simp only [Num.bits64, Num.IsI64] at *; omega
    | negInt m => rw [Num.bits_inj_neg h]

theorem Num.bits_inj_u64 {a b : Num} (ha : a.IsU64) (hb : b.IsU64) (h : a.bits64 = b.bits64) : a = b := by
  cases a <;> cases b <;> first | cases ha; done | cases hb; done | rw [Num.bits_inj_pos h]

theorem Num.bits_inj_float {a b : Num} (ha : a.IsFloat) (hb : b.IsFloat) (h : a.bits64 = b.bits64) : a = b := by
  cases a <;> cases b <;> first | cases ha; done | cases hb; done | rw [F64.toBits_inj h]

end IndraDB
