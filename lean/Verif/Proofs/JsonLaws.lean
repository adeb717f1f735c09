import Verif.Model.Memory
/-
Laws of JSON comparison and hash input.
-/
set_option linter.unusedSimpArgs false
set_option linter.unusedVariables false
namespace IndraDB

theorem intCmp_eq {a b : Int} : intCmp a b = .eq ↔ a = b := by
  unfold intCmp
  split
  · simp; omega
  · split
    · simp; omega
    · simp; omega

theorem bytesCmp_eq {a b : Bytes} : bytesCmp a b = .eq ↔ a = b := by
  unfold bytesCmp
  constructor
  · intro h
    split at h
    · simp at h
    · split at h
      · simp at h
      · rename_i h1 h2
        exact Order.tri a b (by simpa using h1) (by simpa using h2)
  · rintro rfl
    simp [Order.irrefl]

theorem boolCmp_eq {a b : Bool} : boolCmp a b = .eq ↔ a = b := by
  cases a <;> cases b <;> simp [boolCmp]

/-- The integer value of an integer number. -/
def Num.intVal : Num → Option Int
  | .posInt n => some n.val
  | .negInt m => some (-(m.val + 1 : Int))
  | .float _ => none

/-- Integers are compared exactly; as soon as one side is a float both are converted to `f64`. -/
theorem Num.cmp_eq (a b : Num) : a.cmp b =
    (match a.intVal, b.intVal with
      | some x, some y => intCmp x y
      | _, _ => intCmp a.f64Scaled b.f64Scaled) := by
  have hlt : ∀ x y : Int, x < y → intCmp x y = .lt := fun x y h => by simp [intCmp, h]
  have hgt : ∀ x y : Int, y < x → intCmp x y = .gt := fun x y h => by
    simp only [intCmp, h, if_true]; rw [if_neg (by omega)]
  cases a with
  | float f => cases b <;> rfl
  | negInt m => cases b with
    | float g => rfl
    | negInt k => rfl
    | posInt n =>
      simp only [Num.cmp, Num.asI64, Num.asU64, Num.intVal]
      by_cases hn : n.val < 2^63
      · simp [hn]
      · simp [hn, hlt (-(m.val + 1 : Int)) n.val (by omega)]
  | posInt n =>
    by_cases hn : n.val < 2^63
    · cases b with
      | float g => simp [Num.cmp, Num.asI64, Num.asU64, Num.intVal, hn]
      | negInt k => simp [Num.cmp, Num.asI64, Num.asU64, Num.intVal, hn]
      | posInt k =>
        by_cases hk : k.val < 2^63
        · simp [Num.cmp, Num.asI64, Num.asU64, Num.intVal, hn, hk]
        · simp [Num.cmp, Num.asI64, Num.asU64, Num.intVal, hn, hk]
          rw [hlt _ _ (by omega)]
    · cases b with
      | float g => simp [Num.cmp, Num.asI64, Num.asU64, Num.intVal, hn]
      | negInt k =>
        simp only [Num.cmp, Num.asI64, Num.asU64, Num.intVal, hn, if_false]
        rw [if_neg (by omega), hgt _ _ (by omega)]
      | posInt k =>
        by_cases hk : k.val < 2^63
        · simp [Num.cmp, Num.asI64, Num.asU64, Num.intVal, hn, hk]
        · simp [Num.cmp, Num.asI64, Num.asU64, Num.intVal, hn, hk]

theorem Num.cmp_eq_iff (a b : Num) : a.cmp b = .eq ↔
    (match a.intVal, b.intVal with
      | some x, some y => x = y
      | _, _ => a.f64Scaled = b.f64Scaled) := by
  rw [Num.cmp_eq]
  cases a.intVal <;> cases b.intVal <;> simp [intCmp_eq]

theorem Num.cmp_refl (a : Num) : a.cmp a = .eq := by
  rw [Num.cmp_eq_iff]; cases a.intVal <;> rfl

theorem Num.cmp_symm {a b : Num} (h : a.cmp b = .eq) : b.cmp a = .eq := by
  rw [Num.cmp_eq_iff] at h ⊢
  cases ha : a.intVal <;> cases hb : b.intVal <;> rw [ha, hb] at h <;> exact h.symm

theorem F64.toBits_inj {f g : F64} (h : f.toBits = g.toBits) : f = g := by
  obtain ⟨n1, e1, f1⟩ := f
  obtain ⟨n2, e2, f2⟩ := g
  simp only [F64.toBits] at h
  have h1 := f1.isLt; have h2 := f2.isLt; have h3 := e1.isLt; have h4 := e2.isLt
  have : n1 = n2 := by
    cases n1 <;> cases n2 <;> simp at h ⊢ <;> omega
  subst this
  have he : e1.val = e2.val := by omega
  have hf : f1.val = f2.val := by omega
  rw [Fin.ext he, Fin.ext hf]

theorem Num.bits_lt (a : Num) : a.bits64 < 2 ^ 64 := by
  cases a with
  | posInt n => exact n.isLt
  | negInt m => simp only [Num.bits64]; omega
  | float f =>
    obtain ⟨n, e, f⟩ := f
    have h1 := f.isLt; have h2 := e.isLt
    simp only [Num.bits64, F64.toBits]
    cases n <;> simp <;> omega

theorem le64_inj {a b : Nat} (ha : a < 2 ^ 64) (hb : b < 2 ^ 64) (h : le64 a = le64 b) : a = b := by
  unfold le64 at h
  simp only [List.cons.injEq, and_true] at h
  obtain ⟨h0, h1, h2, h3, h4, h5, h6, h7⟩ := h
  have g : ∀ x y : Nat, UInt8.ofNat x = UInt8.ofNat y → x % 256 = y % 256 := by
    intro x y h
    have := congrArg UInt8.toNat h
    simpa using this
  have := g _ _ h0; have := g _ _ h1; have := g _ _ h2; have := g _ _ h3
  have := g _ _ h4; have := g _ _ h5; have := g _ _ h6; have := g _ _ h7
  omega

/-- Equal hash input and same variant: same number. -/
theorem Num.bits_inj_pos {a b : Fin 18446744073709551616} (h : (Num.posInt a).bits64 = (Num.posInt b).bits64) : a = b :=
  Fin.ext h
theorem Num.bits_inj_neg {a b : Fin 9223372036854775808} (h : (Num.negInt a).bits64 = (Num.negInt b).bits64) : a = b := by
  simp only [Num.bits64] at h
  have := a.isLt; have := b.isLt
  exact Fin.ext (by omega)

theorem roundF64_pos {n : Nat} (h : 0 < n) : 0 < roundF64 n := by
  unfold roundF64
  split
  · exact h
  · rename_i hn
    have hlog : n.log2 ≥ 52 := by
      rw [ge_iff_le, Nat.le_log2 (by omega)]; omega
    have hq : 0 < n / 2 ^ (n.log2 - 52) := by
      apply Nat.div_pos _ (Nat.two_pow_pos _)
      have h1 : 2 ^ n.log2 ≤ n := Nat.log2_self_le (by omega)
      exact Nat.le_trans (Nat.pow_le_pow_right (by omega) (by omega)) h1
    simp only
    split
    · exact Nat.mul_pos hq (Nat.two_pow_pos _)
    · exact Nat.mul_pos (by omega) (Nat.two_pow_pos _)

theorem Num.scaled_pos_nonneg (n : Fin 18446744073709551616) : 0 ≤ (Num.posInt n).f64Scaled := by
  simp only [Num.f64Scaled]
  exact Int.mul_nonneg (Int.natCast_nonneg _) (by exact Int.le_of_lt (Int.pow_pos (by omega)))

theorem Num.scaled_neg_neg (m : Fin 9223372036854775808) : (Num.negInt m).f64Scaled < 0 := by
  simp only [Num.f64Scaled]
  have : (0 : Int) < (roundF64 (m.val + 1) : Int) * 2 ^ 1074 :=
    Int.mul_pos (by exact_mod_cast roundF64_pos (by omega)) (Int.pow_pos (by omega))
  omega

/-- Same class: equal, and the same hash input. -/
def Num.same (a b : Num) : Prop := a.cmp b = .eq ∧ a.bits64 = b.bits64

theorem Num.same_pos_neg (n : Fin 18446744073709551616) (m : Fin 9223372036854775808) :
    (Num.posInt n).cmp (.negInt m) ≠ .eq := by
  rw [ne_eq, Num.cmp_eq_iff]; simp [Num.intVal]; omega

theorem Num.same_trans {a b c : Num} (h1 : a.same b) (h2 : b.same c) : a.same c := by
  refine ⟨?_, h1.2.trans h2.2⟩
  have hac := h1.2.trans h2.2
  have hno : ∀ n m f, ¬ ((Num.posInt n).cmp (.float f) = .eq ∧ (Num.float f).cmp (.negInt m) = .eq) := by
    rintro n m f ⟨h1, h2⟩
    rw [Num.cmp_eq_iff] at h1 h2
    simp only [Num.intVal] at h1 h2
    have := Num.scaled_pos_nonneg n
    have := Num.scaled_neg_neg m
    omega
  cases a with
  | posInt x => cases b with
    | posInt y => rw [Num.bits_inj_pos h1.2]; exact h2.1
    | negInt y => exact absurd h1.1 (Num.same_pos_neg _ _)
    | float y => cases c with
      | posInt z => rw [Num.bits_inj_pos hac]; exact Num.cmp_refl _
      | negInt z => exact absurd ⟨h1.1, h2.1⟩ (hno _ _ _)
      | float z => rw [← F64.toBits_inj h2.2]; exact h1.1
  | negInt x => cases b with
    | posInt y => exact absurd (Num.cmp_symm h1.1) (Num.same_pos_neg _ _)
    | negInt y => rw [Num.bits_inj_neg h1.2]; exact h2.1
    | float y => cases c with
      | negInt z => rw [Num.bits_inj_neg hac]; exact Num.cmp_refl _
      | posInt z => exact absurd ⟨Num.cmp_symm h2.1, Num.cmp_symm h1.1⟩ (hno _ _ _)
      | float z => rw [← F64.toBits_inj h2.2]; exact h1.1
  | float x => cases b with
    | float y => rw [F64.toBits_inj h1.2]; exact h2.1
    | posInt y => cases c with
      | posInt z => rw [← Num.bits_inj_pos h2.2]; exact h1.1
      | negInt z => exact absurd h2.1 (Num.same_pos_neg _ _)
      | float z => rw [F64.toBits_inj hac]; exact Num.cmp_refl _
    | negInt y => cases c with
      | negInt z => rw [← Num.bits_inj_neg h2.2]; exact h1.1
      | posInt z => exact absurd (Num.cmp_symm h2.1) (Num.same_pos_neg _ _)
      | float z => rw [F64.toBits_inj hac]; exact Num.cmp_refl _

/-! ### Shape of equality -/

mutual
/-- Equality, with an arbitrary relation on numbers. -/
def Json.Rel (R : Num → Num → Prop) : Json → Json → Prop
  | .null, .null => True
  | .bool a, .bool b => a = b
  | .num a, .num b => R a b
  | .str a, .str b => a = b
  | .arr a, .arr b => a.Rel R b
  | .obj a, .obj b => a.Rel R b
  | _, _ => False
def JArr.Rel (R : Num → Num → Prop) : JArr → JArr → Prop
  | .nil, .nil => True
  | .cons a r, .cons b s => a.Rel R b ∧ r.Rel R s
  | _, _ => False
def JObj.Rel (R : Num → Num → Prop) : JObj → JObj → Prop
  | .nil, .nil => True
  | .cons k a r, .cons l b s => k = l ∧ a.Rel R b ∧ r.Rel R s
  | _, _ => False
end

mutual
theorem Json.partialCmp_eq : ∀ a b : Json, a.partialCmp b = some .eq ↔ a.Rel (fun x y => x.cmp y = .eq) b
  | .null, b => by cases b <;> simp [Json.partialCmp, Json.Rel]
  | .bool x, b => by cases b <;> simp [Json.partialCmp, Json.Rel, boolCmp_eq]
  | .num x, b => by cases b <;> simp [Json.partialCmp, Json.Rel]
  | .str x, b => by cases b <;> simp [Json.partialCmp, Json.Rel, bytesCmp_eq]
  | .arr x, b => by cases b <;> simp [Json.partialCmp, Json.Rel, JArr.partialCmp_eq x]
  | .obj x, b => by cases b <;> simp [Json.partialCmp, Json.Rel, JObj.partialCmp_eq x]
theorem JArr.partialCmp_eq : ∀ a b : JArr, a.partialCmp b = some .eq ↔ a.Rel (fun x y => x.cmp y = .eq) b
  | .nil, b => by cases b <;> simp [JArr.partialCmp, JArr.Rel]
  | .cons x r, b => by
    cases b with
    | nil => simp [JArr.partialCmp, JArr.Rel]
    | cons y s =>
      simp only [JArr.partialCmp, JArr.Rel]
      rw [← Json.partialCmp_eq x y, ← JArr.partialCmp_eq r s]
      cases x.partialCmp y with
      | none => simp
      | some o => cases o <;> simp
theorem JObj.partialCmp_eq : ∀ a b : JObj, a.partialCmp b = some .eq ↔ a.Rel (fun x y => x.cmp y = .eq) b
  | .nil, b => by cases b <;> simp [JObj.partialCmp, JObj.Rel]
  | .cons k x r, b => by
    cases b with
    | nil => simp [JObj.partialCmp, JObj.Rel]
    | cons l y s =>
      simp only [JObj.partialCmp, JObj.Rel]
      rw [← Json.partialCmp_eq x y, ← JObj.partialCmp_eq r s, ← bytesCmp_eq]
      cases bytesCmp k l with
      | eq =>
        cases x.partialCmp y with
        | none => simp
        | some o => cases o <;> simp
      | _ => simp
end

theorem Json.eq_iff (a b : Json) : Json.eq a b = true ↔ a.Rel (fun x y => x.cmp y = .eq) b := by
  unfold Json.eq; rw [decide_eq_true_iff, Json.partialCmp_eq]

section
variable {R T : Num → Num → Prop}

mutual
theorem Json.Rel.refl' (h : ∀ x, R x x) : ∀ a : Json, a.Rel R a
  | .null => trivial
  | .bool x => rfl
  | .num x => h x
  | .str x => rfl
  | .arr x => JArr.Rel.refl' h x
  | .obj x => JObj.Rel.refl' h x
theorem JArr.Rel.refl' (h : ∀ x, R x x) : ∀ a : JArr, a.Rel R a
  | .nil => trivial
  | .cons x r => ⟨Json.Rel.refl' h x, JArr.Rel.refl' h r⟩
theorem JObj.Rel.refl' (h : ∀ x, R x x) : ∀ a : JObj, a.Rel R a
  | .nil => trivial
  | .cons k x r => ⟨rfl, Json.Rel.refl' h x, JObj.Rel.refl' h r⟩
end

mutual
theorem Json.Rel.symm' (h : ∀ x y, R x y → R y x) : ∀ a b : Json, a.Rel R b → b.Rel R a
  | .null, b => by cases b <;> simp [Json.Rel]
  | .bool x, b => by cases b <;> simp [Json.Rel, eq_comm]
  | .num x, b => by cases b <;> simp [Json.Rel]; exact h _ _
  | .str x, b => by cases b <;> simp [Json.Rel, eq_comm]
  | .arr x, b => by cases b <;> simp [Json.Rel]; exact JArr.Rel.symm' h x _
  | .obj x, b => by cases b <;> simp [Json.Rel]; exact JObj.Rel.symm' h x _
theorem JArr.Rel.symm' (h : ∀ x y, R x y → R y x) : ∀ a b : JArr, a.Rel R b → b.Rel R a
  | .nil, b => by cases b <;> simp [JArr.Rel]
  | .cons x r, b => by
    cases b with
    | nil => simp [JArr.Rel]
    | cons y s => exact fun h1 => ⟨Json.Rel.symm' h x y h1.1, JArr.Rel.symm' h r s h1.2⟩
theorem JObj.Rel.symm' (h : ∀ x y, R x y → R y x) : ∀ a b : JObj, a.Rel R b → b.Rel R a
  | .nil, b => by cases b <;> simp [JObj.Rel]
  | .cons k x r, b => by
    cases b with
    | nil => simp [JObj.Rel]
    | cons l y s => exact fun h1 => ⟨h1.1.symm, Json.Rel.symm' h x y h1.2.1, JObj.Rel.symm' h r s h1.2.2⟩
end

mutual
theorem Json.Rel.trans' (h : ∀ x y z, R x y → R y z → R x z) : ∀ a b c : Json, a.Rel R b → b.Rel R c → a.Rel R c
  | .null, b, c => by cases b <;> cases c <;> simp [Json.Rel]
  | .bool x, b, c => by cases b <;> cases c <;> simp [Json.Rel]; exact fun h1 h2 => h1.trans h2
  | .num x, b, c => by cases b <;> cases c <;> simp [Json.Rel]; exact h _ _ _
  | .str x, b, c => by cases b <;> cases c <;> simp [Json.Rel]; exact fun h1 h2 => h1.trans h2
  | .arr x, b, c => by cases b <;> cases c <;> simp [Json.Rel]; exact JArr.Rel.trans' h x _ _
  | .obj x, b, c => by cases b <;> cases c <;> simp [Json.Rel]; exact JObj.Rel.trans' h x _ _
theorem JArr.Rel.trans' (h : ∀ x y z, R x y → R y z → R x z) : ∀ a b c : JArr, a.Rel R b → b.Rel R c → a.Rel R c
  | .nil, b, c => by cases b <;> cases c <;> simp [JArr.Rel]
  | .cons x r, b, c => by
    cases b with
    | nil => simp [JArr.Rel]
    | cons y s => cases c with
      | nil => simp [JArr.Rel]
      | cons z t =>
        exact fun h1 h2 => ⟨Json.Rel.trans' h x y z h1.1 h2.1, JArr.Rel.trans' h r s t h1.2 h2.2⟩
theorem JObj.Rel.trans' (h : ∀ x y z, R x y → R y z → R x z) : ∀ a b c : JObj, a.Rel R b → b.Rel R c → a.Rel R c
  | .nil, b, c => by cases b <;> cases c <;> simp [JObj.Rel]
  | .cons k x r, b, c => by
    cases b with
    | nil => simp [JObj.Rel]
    | cons l y s => cases c with
      | nil => simp [JObj.Rel]
      | cons m z t =>
        exact fun h1 h2 => ⟨h1.1.trans h2.1, Json.Rel.trans' h x y z h1.2.1 h2.2.1, JObj.Rel.trans' h r s t h1.2.2 h2.2.2⟩
end

mutual
/-- Related values have hash inputs of the same length. -/
theorem Json.Rel.length : ∀ a b : Json, a.Rel R b → a.stream.length = b.stream.length
  | .null, b => by cases b <;> simp [Json.Rel, Json.stream]
  | .bool x, b => by cases b <;> simp [Json.Rel, Json.stream]
  | .num x, b => by cases b <;> simp [Json.Rel, Json.stream, le64]
  | .str x, b => by cases b <;> simp [Json.Rel, Json.stream]; rintro rfl; rfl
  | .arr x, b => by cases b <;> simp [Json.Rel, Json.stream]; exact JArr.Rel.length x _
  | .obj x, b => by cases b <;> simp [Json.Rel, Json.stream]; exact JObj.Rel.length x _
theorem JArr.Rel.length : ∀ a b : JArr, a.Rel R b → a.stream.length = b.stream.length
  | .nil, b => by cases b <;> simp [JArr.Rel]
  | .cons x r, b => by
    cases b with
    | nil => simp [JArr.Rel]
    | cons y s =>
      intro h
      simp only [JArr.stream, List.length_append, Json.Rel.length x y h.1, JArr.Rel.length r s h.2]
theorem JObj.Rel.length : ∀ a b : JObj, a.Rel R b → a.stream.length = b.stream.length
  | .nil, b => by cases b <;> simp [JObj.Rel]
  | .cons k x r, b => by
    cases b with
    | nil => simp [JObj.Rel]
    | cons l y s =>
      intro h
      simp only [JObj.stream, List.length_append, Json.Rel.length x y h.2.1, JObj.Rel.length r s h.2.2, h.1]
end

mutual
/-- Two relations hold together. -/
theorem Json.Rel.and_stream : ∀ a b : Json,
    (a.Rel R b ∧ a.stream = b.stream) ↔ a.Rel (fun x y => R x y ∧ x.bits64 = y.bits64) b
  | .null, b => by cases b <;> simp [Json.Rel, Json.stream]
  | .bool x, b => by
    cases b <;> simp [Json.Rel, Json.stream]
    rintro rfl; rfl
  | .num x, b => by
    cases b <;> simp [Json.Rel, Json.stream]
    intro _
    exact ⟨fun h => le64_inj x.bits_lt (Num.bits_lt _) h, fun h => by rw [h]⟩
  | .str x, b => by
    cases b <;> simp [Json.Rel, Json.stream]
  | .arr x, b => by
    cases b <;> simp [Json.Rel, Json.stream]; exact JArr.Rel.and_stream x _
  | .obj x, b => by
    cases b <;> simp [Json.Rel, Json.stream]; exact JObj.Rel.and_stream x _
theorem JArr.Rel.and_stream : ∀ a b : JArr,
    (a.Rel R b ∧ a.stream = b.stream) ↔ a.Rel (fun x y => R x y ∧ x.bits64 = y.bits64) b
  | .nil, b => by cases b <;> simp [JArr.Rel, JArr.stream]
  | .cons x r, b => by
    cases b with
    | nil => simp [JArr.Rel]
    | cons y s =>
      simp only [JArr.Rel, JArr.stream]
      rw [← Json.Rel.and_stream x y, ← JArr.Rel.and_stream r s]
      constructor
      · rintro ⟨⟨h1, h2⟩, h3⟩
        have := List.append_inj h3 (Json.Rel.length x y h1)
        exact ⟨⟨h1, this.1⟩, h2, this.2⟩
      · rintro ⟨⟨h1, h2⟩, h3, h4⟩
        exact ⟨⟨h1, h3⟩, by rw [h2, h4]⟩
theorem JObj.Rel.and_stream : ∀ a b : JObj,
    (a.Rel R b ∧ a.stream = b.stream) ↔ a.Rel (fun x y => R x y ∧ x.bits64 = y.bits64) b
  | .nil, b => by cases b <;> simp [JObj.Rel, JObj.stream]
  | .cons k x r, b => by
    cases b with
    | nil => simp [JObj.Rel]
    | cons l y s =>
      simp only [JObj.Rel, JObj.stream]
      rw [← Json.Rel.and_stream x y, ← JObj.Rel.and_stream r s]
      constructor
      · rintro ⟨⟨rfl, h1, h2⟩, h3⟩
        have h4 : x.stream ++ r.stream = y.stream ++ s.stream := by
          rw [List.append_assoc, List.append_assoc (k ++ [0xff])] at h3
          exact List.append_cancel_left h3
        have := List.append_inj h4 (Json.Rel.length x y h1)
        exact ⟨rfl, ⟨h1, this.1⟩, h2, this.2⟩
      · rintro ⟨rfl, ⟨h1, h2⟩, h3, h4⟩
        exact ⟨⟨rfl, h1, h3⟩, by rw [h2, h4]⟩
end
end

theorem Json.sameHash_iff (a b : Json) : (Json.eq a b && decide (a.stream = b.stream)) = true ↔ a.Rel Num.same b := by
  rw [Bool.and_eq_true, decide_eq_true_iff, Json.eq_iff, Json.Rel.and_stream]
  exact Iff.rfl

/-- The hash map that finds a key exactly if it is `==` and has the same hash input. -/
def HashEq.byHash : HashEq where
  same a b := Json.eq a b && decide (a.stream = b.stream)
  refl a := (Json.sameHash_iff a a).2 (Json.Rel.refl' (fun x => ⟨Num.cmp_refl x, rfl⟩) a)
  symm a b h := (Json.sameHash_iff b a).2
    (Json.Rel.symm' (fun _ _ h => ⟨Num.cmp_symm h.1, h.2.symm⟩) a b ((Json.sameHash_iff a b).1 h))
  trans a b c h1 h2 := (Json.sameHash_iff a c).2
    (Json.Rel.trans' (R := Num.same) (fun _ _ _ h1 h2 => Num.same_trans h1 h2) a b c ((Json.sameHash_iff a b).1 h1) ((Json.sameHash_iff b c).1 h2))
  sound a b h := by rw [Bool.and_eq_true] at h; exact h.1
  complete a b h1 h2 := by rw [h2]; simp [h1]

end IndraDB
