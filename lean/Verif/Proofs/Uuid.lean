import Verif.Model.Util
import Verif.Spec.Graph
/-
UUIDs as 128-bit numbers; `next_uuid`.
-/
set_option linter.unusedSimpArgs false
namespace IndraDB

/-- The number a byte string denotes, most significant byte first. -/
def beNat : Bytes → Nat
  | [] => 0
  | b :: r => b.toNat * 256 ^ r.length + beNat r

/-- The 128-bit number of a UUID. -/
def Uuid.toNat (u : Uuid) : Nat := beNat u.bytes

theorem beNat_lt (l : Bytes) : beNat l < 256 ^ l.length := by
  induction l with
  | nil => simp [beNat]
  | cons b r ih =>
    rw [beNat, List.length_cons, Nat.pow_succ]
    have hb : b.toNat < 256 := b.toNat_lt
    have : b.toNat * 256 ^ r.length + 256 ^ r.length ≤ 256 * 256 ^ r.length := by
      have := Nat.mul_le_mul_right (256 ^ r.length) (show b.toNat + 1 ≤ 256 from hb)
      rw [Nat.add_mul, Nat.one_mul] at this; exact this
    omega

theorem lexLt_beNat : ∀ (a b : Bytes), a.length = b.length → (lexLt a b = true ↔ beNat a < beNat b)
  | [], [], _ => by simp [lexLt, beNat]
  | [], _ :: _, h => by simp at h
  | _ :: _, [], h => by simp at h
  | a :: as, b :: bs, h => by
    have hl : as.length = bs.length := by simpa using h
    rw [lexLt_cons, lexLt_beNat as bs hl, beNat, beNat, hl, UInt8.order_lt, decide_eq_true_eq]
    have h1 := beNat_lt as
    have h2 := beNat_lt bs
    rw [hl] at h1
    constructor
    · rintro (h | ⟨rfl, h⟩)
      · have := Nat.mul_le_mul_right (256 ^ bs.length) (show a.toNat + 1 ≤ b.toNat from h)
        rw [Nat.add_mul, Nat.one_mul] at this; omega
      · omega
    · intro h
      rcases Nat.lt_trichotomy a.toNat b.toNat with h3 | h3 | h3
      · exact Or.inl h3
      · refine Or.inr ⟨UInt8.toNat.inj h3, ?_⟩
        rw [h3] at h; omega
      · have := Nat.mul_le_mul_right (256 ^ bs.length) (show b.toNat + 1 ≤ a.toNat from h3)
        rw [Nat.add_mul, Nat.one_mul] at this; omega

theorem beNat_inj : ∀ (a b : Bytes), a.length = b.length → beNat a = beNat b → a = b := by
  intro a b hl h
  apply lexLt_tri
  · cases h2 : lexLt a b with
    | false => rfl
    | true => have := (lexLt_beNat a b hl).1 h2; omega
  · cases h2 : lexLt b a with
    | false => rfl
    | true => have := (lexLt_beNat b a hl.symm).1 h2; omega

/-- The order on UUIDs is the numeric order. -/
theorem Uuid.lt_iff (a b : Uuid) : Order.lt a b = true ↔ a.toNat < b.toNat :=
  lexLt_beNat a.bytes b.bytes (by rw [a.len, b.len])

theorem Uuid.toNat_inj {a b : Uuid} (h : a.toNat = b.toNat) : a = b :=
  Uuid.inj (beNat_inj _ _ (by rw [a.len, b.len]) h)

theorem Uuid.toNat_lt (a : Uuid) : a.toNat < 2 ^ 128 := by
  have := beNat_lt a.bytes
  rw [a.len] at this
  exact this

theorem Uuid.nil_toNat : Uuid.nil.toNat = 0 := by decide +kernel

theorem Uuid.max_toNat : Uuid.max.toNat = 2 ^ 128 - 1 := by decide +kernel

theorem Uuid.not_lt_nil (a : Uuid) : Order.lt a Uuid.nil = false := by
  cases h : Order.lt a Uuid.nil with
  | false => rfl
  | true => rw [Uuid.lt_iff, Uuid.nil_toNat] at h; omega

theorem Identifier.not_lt_empty (a : Identifier) : Order.lt a Identifier.empty = false := by
  show lexLt a.bytes [] = false
  cases a.bytes <;> rfl

/-- Least significant byte first. -/
def leNat : Bytes → Nat
  | [] => 0
  | b :: r => b.toNat + 256 * leNat r

theorem leNat_append (a b : Bytes) : leNat (a ++ b) = leNat a + 256 ^ a.length * leNat b := by
  induction a with
  | nil => simp [leNat]
  | cons x r ih =>
    rw [List.cons_append, leNat, leNat, ih, List.length_cons, Nat.pow_succ, Nat.mul_add, ← Nat.add_assoc,
      Nat.mul_comm (256 ^ r.length) 256, Nat.mul_assoc]

theorem beNat_eq (l : Bytes) : beNat l = leNat l.reverse := by
  induction l with
  | nil => rfl
  | cons b r ih =>
    rw [List.reverse_cons, leNat_append, beNat, ih]
    simp [leNat, Nat.mul_comm, Nat.add_comm]

theorem incRev_some (l l' : Bytes) (h : incRev l = some l') : leNat l' = leNat l + 1 := by
  induction l generalizing l' with
  | nil => simp [incRev] at h
  | cons b r ih =>
    unfold incRev at h
    split at h
    · rename_i hb
      simp only [Option.some.injEq] at h
      subst h
      have hb' : b.toNat < 255 := hb
      have : (b + 1).toNat = b.toNat + 1 := by
        rw [UInt8.toNat_add]; simp; omega
      rw [leNat, leNat, this]; omega
    · rename_i hb
      rw [Option.map_eq_some_iff] at h
      obtain ⟨x, hx, rfl⟩ := h
      have hb' : ¬ b.toNat < 255 := hb
      have hb2 : b.toNat < 256 := b.toNat_lt
      have h3 := ih x hx
      rw [leNat, leNat, h3]
      simp
      omega

theorem incRev_none (l : Bytes) (h : incRev l = none) : leNat l + 1 = 256 ^ l.length := by
  induction l with
  | nil => simp [leNat]
  | cons b r ih =>
    unfold incRev at h
    split at h
    · simp at h
    · rename_i hb
      rw [Option.map_eq_none_iff] at h
      have hb' : ¬ b.toNat < 255 := hb
      have hb2 : b.toNat < 256 := b.toNat_lt
      have h3 := ih h
      rw [leNat, List.length_cons, Nat.pow_succ, ← h3]
      omega

/-- `next_uuid` adds one, and fails exactly on the greatest UUID. -/
theorem nextUuid_spec (u : Uuid) :
    (∀ w, nextUuid u = .ok w ↔ w.toNat = u.toNat + 1) ∧
    (nextUuid u = .error .cannotIncrementUuid ↔ u.toNat = 2 ^ 128 - 1) := by
  unfold nextUuid
  split
  · rename_i l hl
    have h1 := incRev_some _ _ hl
    have h2 : ∀ hh, (⟨l.reverse, hh⟩ : Uuid).toNat = u.toNat + 1 := by
      intro hh
      unfold Uuid.toNat
      rw [beNat_eq, beNat_eq, List.reverse_reverse, h1]
    refine ⟨?_, ?_⟩
    · intro w
      constructor
      · intro h; simp only [Except.ok.injEq] at h; rw [← h]; exact h2 _
      · intro h
        congr 1
        exact Uuid.toNat_inj ((h2 _).trans h.symm)
    · constructor
      · intro h; exact absurd h (by simp)
      · intro h
        have hlen := incRev_length _ _ hl
        have h3 := h2 (by simp at hlen; simp [hlen, u.len])
        have h4 := Uuid.toNat_lt (⟨l.reverse, by simp at hlen; simp [hlen, u.len]⟩ : Uuid)
        omega
  · rename_i hl
    have h1 := incRev_none _ hl
    have h2 : u.toNat + 1 = 2 ^ 128 := by
      unfold Uuid.toNat
      rw [beNat_eq, h1, List.length_reverse, u.len]
    refine ⟨?_, ?_⟩
    · intro w
      constructor
      · intro h; exact absurd h (by simp)
      · intro h; have := w.toNat_lt; omega
    · constructor
      · intro _; omega
      · intro _; rfl

theorem nextUuid_max_iff (u : Uuid) : (∃ e, nextUuid u = .error e) ↔ u = Uuid.max := by
  constructor
  · rintro ⟨e, he⟩
    have : e = .cannotIncrementUuid := by
      unfold nextUuid at he; split at he
      · exact absurd he (by simp)
      · simp at he; exact he.symm
    subst this
    have := (nextUuid_spec u).2.1 he
    exact Uuid.toNat_inj (by rw [this, Uuid.max_toNat])
  · rintro rfl
    exact ⟨_, (nextUuid_spec _).2.2 Uuid.max_toNat⟩

end IndraDB
