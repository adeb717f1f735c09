/-
Strict total orders with a Boolean comparison.

Models what `Ord` provides to `BTreeMap`/`BTreeSet` keys in `lib/src/memory/datastore.rs:29-33` and the bytewise
comparator of RocksDB column families. Lexicographic order on bytes, lexicographic order on tuples.
-/
set_option linter.unusedVariables false
namespace IndraDB

/-- A byte string. -/
abbrev Bytes := List UInt8

class Order (α : Type) where
  lt : α → α → Bool
  irrefl : ∀ a, lt a a = false
  trans : ∀ a b c, lt a b = true → lt b c = true → lt a c = true
  tri : ∀ a b, lt a b = false → lt b a = false → a = b

namespace Order
variable {α β : Type} [Order α] [Order β]

theorem asymm {a b : α} (h : lt a b = true) : lt b a = false := by
  cases hb : lt b a with
  | false => rfl
  | true => have := trans _ _ _ h hb; rw [irrefl] at this; exact absurd this (by simp)

theorem ne_of_lt {a b : α} (h : lt a b = true) : a ≠ b := by
  intro e; subst e; rw [irrefl] at h; exact absurd h (by simp)

theorem le_trans {a b c : α} (h1 : lt b a = false) (h2 : lt c b = false) : lt c a = false := by
  cases h : lt c a with
  | false => rfl
  | true =>
    cases hab : lt a b with
    | true => have := trans _ _ _ h hab; rw [this] at h2; exact absurd h2 (by simp)
    | false => have := tri _ _ hab h1; subst this; rw [h] at h2; exact absurd h2 (by simp)

theorem lt_of_le_of_lt {a b c : α} (h1 : lt b a = false) (h2 : lt b c = true) : lt a c = true := by
  cases hab : lt a b with
  | true => exact trans _ _ _ hab h2
  | false => rw [tri _ _ hab h1]; exact h2

theorem lt_of_lt_of_le {a b c : α} (h1 : lt a b = true) (h2 : lt c b = false) : lt a c = true := by
  cases hbc : lt b c with
  | true => exact trans _ _ _ h1 hbc
  | false => rw [← tri _ _ hbc h2]; exact h1

theorem total {a b : α} (h : a ≠ b) : lt a b = true ∨ lt b a = true := by
  cases h1 : lt a b with
  | true => exact Or.inl rfl
  | false =>
    cases h2 : lt b a with
    | true => exact Or.inr rfl
    | false => exact absurd (tri _ _ h1 h2) h

end Order

/-- Order transported along an injection. -/
@[reducible] def Order.comap {α β : Type} [Order β] (f : α → β) (hf : ∀ a b, f a = f b → a = b) : Order α where
  lt a b := Order.lt (f a) (f b)
  irrefl a := Order.irrefl _
  trans a b c := Order.trans _ _ _
  tri a b h1 h2 := hf _ _ (Order.tri _ _ h1 h2)

instance : Order Nat where
  lt a b := decide (a < b)
  irrefl a := by simp
  trans a b c := by simp; omega
  tri a b := by simp; omega

instance : Order UInt8 := Order.comap UInt8.toNat (fun _ _ h => UInt8.toNat.inj h)

theorem UInt8.order_lt (a b : UInt8) : Order.lt a b = decide (a.toNat < b.toNat) := rfl

/-- Lexicographic comparison of lists, a proper prefix is smaller. -/
def lexLt {α : Type} [Order α] : List α → List α → Bool
  | _, [] => false
  | [], _ :: _ => true
  | a :: as, b :: bs => Order.lt a b || (!Order.lt b a && lexLt as bs)

theorem lexLt_irrefl {α : Type} [Order α] : ∀ a : List α, lexLt a a = false
  | [] => rfl
  | a :: as => by simp [lexLt, Order.irrefl, lexLt_irrefl as]

theorem lexLt_cons {α : Type} [Order α] (a b : α) (as bs : List α) :
    lexLt (a :: as) (b :: bs) = true ↔ Order.lt a b = true ∨ (a = b ∧ lexLt as bs = true) := by
  simp only [lexLt, Bool.or_eq_true, Bool.and_eq_true, Bool.not_eq_true']
  constructor
  · rintro (h | ⟨h1, h2⟩)
    · exact Or.inl h
    · cases h : Order.lt a b with
      | true => exact Or.inl rfl
      | false => exact Or.inr ⟨Order.tri _ _ h h1, h2⟩
  · rintro (h | ⟨h1, h2⟩)
    · exact Or.inl h
    · subst h1; exact Or.inr ⟨Order.irrefl _, h2⟩

theorem lexLt_trans {α : Type} [Order α] :
    ∀ a b c : List α, lexLt a b = true → lexLt b c = true → lexLt a c = true
  | _, [], _, h, _ => by simp [lexLt] at h
  | _, _ :: _, [], _, h => by simp [lexLt] at h
  | [], _ :: _, _ :: _, _, _ => rfl
  | a :: as, b :: bs, c :: cs, h1, h2 => by
    rw [lexLt_cons] at *
    rcases h1 with h1 | ⟨rfl, h1⟩
    · rcases h2 with h2 | ⟨rfl, h2⟩
      · exact Or.inl (Order.trans _ _ _ h1 h2)
      · exact Or.inl h1
    · rcases h2 with h2 | ⟨rfl, h2⟩
      · exact Or.inl h2
      · exact Or.inr ⟨rfl, lexLt_trans as bs cs h1 h2⟩

theorem lexLt_tri {α : Type} [Order α] :
    ∀ a b : List α, lexLt a b = false → lexLt b a = false → a = b
  | [], [], _, _ => rfl
  | [], _ :: _, h, _ => by simp [lexLt] at h
  | _ :: _, [], _, h => by simp [lexLt] at h
  | a :: as, b :: bs, h1, h2 => by
    simp only [lexLt, Bool.or_eq_false_iff, Bool.and_eq_false_iff, Bool.not_eq_false'] at h1 h2
    have hab := Order.tri _ _ h1.1 h2.1
    subst hab
    have e1 : lexLt as bs = false := by
      rcases h1.2 with h | h
      · rw [Order.irrefl] at h; exact absurd h (by simp)
      · exact h
    have e2 : lexLt bs as = false := by
      rcases h2.2 with h | h
      · rw [Order.irrefl] at h; exact absurd h (by simp)
      · exact h
    rw [lexLt_tri as bs e1 e2]

instance {α : Type} [Order α] : Order (List α) where
  lt := lexLt
  irrefl := lexLt_irrefl
  trans := lexLt_trans
  tri := lexLt_tri

/-- Lexicographic order on pairs (Rust tuples and `derive(Ord)` structs). -/
instance {α β : Type} [Order α] [Order β] : Order (α × β) where
  lt a b := Order.lt a.1 b.1 || (!Order.lt b.1 a.1 && Order.lt a.2 b.2)
  irrefl a := by simp [Order.irrefl]
  trans a b c h1 h2 := by
    simp only [Bool.or_eq_true, Bool.and_eq_true, Bool.not_eq_true'] at *
    rcases h1 with h1 | ⟨h1, h1'⟩
    · rcases h2 with h2 | ⟨h2, _⟩
      · exact Or.inl (Order.trans _ _ _ h1 h2)
      · exact Or.inl (Order.lt_of_lt_of_le h1 h2)
    · rcases h2 with h2 | ⟨h2, h2'⟩
      · exact Or.inl (Order.lt_of_le_of_lt h1 h2)
      · exact Or.inr ⟨Order.le_trans h1 h2, Order.trans _ _ _ h1' h2'⟩
  tri a b h1 h2 := by
    simp only [Bool.or_eq_false_iff, Bool.and_eq_false_iff, Bool.not_eq_false'] at *
    have e1 := Order.tri _ _ h1.1 h2.1
    have h1' := h1.2; have h2' := h2.2
    rw [e1] at h1' h2'
    simp only [Order.irrefl, Bool.false_eq_true, false_or] at h1' h2'
    exact Prod.ext e1 (Order.tri _ _ h1' h2')

theorem Order.prod_lt {α β : Type} [Order α] [Order β] (a b : α × β) :
    Order.lt a b = true ↔ Order.lt a.1 b.1 = true ∨ (a.1 = b.1 ∧ Order.lt a.2 b.2 = true) := by
  show (Order.lt a.1 b.1 || (!Order.lt b.1 a.1 && Order.lt a.2 b.2)) = true ↔ _
  simp only [Bool.or_eq_true, Bool.and_eq_true, Bool.not_eq_true']
  constructor
  · rintro (h | ⟨h1, h2⟩)
    · exact Or.inl h
    · cases h : Order.lt a.1 b.1 with
      | true => exact Or.inl rfl
      | false => exact Or.inr ⟨Order.tri _ _ h h1, h2⟩
  · rintro (h | ⟨h1, h2⟩)
    · exact Or.inl h
    · right; rw [h1]; exact ⟨Order.irrefl _, h2⟩

theorem Order.list_lt {α : Type} [Order α] (a b : List α) : Order.lt a b = lexLt a b := rfl

instance {α β : Type} [Order α] [Order β] : Order (α ⊕ β) where
  lt
    | .inl a, .inl b => Order.lt a b
    | .inl _, .inr _ => true
    | .inr _, .inl _ => false
    | .inr a, .inr b => Order.lt a b
  irrefl a := by cases a <;> simp [Order.irrefl]
  trans a b c := by
    cases a <;> cases b <;> cases c <;> simp <;> exact Order.trans _ _ _
  tri a b := by
    cases a <;> cases b <;> simp <;> exact Order.tri _ _

instance {α β : Type} [BEq α] [BEq β] [LawfulBEq α] [LawfulBEq β] : LawfulBEq (α ⊕ β) where
  rfl := by rintro (a | a) <;> exact beq_self_eq_true a
  eq_of_beq := by
    rintro (a | a) (b | b) h
    · exact congrArg Sum.inl (eq_of_beq (α := α) h)
    · exact absurd (show false = true from h) (by simp)
    · exact absurd (show false = true from h) (by simp)
    · exact congrArg Sum.inr (eq_of_beq (α := β) h)

end IndraDB
