import Verif.Base.Order
/-
Sorted finite maps and sets: the model of `BTreeMap`, `BTreeSet` and of a RocksDB column family
(std / rocksdb contracts, see DESIGN.md section 3).
-/
set_option linter.unusedSectionVars false
set_option linter.unusedVariables false
namespace IndraDB

/-- A finite map as a list of entries with strictly increasing keys. -/
structure SMap (κ α : Type) [Order κ] where
  toList : List (κ × α)
  sorted : toList.Pairwise (fun a b => Order.lt a.1 b.1 = true)

namespace SMap
variable {κ α : Type} [Order κ]

theorem ext' {m n : SMap κ α} (h : m.toList = n.toList) : m = n := by
  cases m; cases n; simp at h; subst h; rfl

instance [DecidableEq κ] [DecidableEq α] : DecidableEq (SMap κ α) := fun m n =>
  if h : m.toList = n.toList then isTrue (ext' h) else isFalse (fun e => h (by rw [e]))

def empty : SMap κ α := ⟨[], List.Pairwise.nil⟩
instance : Inhabited (SMap κ α) := ⟨empty⟩

def insertL (k : κ) (v : α) : List (κ × α) → List (κ × α)
  | [] => [(k, v)]
  | e :: r => if Order.lt k e.1 then (k, v) :: e :: r
              else if Order.lt e.1 k then e :: insertL k v r
              else (k, v) :: r

theorem mem_insertL {k : κ} {v : α} {l : List (κ × α)} {x : κ × α} (h : x ∈ insertL k v l) :
    x = (k, v) ∨ x ∈ l := by
  induction l with
  | nil => simp [insertL] at h; exact Or.inl h
  | cons e r ih =>
    unfold insertL at h
    split at h
    · simpa using h
    · split at h
      · rcases List.mem_cons.1 h with h | h
        · exact Or.inr (by simp [h])
        · rcases ih h with h | h
          · exact Or.inl h
          · exact Or.inr (by simp [h])
      · rcases List.mem_cons.1 h with h | h
        · exact Or.inl h
        · exact Or.inr (by simp [h])

theorem insertL_sorted (k : κ) (v : α) (l : List (κ × α))
    (h : l.Pairwise (fun a b => Order.lt a.1 b.1 = true)) :
    (insertL k v l).Pairwise (fun a b => Order.lt a.1 b.1 = true) := by
  induction l with
  | nil => simp [insertL]
  | cons e r ih =>
    rw [List.pairwise_cons] at h
    unfold insertL
    split
    · rename_i h1
      rw [List.pairwise_cons]
      refine ⟨?_, List.pairwise_cons.2 h⟩
      intro x hx
      rcases List.mem_cons.1 hx with rfl | hx
      · exact h1
      · exact Order.trans _ _ _ h1 (h.1 x hx)
    · split
      · rename_i h1 h2
        rw [List.pairwise_cons]
        refine ⟨?_, ih h.2⟩
        intro x hx
        rcases mem_insertL hx with rfl | hx
        · exact h2
        · exact h.1 x hx
      · rename_i h1 h2
        have : e.1 = k := Order.tri _ _ (by simpa using h2) (by simpa using h1)
        rw [List.pairwise_cons]
        refine ⟨?_, h.2⟩
        intro x hx
        simpa [← this] using h.1 x hx

/-- `BTreeMap::insert` / `put`. -/
def insert (m : SMap κ α) (k : κ) (v : α) : SMap κ α :=
  ⟨insertL k v m.toList, insertL_sorted k v _ m.sorted⟩

variable [DecidableEq κ]

/-- `BTreeMap::remove` / `delete`. -/
def erase (m : SMap κ α) (k : κ) : SMap κ α :=
  ⟨m.toList.filter (fun e => e.1 ≠ k), m.sorted.filter _⟩

/-- `BTreeMap::get`. -/
def get (m : SMap κ α) (k : κ) : Option α :=
  (m.toList.find? (fun e => e.1 = k)).map (·.2)

/-- `contains_key`. -/
def contains (m : SMap κ α) (k : κ) : Bool := (m.get k).isSome

/-- `BTreeMap::range(lo..)` / iterator from a key. -/
def rangeFrom (m : SMap κ α) (lo : κ) : List (κ × α) :=
  m.toList.filter (fun e => !Order.lt e.1 lo)

/-- `len`. -/
def size (m : SMap κ α) : Nat := m.toList.length

theorem key_unique {m : SMap κ α} {k : κ} {v w : α} (h1 : (k, v) ∈ m.toList) (h2 : (k, w) ∈ m.toList) :
    v = w := by
  have hs := m.sorted
  revert h1 h2 hs
  generalize m.toList = l
  intro h1 h2 hs
  induction l with
  | nil => simp at h1
  | cons e r ih =>
    rw [List.pairwise_cons] at hs
    rcases List.mem_cons.1 h1 with h1 | h1 <;> rcases List.mem_cons.1 h2 with h2 | h2
    · rw [← h1] at h2; exact (Prod.mk.inj h2).2.symm
    · have := hs.1 _ h2; rw [← h1] at this; simp [Order.irrefl] at this
    · have := hs.1 _ h1; rw [← h2] at this; simp [Order.irrefl] at this
    · exact ih h1 h2 hs.2

theorem mem_toList {m : SMap κ α} {k : κ} {v : α} : (k, v) ∈ m.toList ↔ m.get k = some v := by
  unfold get
  constructor
  · intro h
    cases hf : m.toList.find? (fun e => e.1 = k) with
    | none =>
      rw [List.find?_eq_none] at hf
      have := hf _ h
      simp at this
    | some e =>
      have h1 := List.find?_some hf
      have h2 := List.mem_of_find?_eq_some hf
      simp at h1
      obtain ⟨k', v'⟩ := e
      simp at h1; subst h1
      simp [key_unique h h2]
  · intro h
    rw [Option.map_eq_some_iff] at h
    obtain ⟨⟨k', v'⟩, hf, rfl⟩ := h
    have h1 := List.find?_some hf
    have h2 := List.mem_of_find?_eq_some hf
    simp at h1; subst h1; exact h2

theorem mem_toList' {m : SMap κ α} {e : κ × α} : e ∈ m.toList ↔ m.get e.1 = some e.2 := by
  cases e; exact mem_toList

@[simp] theorem get_empty (k : κ) : (empty : SMap κ α).get k = none := rfl

theorem mem_insert_iff {m : SMap κ α} {k k' : κ} {v v' : α} :
    (k', v') ∈ (m.insert k v).toList ↔ (k' = k ∧ v' = v) ∨ (k' ≠ k ∧ (k', v') ∈ m.toList) := by
  have hs := m.sorted
  unfold insert; simp only
  revert hs; generalize m.toList = l; intro hs
  induction l with
  | nil => simp [insertL]
  | cons e r ih =>
    rw [List.pairwise_cons] at hs
    unfold insertL
    split
    · rename_i h1
      simp only [List.mem_cons, Prod.mk.injEq]
      constructor
      · rintro (⟨rfl, rfl⟩ | h)
        · simp
        · right
          refine ⟨?_, h⟩
          rintro rfl
          rcases h with rfl | h
          · simp [Order.irrefl] at h1
          · have := Order.trans _ _ _ h1 (hs.1 _ h); simp [Order.irrefl] at this
      · rintro (h | ⟨_, h⟩)
        · exact Or.inl h
        · exact Or.inr h
    · split
      · rename_i h1 h2
        simp only [List.mem_cons, ih hs.2]
        constructor
        · rintro (rfl | h | h)
          · right
            refine ⟨?_, Or.inl rfl⟩
            rintro h3; rw [h3] at h2; simp [Order.irrefl] at h2
          · exact Or.inl h
          · exact Or.inr ⟨h.1, Or.inr h.2⟩
        · rintro (h | ⟨h, rfl | h'⟩)
          · exact Or.inr (Or.inl h)
          · exact Or.inl rfl
          · exact Or.inr (Or.inr ⟨h, h'⟩)
      · rename_i h1 h2
        have : e.1 = k := Order.tri _ _ (by simpa using h2) (by simpa using h1)
        simp only [List.mem_cons, Prod.mk.injEq]
        constructor
        · rintro (h | h)
          · exact Or.inl h
          · right
            refine ⟨?_, Or.inr h⟩
            rintro rfl
            have h3 := hs.1 _ h; rw [this] at h3; simp [Order.irrefl] at h3
        · rintro (h | ⟨h, h' | h'⟩)
          · exact Or.inl h
          · rw [← h'] at this; exact absurd this h
          · exact Or.inr h'

theorem get_insert (m : SMap κ α) (k k' : κ) (v : α) :
    (m.insert k v).get k' = if k' = k then some v else m.get k' := by
  apply Option.ext
  intro w
  rw [← mem_toList, mem_insert_iff]
  split
  · rename_i h; subst h; simp [eq_comm]
  · rename_i h; simp [h, mem_toList]

theorem get_erase (m : SMap κ α) (k k' : κ) :
    (m.erase k).get k' = if k' = k then none else m.get k' := by
  apply Option.ext
  intro w
  rw [← mem_toList]
  unfold erase; simp only [List.mem_filter, mem_toList]
  split
  · rename_i h; simp [h]
  · rename_i h; simp [h]

@[simp] theorem get_insert_self (m : SMap κ α) (k : κ) (v : α) : (m.insert k v).get k = some v := by
  simp [get_insert]
@[simp] theorem get_erase_self (m : SMap κ α) (k : κ) : (m.erase k).get k = none := by
  simp [get_erase]

theorem sorted_ext {l1 l2 : List (κ × α)}
    (h1 : l1.Pairwise (fun a b => Order.lt a.1 b.1 = true))
    (h2 : l2.Pairwise (fun a b => Order.lt a.1 b.1 = true))
    (h : ∀ x, x ∈ l1 ↔ x ∈ l2) : l1 = l2 := by
  induction l1 generalizing l2 with
  | nil =>
    cases l2 with
    | nil => rfl
    | cons b _ => exact absurd ((h b).2 (by simp)) (by simp)
  | cons a r ih =>
    cases l2 with
    | nil => exact absurd ((h a).1 (by simp)) (by simp)
    | cons b s =>
      rw [List.pairwise_cons] at h1 h2
      have hab : a = b := by
        rcases List.mem_cons.1 ((h a).1 (by simp)) with h3 | h3
        · exact h3
        · rcases List.mem_cons.1 ((h b).2 (by simp)) with h4 | h4
          · exact h4.symm
          · have := Order.trans _ _ _ (h1.1 _ h4) (h2.1 _ h3)
            simp [Order.irrefl] at this
      subst hab
      congr 1
      refine ih h1.2 h2.2 ?_
      intro x
      constructor
      · intro hx
        rcases List.mem_cons.1 ((h x).1 (by simp [hx])) with h3 | h3
        · have := h1.1 _ hx; rw [h3] at this; simp [Order.irrefl] at this
        · exact h3
      · intro hx
        rcases List.mem_cons.1 ((h x).2 (by simp [hx])) with h3 | h3
        · have := h2.1 _ hx; rw [h3] at this; simp [Order.irrefl] at this
        · exact h3

/-- A sorted map is determined by its lookups. -/
theorem ext_get {m n : SMap κ α} (h : ∀ k, m.get k = n.get k) : m = n := by
  apply ext'
  apply sorted_ext m.sorted n.sorted
  intro x
  rw [mem_toList', mem_toList', h]

theorem contains_iff {m : SMap κ α} {k : κ} : m.contains k = true ↔ ∃ v, m.get k = some v := by
  unfold contains; exact Option.isSome_iff_exists

theorem mem_rangeFrom {m : SMap κ α} {lo : κ} {e : κ × α} :
    e ∈ m.rangeFrom lo ↔ m.get e.1 = some e.2 ∧ Order.lt e.1 lo = false := by
  unfold rangeFrom; simp [List.mem_filter, mem_toList']

theorem rangeFrom_sorted (m : SMap κ α) (lo : κ) :
    (m.rangeFrom lo).Pairwise (fun a b => Order.lt a.1 b.1 = true) := m.sorted.filter _

theorem nodup_keys (m : SMap κ α) : (m.toList.map (·.1)).Nodup := by
  rw [List.Nodup, List.pairwise_map]
  exact m.sorted.imp (fun h => Order.ne_of_lt h)

theorem erase_of_get_none {m : SMap κ α} {k : κ} (h : m.get k = none) : m.erase k = m := by
  apply ext_get; intro k'; rw [get_erase]; split
  · rename_i e; rw [e, h]
  · rfl

theorem insert_of_get {m : SMap κ α} {k : κ} {v : α} (h : m.get k = some v) : m.insert k v = m := by
  apply ext_get; intro k'; rw [get_insert]; split
  · rename_i e; rw [e, h]
  · rfl

end SMap

/-- `BTreeSet`. -/
abbrev SSet (κ : Type) [Order κ] := SMap κ Unit

namespace SSet
variable {κ : Type} [Order κ] [DecidableEq κ]

def elems (s : SSet κ) : List κ := s.toList.map (·.1)
def add (s : SSet κ) (k : κ) : SSet κ := SMap.insert s k ()
def from' (s : SSet κ) (lo : κ) : List κ := (SMap.rangeFrom s lo).map (·.1)

theorem mem_elems {s : SSet κ} {k : κ} : k ∈ s.elems ↔ s.contains k = true := by
  unfold elems
  rw [List.mem_map, SMap.contains_iff]
  constructor
  · rintro ⟨e, he, rfl⟩; exact ⟨e.2, SMap.mem_toList'.1 he⟩
  · rintro ⟨v, hv⟩; exact ⟨(k, v), SMap.mem_toList.2 hv, rfl⟩

theorem elems_sorted (s : SSet κ) : s.elems.Pairwise (fun a b => Order.lt a b = true) := by
  unfold elems; rw [List.pairwise_map]; exact s.sorted

theorem mem_from' {s : SSet κ} {lo k : κ} :
    k ∈ s.from' lo ↔ s.contains k = true ∧ Order.lt k lo = false := by
  unfold from'
  rw [List.mem_map, SMap.contains_iff]
  constructor
  · rintro ⟨e, he, rfl⟩
    rw [SMap.mem_rangeFrom] at he
    exact ⟨⟨_, he.1⟩, he.2⟩
  · rintro ⟨⟨v, hv⟩, h⟩; exact ⟨(k, v), SMap.mem_rangeFrom.2 ⟨hv, h⟩, rfl⟩

theorem from'_sorted (s : SSet κ) (lo : κ) : (s.from' lo).Pairwise (fun a b => Order.lt a b = true) := by
  unfold from'; rw [List.pairwise_map]; exact SMap.rangeFrom_sorted s lo

theorem contains_add (s : SSet κ) (k k' : κ) :
    SMap.contains (s.add k) k' = (decide (k' = k) || SMap.contains s k') := by
  unfold add SMap.contains
  rw [SMap.get_insert]
  split <;> simp_all

theorem contains_erase (s : SSet κ) (k k' : κ) :
    SMap.contains (SMap.erase s k) k' = (decide (k' ≠ k) && SMap.contains s k') := by
  unfold SMap.contains
  rw [SMap.get_erase]
  split <;> simp_all

@[simp] theorem contains_empty (k : κ) : SMap.contains (SMap.empty : SSet κ) k = false := rfl

theorem ext_contains {s t : SSet κ} (h : ∀ k, SMap.contains s k = SMap.contains t k) : s = t := by
  apply SMap.ext_get
  intro k
  have := h k
  unfold SMap.contains at this
  cases h1 : SMap.get s k <;> cases h2 : SMap.get t k <;> simp_all

theorem nodup_elems (s : SSet κ) : s.elems.Nodup := SMap.nodup_keys s

end SSet

/-- In a list where `p` is inherited by earlier elements, `takeWhile` is `filter`. -/
theorem takeWhile_eq_filter {α : Type} (p : α → Bool) :
    ∀ l : List α, l.Pairwise (fun a b => p b = true → p a = true) → l.takeWhile p = l.filter p
  | [], _ => rfl
  | a :: r, h => by
    rw [List.pairwise_cons] at h
    cases hp : p a with
    | true => simp [hp, takeWhile_eq_filter p r h.2]
    | false =>
      have : r.filter p = [] := by
        rw [List.filter_eq_nil_iff]
        intro x hx hpx
        have := h.1 x hx hpx
        rw [hp] at this; exact absurd this (by simp)
      simp [hp, this]

end IndraDB
