import Verif.Model.Rocks
/-
Byte keys: decoding, injectivity, prefixes and order.
-/
set_option linter.unusedSimpArgs false
namespace IndraDB

/-- The bytes of an identifier component. -/
def identBytes (n : Identifier) : Bytes := UInt8.ofNat n.bytes.length :: n.bytes

theorem build_cons (H : Bytes → UInt64) (c : Component) (r : List Component) :
    build H (c :: r) = c.bytes H ++ build H r := rfl
@[simp] theorem build_nil (H : Bytes → UInt64) : build H [] = [] := rfl
@[simp] theorem bytes_uuid (H : Bytes → UInt64) (u : Uuid) : Component.bytes H (.uuid u) = u.bytes := rfl
@[simp] theorem bytes_ident (H : Bytes → UInt64) (n : Identifier) : Component.bytes H (.identifier n) = identBytes n := rfl
@[simp] theorem bytes_fixed (H : Bytes → UInt64) (s : Bytes) : Component.bytes H (.fixedLengthString s) = s := rfl
@[simp] theorem bytes_json (H : Bytes → UInt64) (v : Json) : Component.bytes H (.json v) = be64 (H v.stream) := rfl

/-! ### Decoding -/

theorem readExact_append (a r : Bytes) : readExact a.length (a ++ r) = .ok (a, r) := by
  unfold readExact
  rw [if_neg (by simp)]
  simp

theorem readUuid_append (u : Uuid) (r : Bytes) : readUuid (u.bytes ++ r) = .ok (u, r) := by
  unfold readUuid
  have := readExact_append u.bytes r
  rw [u.len] at this
  rw [this]
  simp [Uuid.ofBytes?, u.len]

theorem readUuid_self (u : Uuid) : readUuid u.bytes = .ok (u, []) := by
  have := readUuid_append u []; rwa [List.append_nil] at this

theorem readIdentifier_append (n : Identifier) (r : Bytes) : readIdentifier (identBytes n ++ r) = .ok (n, r) := by
  have hl := n.len
  have hn : (UInt8.ofNat n.bytes.length).toNat = n.bytes.length := by
    simp [UInt8.toNat_ofNat']; omega
  simp only [identBytes, List.cons_append, readIdentifier, hn, readExact_append, hl, dite_true]

theorem readIdentifier_self (n : Identifier) : readIdentifier (identBytes n) = .ok (n, []) := by
  have := readIdentifier_append n []; rwa [List.append_nil] at this

theorem readRest_self (n : Identifier) : readRestIdentifier n.bytes = .ok n := by
  simp [readRestIdentifier, n.len]

theorem be64_length (h : UInt64) : (be64 h).length = 8 := rfl

theorem readU64_append (h : UInt64) (r : Bytes) : readU64 (be64 h ++ r) = .ok (be64 h, r) := by
  have := readExact_append (be64 h) r
  rwa [be64_length] at this

/-- The value of 8 bytes. -/
def be64Val : Bytes → Nat
  | l => l.foldl (fun acc b => acc * 256 + b.toNat) 0

theorem be64_val (h : UInt64) : be64Val (be64 h) = h.toNat := by
  have := h.toNat_lt
  simp only [be64Val, be64, List.foldl, UInt8.toNat_ofNat']
  omega

theorem be64_inj {a b : UInt64} (h : be64 a = be64 b) : a = b := by
  have := congrArg be64Val h
  rw [be64_val, be64_val] at this
  exact UInt64.toNat.inj this

/-! ### Injectivity -/

theorem uuid_append_inj {a b : Uuid} {x y : Bytes} (h : a.bytes ++ x = b.bytes ++ y) : a = b ∧ x = y := by
  have := List.append_inj h (by rw [a.len, b.len])
  exact ⟨Uuid.inj this.1, this.2⟩

theorem ident_append_inj {a b : Identifier} {x y : Bytes} (h : identBytes a ++ x = identBytes b ++ y) :
    a = b ∧ x = y := by
  have h1 := readIdentifier_append a x
  rw [h, readIdentifier_append] at h1
  simp only [Except.ok.injEq, Prod.mk.injEq] at h1
  exact ⟨h1.1.symm, h1.2.symm⟩

theorem ident_inj {a b : Identifier} (h : identBytes a = identBytes b) : a = b := by
  have : identBytes a ++ [] = identBytes b ++ [] := by rw [h]
  exact (ident_append_inj this).1

theorem be64_append_inj {a b : UInt64} {x y : Bytes} (h : be64 a ++ x = be64 b ++ y) : a = b ∧ x = y := by
  have := List.append_inj h (by rw [be64_length, be64_length])
  exact ⟨be64_inj this.1, this.2⟩

namespace Rocks
variable {X : Cfg}

theorem vertexKey_eq (id : Uuid) : vertexKey X id = id.bytes := by simp [vertexKey, build_cons]
theorem edgeKey_eq (e : Edge) : edgeKey X e = e.outboundId.bytes ++ (identBytes e.t ++ e.inboundId.bytes) := by
  simp [edgeKey, build_cons]
theorem vpKey_eq (id : Uuid) (n : Identifier) : vpKey X id n = id.bytes ++ n.bytes := by simp [vpKey, build_cons]
theorem epKey_eq (e : Edge) (n : Identifier) : epKey X e n = edgeKey X e ++ n.bytes := by
  simp [epKey, edgeKey, build_cons]

/-- Index key of a vertex, by hash. -/
def vhKey (n : Identifier) (h : UInt64) (id : Uuid) : Bytes := identBytes n ++ (be64 h ++ id.bytes)
/-- Index key of an edge, by hash. -/
def ehKey (X : Cfg) (n : Identifier) (h : UInt64) (e : Edge) : Bytes := identBytes n ++ (be64 h ++ edgeKey X e)

theorem vpvKey_eq (n : Identifier) (v : Json) (id : Uuid) : vpvKey X n v id = vhKey n (X.H v.stream) id := by
  simp [vpvKey, vhKey, build_cons]
theorem epvKey_eq (n : Identifier) (v : Json) (e : Edge) : epvKey X n v e = ehKey X n (X.H v.stream) e := by
  simp [epvKey, ehKey, edgeKey, build_cons]

theorem vertexKey_inj {a b : Uuid} : vertexKey X a = vertexKey X b ↔ a = b := by
  rw [vertexKey_eq, vertexKey_eq]; exact ⟨Uuid.inj, fun h => by rw [h]⟩

theorem edgeKey_append_inj {e f : Edge} {x y : Bytes} (h : edgeKey X e ++ x = edgeKey X f ++ y) : e = f ∧ x = y := by
  rw [edgeKey_eq, edgeKey_eq] at h
  simp only [List.append_assoc] at h
  obtain ⟨h1, h⟩ := uuid_append_inj h
  obtain ⟨h2, h⟩ := ident_append_inj h
  obtain ⟨h3, h⟩ := uuid_append_inj h
  refine ⟨?_, h⟩
  cases e; cases f; simp_all

theorem edgeKey_inj {e f : Edge} : edgeKey X e = edgeKey X f ↔ e = f := by
  constructor
  · intro h
    have : edgeKey X e ++ [] = edgeKey X f ++ [] := by rw [h]
    exact (edgeKey_append_inj this).1
  · intro h; rw [h]

theorem vpKey_inj {i j : Uuid} {n m : Identifier} : vpKey X i n = vpKey X j m ↔ i = j ∧ n = m := by
  rw [vpKey_eq, vpKey_eq]
  constructor
  · intro h
    obtain ⟨h1, h2⟩ := uuid_append_inj h
    exact ⟨h1, Identifier.inj h2⟩
  · rintro ⟨rfl, rfl⟩; rfl

theorem epKey_inj {e f : Edge} {n m : Identifier} : epKey X e n = epKey X f m ↔ e = f ∧ n = m := by
  rw [epKey_eq, epKey_eq]
  constructor
  · intro h
    obtain ⟨h1, h2⟩ := edgeKey_append_inj h
    exact ⟨h1, Identifier.inj h2⟩
  · rintro ⟨rfl, rfl⟩; rfl

theorem vhKey_inj {n m : Identifier} {h k : UInt64} {i j : Uuid} :
    vhKey n h i = vhKey m k j ↔ n = m ∧ h = k ∧ i = j := by
  unfold vhKey
  constructor
  · intro e
    obtain ⟨h1, e⟩ := ident_append_inj e
    obtain ⟨h2, e⟩ := be64_append_inj e
    exact ⟨h1, h2, Uuid.inj e⟩
  · rintro ⟨rfl, rfl, rfl⟩; rfl

theorem ehKey_inj {n m : Identifier} {h k : UInt64} {e f : Edge} :
    ehKey X n h e = ehKey X m k f ↔ n = m ∧ h = k ∧ e = f := by
  unfold ehKey
  constructor
  · intro e
    obtain ⟨h1, e⟩ := ident_append_inj e
    obtain ⟨h2, e⟩ := be64_append_inj e
    exact ⟨h1, h2, edgeKey_inj.1 e⟩
  · rintro ⟨rfl, rfl, rfl⟩; rfl

/-! ### Prefixes -/

theorem uuid_prefix {a b : Uuid} {x : Bytes} : a.bytes.isPrefixOf (b.bytes ++ x) = true ↔ a = b := by
  rw [List.isPrefixOf_iff_prefix]
  constructor
  · rintro ⟨y, h⟩; exact (uuid_append_inj h).1
  · rintro rfl; exact List.prefix_append _ _

theorem edge_prefix {e f : Edge} {x : Bytes} : (edgeKey X e).isPrefixOf (edgeKey X f ++ x) = true ↔ e = f := by
  rw [List.isPrefixOf_iff_prefix]
  constructor
  · rintro ⟨y, h⟩; exact (edgeKey_append_inj h).1
  · rintro rfl; exact List.prefix_append _ _

theorem ident_prefix {n m : Identifier} {x : Bytes} : (identBytes n).isPrefixOf (identBytes m ++ x) = true ↔ n = m := by
  rw [List.isPrefixOf_iff_prefix]
  constructor
  · rintro ⟨y, h⟩; exact (ident_append_inj h).1
  · rintro rfl; exact List.prefix_append _ _

theorem hash_prefix {n m : Identifier} {h k : UInt64} {x : Bytes} :
    (identBytes n ++ be64 h).isPrefixOf (identBytes m ++ (be64 k ++ x)) = true ↔ n = m ∧ h = k := by
  rw [List.isPrefixOf_iff_prefix]
  constructor
  · rintro ⟨y, e⟩
    rw [List.append_assoc] at e
    obtain ⟨h1, e⟩ := ident_append_inj e
    exact ⟨h1, (be64_append_inj e).1⟩
  · rintro ⟨rfl, rfl⟩; exact ⟨x, by simp⟩

/-! ### Order -/

theorem lexLt_append {a b x y : Bytes} (h : a.length = b.length) :
    lexLt (a ++ x) (b ++ y) = true ↔ lexLt a b = true ∨ (a = b ∧ lexLt x y = true) := by
  induction a generalizing b with
  | nil =>
    cases b with
    | nil => simp [lexLt]
    | cons _ _ => simp at h
  | cons c r ih =>
    cases b with
    | nil => simp at h
    | cons d s =>
      simp only [List.cons_append, lexLt_cons]
      rw [ih (by simpa using h)]
      constructor
      · rintro (h' | ⟨rfl, h' | ⟨rfl, h'⟩⟩)
        · exact Or.inl (Or.inl h')
        · exact Or.inl (Or.inr ⟨rfl, h'⟩)
        · exact Or.inr ⟨rfl, h'⟩
      · rintro ((h' | ⟨rfl, h'⟩) | ⟨h1, h'⟩)
        · exact Or.inl h'
        · exact Or.inr ⟨rfl, Or.inl h'⟩
        · simp only [List.cons.injEq] at h1; exact Or.inr ⟨h1.1, Or.inr ⟨h1.2, h'⟩⟩

/-- A common prefix does not matter. -/
theorem lexLt_append_left (a x y : Bytes) : lexLt (a ++ x) (a ++ y) = lexLt x y := by
  rw [Bool.eq_iff_iff, lexLt_append rfl]
  simp [lexLt_irrefl]

theorem lexLt_nil (a : Bytes) : lexLt a [] = false := by cases a <;> rfl

/-- Extensions of a prefix are not smaller than it. -/
theorem not_lt_prefix {p k : Bytes} (h : p <+: k) : lexLt k p = false := by
  obtain ⟨x, rfl⟩ := h
  have := lexLt_append_left p x []
  rw [List.append_nil] at this
  rw [this, lexLt_nil]

/-- Keys between a prefix and one of its extensions have the prefix. -/
theorem prefix_between {p a b : Bytes} (h1 : lexLt a p = false) (h2 : lexLt a b = true) (h3 : p <+: b) : p <+: a := by
  induction p generalizing a b with
  | nil => exact List.nil_prefix
  | cons c r ih =>
    obtain ⟨y, rfl⟩ := h3
    cases a with
    | nil => simp [lexLt] at h1
    | cons d s =>
      have h2' := h2
      rw [List.cons_append, lexLt_cons] at h2'
      rcases h2' with h | ⟨rfl, h⟩
      · have : lexLt (d :: s) (c :: r) = true := by rw [lexLt_cons]; exact Or.inl h
        rw [this] at h1; simp at h1
      · have h1' : lexLt s r = false := by
          cases hs : lexLt s r with
          | false => rfl
          | true =>
            have : lexLt (d :: s) (d :: r) = true := by rw [lexLt_cons]; exact Or.inr ⟨rfl, hs⟩
            rw [this] at h1; simp at h1
        have := ih h1' h (List.prefix_append _ _)
        exact (List.cons_prefix_cons).2 ⟨rfl, this⟩

@[simp] theorem mapItems_ok {β : Type} (f : Bytes × Bytes → Res β) (l : List (Bytes × Bytes)) :
    mapItems f (l.map .ok) = l.map f := by
  unfold mapItems
  rw [List.map_map]; rfl

/-- Scanning from a prefix while the prefix matches gives all entries with the prefix. -/
theorem takeWithPrefix_eq (m : SMap Bytes Bytes) (p : Bytes) :
    takeWithPrefix ((m.rangeFrom p).map .ok) p = (m.toList.filter (fun e => p.isPrefixOf e.1)).map .ok := by
  unfold takeWithPrefix
  rw [List.takeWhile_map]
  refine congrArg (List.map Except.ok) ?_
  show List.takeWhile (fun e : Bytes × Bytes => p.isPrefixOf e.1) _ = _
  rw [takeWhile_eq_filter]
  · unfold SMap.rangeFrom
    rw [List.filter_filter]
    apply List.filter_congr
    intro e _
    cases h : p.isPrefixOf e.1 with
    | false => simp
    | true =>
      have := not_lt_prefix (List.isPrefixOf_iff_prefix.1 h)
      simp only [Bool.true_and, Bool.not_eq_true']
      exact this
  · have hs := SMap.rangeFrom_sorted m p
    refine List.Pairwise.imp_of_mem ?_ hs
    intro a b ha hb hab hp
    rw [List.isPrefixOf_iff_prefix] at hp ⊢
    exact prefix_between (SMap.mem_rangeFrom.1 ha).2 hab hp

/-- Scanning from the empty key gives everything. -/
theorem rangeFrom_nil (m : SMap Bytes Bytes) : m.rangeFrom [] = m.toList := by
  unfold SMap.rangeFrom
  rw [List.filter_eq_self]
  intro e _
  show (!lexLt e.1 []) = true
  rw [lexLt_nil]; rfl

end Rocks
end IndraDB
