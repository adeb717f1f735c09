import Verif.Proofs.Values
import Verif.Model.Util
import Verif.Props.RocksWitness
/-
C39 (`Identifier::new`), C40/C41 (laws of JSON equality and hashing), C49 (output helpers, direction names).
-/
set_option linter.unusedSimpArgs false
namespace IndraDB

/-! ### C39 -/

theorem strBytes_inj {s s' : String} (h : strBytes s = strBytes s') : s = s' := by
  have h3 : s.toUTF8 = s'.toUTF8 := by
    apply ByteArray.ext; exact Array.toList_inj.1 h
  exact String.toByteArray_inj.1 h3

/-- `Identifier::new` succeeds exactly for strings of at most 255 bytes made of letters, digits, `-` and `_`. `letter`
is `char::is_alphanumeric`. -/
theorem C39_accepts (letter : Char → Bool) (s : String) :
    (∃ i, Identifier.new letter s = .ok i) ↔
      (strBytes s).length ≤ 255 ∧ ∀ c ∈ s.toList, c = '-' ∨ c = '_' ∨ letter c = true := by
  unfold Identifier.new
  split
  · rename_i h
    constructor
    · rintro ⟨_, h⟩; cases h
    · rintro ⟨h1, _⟩; omega
  · rename_i h
    split
    · rename_i h2
      constructor
      · rintro ⟨_, h⟩; cases h
      · rintro ⟨_, h3⟩
        simp only [Bool.not_eq_true', List.all_eq_false] at h2
        obtain ⟨c, hc, h4⟩ := h2
        rcases h3 c hc with rfl | rfl | h5 <;> simp_all
    · rename_i h2
      simp only [Bool.not_eq_true', Bool.not_eq_false, List.all_eq_true] at h2
      refine ⟨fun _ => ⟨by omega, fun c hc => ?_⟩, fun _ => ⟨_, rfl⟩⟩
      have := h2 c hc
      simp only [Bool.or_eq_true, beq_iff_eq, or_assoc] at this
      exact this

/-- A string that is too long is reported as such, whatever its characters; otherwise bad characters are reported. -/
theorem C39_errors (letter : Char → Bool) (s : String) :
    (Identifier.new letter s = .error .valueTooLong ↔ 255 < (strBytes s).length) ∧
    (Identifier.new letter s = .error .invalidValue ↔
      (strBytes s).length ≤ 255 ∧ ∃ c ∈ s.toList, c ≠ '-' ∧ c ≠ '_' ∧ letter c = false) ∧
    (∀ e, Identifier.new letter s = .error e → e = .valueTooLong ∨ e = .invalidValue) := by
  unfold Identifier.new
  split
  · rename_i h
    refine ⟨by simp; exact h, ?_, ?_⟩
    · constructor
      · intro h; cases h
      · rintro ⟨h1, _⟩; omega
    · intro e he; cases he; exact Or.inl rfl
  · rename_i h
    split
    · rename_i h2
      refine ⟨?_, ?_, ?_⟩
      · constructor
        · intro h; cases h
        · intro h1; omega
      · simp only [Bool.not_eq_true', List.all_eq_false] at h2
        obtain ⟨c, hc, h4⟩ := h2
        simp only [true_iff]
        refine ⟨by omega, c, hc, ?_⟩
        simp only [Bool.or_eq_true, beq_iff_eq, not_or] at h4
        exact ⟨h4.1.1, h4.1.2, by simpa using h4.2⟩
      · intro e he; cases he; exact Or.inr rfl
    · rename_i h2
      refine ⟨?_, ?_, ?_⟩
      · constructor
        · intro h; cases h
        · intro h1; omega
      · constructor
        · intro h; cases h
        · rintro ⟨_, c, hc, h3, h4, h5⟩
          simp only [Bool.not_eq_true', Bool.not_eq_false, List.all_eq_true] at h2
          have := h2 c hc
          simp_all
      · intro e he; cases he

/-- The accepted identifier holds exactly the given string; different strings give different identifiers. -/
theorem C39_readback (letter : Char → Bool) (s s' : String) (i i' : Identifier)
    (h : Identifier.new letter s = .ok i) (h' : Identifier.new letter s' = .ok i') :
    i.bytes = strBytes s ∧ (i = i' ↔ s = s') := by
  have key : ∀ s i, Identifier.new letter s = .ok i → i.bytes = strBytes s := by
    intro s i h
    unfold Identifier.new at h
    split at h
    · cases h
    · split at h
      · cases h
      · cases h; rfl
  refine ⟨key s i h, fun e => ?_, fun e => ?_⟩
  · subst e; exact strBytes_inj ((key s i h).symm.trans (key s' i h'))
  · subst e; rw [h] at h'; exact Except.ok.inj h'

example (i i' : Identifier) (h : Identifier.new Char.isAlphanum "foo" = .ok i) (h' : Identifier.new Char.isAlphanum "fo" = .ok i') :
    i.bytes = [102, 111, 111] ∧ i ≠ i' :=
  ⟨(C39_readback _ _ _ _ _ h h').1, fun e => absurd ((C39_readback _ _ _ _ _ h h').2.1 e) (by decide)⟩

/-- ASCII letters and digits, for the examples. -/
def asciiAlnum (c : Char) : Bool := c.isAlphanum

example : ∃ i, Identifier.new asciiAlnum "foo-Bar_9" = .ok i := (C39_accepts _ _).2 (by decide +kernel)
example : Identifier.new asciiAlnum "$" = .error .invalidValue := (C39_errors _ _).2.1.2 (by decide +kernel)
example : Identifier.new asciiAlnum (String.ofList (List.replicate 256 '$')) = .error .valueTooLong :=
  (C39_errors _ _).1.2 (by decide +kernel)
/-- The empty string is accepted. -/
example : Identifier.new asciiAlnum "" = .ok Identifier.empty := rfl

/-! ### C40: `==` on JSON -/

/-- `==` is reflexive and symmetric on all values. -/
theorem C40_refl_symm : (∀ a : Json, a.eq a = true) ∧ (∀ a b : Json, a.eq b = true → b.eq a = true) :=
  ⟨fun a => (Json.eq_iff a a).2 (Json.Rel.refl' Num.cmp_refl a),
   fun a b h => (Json.eq_iff b a).2 (Json.Rel.symm' (fun _ _ => Num.cmp_symm) a b ((Json.eq_iff a b).1 h))⟩

example : (Json.arr (.cons (W.n 3) .nil)).eq (.arr (.cons (W.n 3) .nil)) = true := C40_refl_symm.1 _

namespace W
/-- `1.0 * 2^k` as a float, `k ≥ 0`. -/
def pow2f (k : Nat) : Json := .num (.float ⟨false, Fin.ofNat _ (1023 + k), 0⟩)
/-- `3.0`. -/
def three : Json := .num (.float ⟨false, 1024, 2251799813685248⟩)
end W

/-- `==` is not transitive: `2^53 + 1 == 2^53 as f64 == 2^53` but `2^53 + 1 != 2^53`. And equal values may have
different hashes: `3 == 3.0`, but the hash inputs, and the values of `DefaultHasher`, differ. So `Json` breaks the
contract of `Eq` and `Hash`. -/
theorem C40_refuted :
    (∃ a b c : Json, a.eq b = true ∧ b.eq c = true ∧ a.eq c = false) ∧
    (∃ a b : Json, a.eq b = true ∧ a.stream ≠ b.stream ∧ Sip.hash a.stream ≠ Sip.hash b.stream) :=
  ⟨⟨W.n (2^53 + 1), W.pow2f 53, W.n (2^53), by decide +kernel⟩, W.n 3, W.three, by decide +kernel⟩

/-- On values in which all numbers are integers, or all numbers are floats or integers up to `2^53` in absolute value,
`==` is transitive. -/
theorem C40_transitive_partial (P : Num → Prop) (hP : P = Num.IsInt ∨ P = Num.IsExact) (a b c : Json)
    (ha : a.AllNums P) (hb : b.AllNums P) (hc : c.AllNums P) (h1 : a.eq b = true) (h2 : b.eq c = true) :
    a.eq c = true := by
  rw [Json.eq_iff] at h1 h2 ⊢
  rcases hP with rfl | rfl
  · have e1 := Json.Rel.mono_on (T := fun x y => x = y) a b ha hb (fun x y hx hy h => (Num.int_cmp hx hy).1 h) h1
    rw [Json.Rel.eq a b e1]; exact h2
  · have e1 := Json.Rel.mono_on (T := fun x y => x.f64Scaled = y.f64Scaled) a b ha hb
      (fun x y hx hy h => (Num.exact_cmp hx hy).1 h) h1
    have e2 := Json.Rel.mono_on (T := fun x y => x.f64Scaled = y.f64Scaled) b c hb hc
      (fun x y hx hy h => (Num.exact_cmp hx hy).1 h) h2
    have e3 := Json.Rel.trans' (R := fun x y => x.f64Scaled = y.f64Scaled) (fun _ _ _ h h' => h.trans h') a b c e1 e2
    exact Json.Rel.mono_on a c ha hc (fun x y hx hy h => (Num.exact_cmp hx hy).2 h) e3

example (a : Json) (ha : a.AllNums Num.IsExact) (h : (W.n 3).eq a = true) : W.three.eq a = true :=
  C40_transitive_partial Num.IsExact (.inr rfl) _ (W.n 3) _
    (by simp [Json.AllNums, W.three, Num.IsExact]) (by simp [Json.AllNums, W.n, Num.IsExact, Fin.ofNat]; decide +kernel) ha
    (by decide +kernel) h

/-- On values in which all numbers are integers, or all are floats other than `-0.0`, `==` is plain equality of values;
in particular equal values have equal hashes. -/
theorem C40_hash_partial (P : Num → Prop) (hP : P = Num.IsInt ∨ P = Num.IsFloatNotNegZero) (a b : Json)
    (ha : a.AllNums P) (hb : b.AllNums P) : (a.eq b = true ↔ a = b) ∧ (a.eq b = true → a.stream = b.stream) := by
  have key : a.eq b = true → a = b := by
    intro h
    rw [Json.eq_iff] at h
    refine Json.Rel.eq a b (Json.Rel.mono_on a b ha hb ?_ h)
    rcases hP with rfl | rfl
    · exact fun x y hx hy h => (Num.int_cmp hx hy).1 h
    · exact fun x y hx hy h => (Num.float_cmp hx hy).1 h
  exact ⟨⟨key, fun e => e ▸ C40_refl_symm.1 a⟩, fun h => by rw [key h]⟩

example (a : Json) (ha : a.AllNums Num.IsInt) (h : (W.n 3).eq a = true) : a = W.n 3 :=
  ((C40_hash_partial Num.IsInt (.inl rfl) _ _ (by simp [Json.AllNums, W.n, Num.IsInt]) ha).1.1 h).symm

/-- The relation actually used by hash-map lookups, "equal and same hash", is an equivalence on all values. -/
theorem C40_lookup :
    Equivalence (fun a b : Json => a.eq b = true ∧ a.stream = b.stream) := by
  have conv : ∀ a b : Json, (a.eq b = true ∧ a.stream = b.stream) ↔ HashEq.byHash.same a b = true := by
    intro a b; simp [HashEq.byHash]
  exact ⟨fun a => (conv a a).2 (HashEq.byHash.refl a), fun h => (conv _ _).2 (HashEq.byHash.symm _ _ ((conv _ _).1 h)),
    fun h1 h2 => (conv _ _).2 (HashEq.byHash.trans _ _ _ ((conv _ _).1 h1) ((conv _ _).1 h2))⟩

/-- A nested value with integers. -/
example : (Json.arr (.cons (W.n 1) (.cons (.obj (.cons [97] (W.n 2) .nil)) .nil))).AllNums Num.IsInt ∧
    (Json.arr (.cons W.three (.cons (W.n 3) .nil))).AllNums Num.IsExact ∧ W.three.AllNums Num.IsFloatNotNegZero ∧
    W.three.eq (W.n 3) = true := by
  refine ⟨by simp [Json.AllNums, JArr.AllNums, JObj.AllNums, W.n, Num.IsInt], ?_, ?_, by decide +kernel⟩
  · simp [Json.AllNums, JArr.AllNums, W.n, W.three, Num.IsExact, Fin.ofNat]; decide +kernel
  · simp [Json.AllNums, W.three, Num.IsFloatNotNegZero]

/-! ### C41: hash input -/

/-- Values that are not equal but feed the same bytes to the hasher, so collide for every hasher: nested arrays, nested
objects, `-1` and `u64::MAX`, an integer and a float. -/
theorem C41_refuted : ∀ p ∈ [(W.j1, W.j2),
      (Json.obj (.cons [97] (.obj (.cons [98] (W.n 1) .nil)) .nil), Json.obj (.cons [97] (.obj .nil) (.cons [98] (W.n 1) .nil))),
      (Json.num (.negInt 0), W.n (2^64 - 1)),
      (W.pow2f 0, W.n 4607182418800017408)],
    p.1.eq p.2 = false ∧ p.1.stream = p.2.stream := by
  decide +kernel

/-- Different values feed different bytes if both are scalars or arrays/objects of scalars, or both have the same
nesting (of any depth), and their numbers all come from one of: `i64`, `u64`, floats. -/
theorem C41_partial (P : Num → Prop) (hP : P = Num.IsI64 ∨ P = Num.IsU64 ∨ P = Num.IsFloat) (a b : Json)
    (ha : a.AllNums P) (hb : b.AllNums P) (ua : a.Utf8) (ub : b.Utf8)
    (hs : (a.Flat ∧ b.Flat) ∨ a.SameShape b) (h : a.stream = b.stream) : a = b := by
  have h1 : a.Rel (fun x y => x.bits64 = y.bits64) b := by
    rcases hs with ⟨fa, fb⟩ | hs
    · exact Json.flat_stream fa fb ua ub h
    · exact (Json.shape_stream a b (x := []) (y := []) hs ua ub (by simp [h])).1
  refine Json.Rel.eq a b (Json.Rel.mono_on a b ha hb ?_ h1)
  rcases hP with rfl | rfl | rfl
  · exact fun x y => Num.bits_inj_i64
  · exact fun x y => Num.bits_inj_u64
  · exact fun x y => Num.bits_inj_float

/-- The hypotheses hold for `["a", 1]` and `{"b": null}`, and for two nested arrays of the same shape. -/
example : (Json.arr (.cons (.str [97]) (.cons (W.n 1) .nil))).Flat ∧ (Json.obj (.cons [98] .null .nil)).Flat ∧
    (Json.arr (.cons (W.n 1) .nil)).AllNums Num.IsI64 ∧ (Json.arr (.cons (.str [97]) .nil)).Utf8 ∧
    (Json.arr (.cons (.arr (.cons .null .nil)) .nil)).SameShape (Json.arr (.cons (.arr (.cons (W.n 1) .nil)) .nil)) := by
  simp [Json.Flat, JArr.AllScalar, JObj.AllScalar, Json.Scalar, Json.AllNums, JArr.AllNums, W.n, Num.IsI64, Json.Utf8,
    JArr.Utf8, Json.SameShape, JArr.SameShape, Fin.ofNat]

/-! ### C49 -/

/-- `extract_vertices` returns `Some(l)` exactly if the last output value is the vertices `l`; likewise the others. -/
theorem C49_extract (out : List Output) :
    (∀ l, extractVertices out = some l ↔ ∃ r, out = r ++ [.vertices l]) ∧
    (∀ l, extractEdges out = some l ↔ ∃ r, out = r ++ [.edges l]) ∧
    (∀ l, extractCount out = some l ↔ ∃ r, out = r ++ [.count l]) ∧
    (∀ l, extractVertexProperties out = some l ↔ ∃ r, out = r ++ [.vertexProperties l]) ∧
    (∀ l, extractEdgeProperties out = some l ↔ ∃ r, out = r ++ [.edgeProperties l]) := by
  have key : ∀ o : Output, out.getLast? = some o ↔ ∃ r, out = r ++ [o] := by
    intro o
    rw [List.getLast?_eq_some_iff]
  refine ⟨fun l => ?_, fun l => ?_, fun l => ?_, fun l => ?_, fun l => ?_⟩ <;> rw [← key] <;>
    simp only [extractVertices, extractEdges, extractCount, extractVertexProperties, extractEdgeProperties] <;>
    cases out.getLast? with
    | none => simp
    | some o => cases o <;> simp

example : extractCount [.vertices [], .count 3] = some 3 ∧ extractVertices [.vertices [], .count 3] = none ∧
    extractEdges [] = none := by decide +kernel

/-- `EdgeDirection` parses exactly "outbound" and "inbound"; printing and parsing are inverse. -/
theorem C49_direction :
    (∀ d, EdgeDirection.fromStr d.toStr = .ok d) ∧
    (∀ s d, EdgeDirection.fromStr s = .ok d ↔ s = d.toStr) ∧
    (∀ s, EdgeDirection.fromStr s = .error .invalidValue ↔ s ≠ "outbound" ∧ s ≠ "inbound") ∧
    EdgeDirection.toStr .outbound = "outbound" ∧ EdgeDirection.toStr .inbound = "inbound" := by
  refine ⟨fun d => by cases d <;> rfl, fun s d => ?_, fun s => ?_, rfl, rfl⟩
  · unfold EdgeDirection.fromStr
    by_cases h1 : s = "outbound"
    · subst h1; cases d <;> simp [EdgeDirection.toStr]
    · by_cases h2 : s = "inbound"
      · subst h2; cases d <;> simp [EdgeDirection.toStr]
      · cases d <;> simp [EdgeDirection.toStr, h1, h2]
  · unfold EdgeDirection.fromStr
    by_cases h1 : s = "outbound"
    · simp [h1]
    · by_cases h2 : s = "inbound" <;> simp [h1, h2]

example : EdgeDirection.fromStr "Outbound" = .error .invalidValue := (C49_direction.2.2.1 _).2 (by decide)

end IndraDB
