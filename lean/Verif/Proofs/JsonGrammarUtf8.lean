import Verif.Proofs.JsonGrammar
import Verif.Proofs.JsonUtf8
/-
In a text that is UTF-8 all strings are UTF-8, so checking them makes no difference.
-/
namespace IndraDB
open JsonRead

theorem isUtf8_iff {b : Bytes} : IsUtf8 b ↔ ∃ m : List Char, b = m.flatMap String.utf8EncodeChar :=
  ⟨fun ⟨m, h⟩ => ⟨m, toByteArray_inj h⟩, fun ⟨m, h⟩ => ⟨m, by rw [h]; rfl⟩⟩

theorem char_ne (c : Char) : String.utf8EncodeChar c ≠ [] := String.utf8EncodeChar_ne_nil

/-- UTF-8 can be cut before a byte below 128. -/
theorem IsUtf8.cut {a b : Bytes} (h : IsUtf8 (a ++ b)) (hb : ∀ x, b.head? = some x → x.toNat < 128) : IsUtf8 a ∧ IsUtf8 b := by
  obtain ⟨m, hm⟩ := isUtf8_iff.1 h
  clear h
  induction m generalizing a with
  | nil =>
    rw [List.flatMap_nil, List.append_eq_nil_iff] at hm
    rw [hm.1, hm.2]
    exact ⟨IsUtf8.nil, IsUtf8.nil⟩
  | cons c m ih =>
    rw [List.flatMap_cons] at hm
    rcases List.append_eq_append_iff.1 hm with ⟨z, e1, e2⟩ | ⟨z, e1, e2⟩
    · cases a with
      | nil =>
        refine ⟨IsUtf8.nil, ?_⟩
        rw [List.nil_append] at hm
        exact isUtf8_iff.2 ⟨c :: m, by rw [List.flatMap_cons]; exact hm⟩
      | cons y a =>
        cases z with
        | nil =>
          rw [List.append_nil] at e1
          rw [List.nil_append] at e2
          exact ⟨isUtf8_iff.2 ⟨[c], by rw [List.flatMap_cons, List.flatMap_nil, List.append_nil, e1]⟩, isUtf8_iff.2 ⟨m, e2⟩⟩
        | cons x z =>
          exfalso
          have hx := hb x (by rw [e2]; rfl)
          rcases char_bytes c with ⟨w, hw, e⟩ | hc
          · rw [e] at e1
            simp at e1
          · have := hc x (by rw [e1]; simp)
            omega
    · obtain ⟨h1, h2⟩ := ih (a := z) e2.symm
      refine ⟨?_, h2⟩
      rw [e1]
      exact IsUtf8.append (isUtf8_iff.2 ⟨[c], by rw [List.flatMap_cons, List.flatMap_nil, List.append_nil]⟩) h1

theorem IsUtf8.tail {x : UInt8} {b : Bytes} (hx : x.toNat < 128) (h : IsUtf8 (x :: b)) : IsUtf8 b := by
  obtain ⟨m, hm⟩ := isUtf8_iff.1 h
  cases m with
  | nil => cases hm
  | cons c m =>
    rw [List.flatMap_cons] at hm
    rcases char_bytes c with ⟨w, hw, e⟩ | hc
    · rw [e] at hm
      cases hm
      exact isUtf8_iff.2 ⟨m, rfl⟩
    · exfalso
      cases he : String.utf8EncodeChar c with
      | nil => exact char_ne c he
      | cons y r =>
        rw [he] at hm hc
        cases hm
        have := hc _ List.mem_cons_self
        omega

theorem IsUtf8.drop {a b : Bytes} (ha : ∀ x ∈ a, x.toNat < 128) (h : IsUtf8 (a ++ b)) : IsUtf8 b := by
  induction a with
  | nil => exact h
  | cons x a ih => exact ih (fun y hy => ha y (List.mem_cons_of_mem _ hy)) (h.tail (ha x List.mem_cons_self))

namespace JsonGrammar

theorem hex_ascii {x : UInt8} {d : Nat} (h : Hex x d) : x.toNat < 128 := by
  have h1 : ∀ x ∈ strBytes "0123456789abcdef", x.toNat < 128 := by decide +kernel
  have h2 : ∀ x ∈ strBytes "0123456789ABCDEF", x.toNat < 128 := by decide +kernel
  rcases h with h | h
  · exact h1 x (List.mem_of_getElem? h)
  · exact h2 x (List.mem_of_getElem? h)

theorem hex4_ascii {t : Bytes} {n : Nat} (h : Hex4 t n) : ∀ x ∈ t, x.toNat < 128 := by
  obtain ⟨x, y, z, w, a, b, c, d, rfl, hx, hy, hz, hw, -⟩ := h
  intro u hu
  simp only [List.mem_cons, List.not_mem_nil, or_false] at hu
  rcases hu with rfl | rfl | rfl | rfl
  · exact hex_ascii hx
  · exact hex_ascii hy
  · exact hex_ascii hz
  · exact hex_ascii hw

theorem char_utf8 (c : Char) : IsUtf8 (String.utf8EncodeChar c) :=
  isUtf8_iff.2 ⟨[c], by rw [List.flatMap_cons, List.flatMap_nil, List.append_nil]⟩

theorem escape_ascii {e c : Bytes} (h : Escape e c) : (∀ x ∈ e, x.toNat < 128) ∧ IsUtf8 c := by
  cases h with
  | quote | backslash | slash | backspace | formFeed | lineFeed | «return» | tab =>
    exact ⟨by decide +kernel, IsUtf8.ascii (by decide +kernel)⟩
  | code ht =>
    refine ⟨fun x hx => ?_, char_utf8 _⟩
    rcases List.mem_cons.1 hx with rfl | hx
    · decide
    · exact hex4_ascii ht x hx
  | pair ht ht' _ _ _ =>
    refine ⟨fun x hx => ?_, char_utf8 _⟩
    simp only [List.mem_cons, List.mem_append] at hx
    rcases hx with rfl | hx | rfl | rfl | hx
    · decide
    · exact hex4_ascii ht x hx
    · decide
    · decide
    · exact hex4_ascii ht' x hx

theorem str_utf8 {t s : Bytes} (h : Str t s) : ∀ p, IsUtf8 (p ++ t) → IsUtf8 (p ++ s) := by
  induction h with
  | nil => exact fun _ h => h
  | @char x t s _ _ _ _ ih =>
    intro p hp
    have := ih (p ++ [x]) (by simpa using hp)
    simpa using this
  | @escape e c t s he _ ih =>
    intro p hp
    obtain ⟨h1, h2⟩ := hp.cut (fun x hx => by cases hx; decide)
    obtain ⟨ha, hc⟩ := escape_ascii he
    have h3 : IsUtf8 t := IsUtf8.drop ha (h2.tail (by decide))
    have h4 := ih [] h3
    exact h1.append (hc.append h4)

theorem white_ascii {w : Bytes} (h : White w) : ∀ x ∈ w, x.toNat < 128 := fun x hx => by
  rcases h x hx with rfl | rfl | rfl | rfl <;> decide

theorem white_head {w b : Bytes} (hw : White w) (hb : ∀ x, b.head? = some x → x.toNat < 128) :
    ∀ x, (w ++ b).head? = some x → x.toNat < 128 := by
  intro x hx
  cases w with
  | nil => exact hb x hx
  | cons y w => cases hx; exact white_ascii hw _ List.mem_cons_self

theorem row_utf8 {α : Type} {P Q : Bytes → α → Prop} (h : ∀ t a, IsUtf8 t → P t a → Q t a) {b : Bytes} {l : List α} (hr : Row P b l)
    (hb : IsUtf8 b) : Row Q b l := by
  induction hr with
  | last hw ha hw' =>
    have h1 := IsUtf8.drop (white_ascii hw) hb
    have := white_head hw' (b := []) (fun _ h => nomatch h)
    rw [List.append_nil] at this
    exact Row.last hw (h _ _ (h1.cut this).1 ha) hw'
  | more hw ha hw' _ ih =>
    have h1 := IsUtf8.drop (white_ascii hw) hb
    obtain ⟨h2, h3⟩ := h1.cut (white_head hw' (fun x hx => by cases hx; decide))
    exact Row.more hw (h _ _ h2 ha) hw' (ih ((IsUtf8.drop (white_ascii hw') h3).tail (by decide)))

theorem row_mono {α : Type} {P Q : Bytes → α → Prop} (h : ∀ t a, P t a → Q t a) {b : Bytes} {l : List α} (hr : Row P b l) : Row Q b l := by
  induction hr with
  | last hw ha hw' => exact Row.last hw (h _ _ ha) hw'
  | more hw ha hw' _ ih => exact Row.more hw (h _ _ ha) hw' ih

theorem inner {x y : UInt8} {b : Bytes} (hx : x.toNat < 128) (hy : y.toNat < 128) (h : IsUtf8 (x :: (b ++ [y]))) : IsUtf8 b :=
  ((h.tail hx).cut (fun z hz => by cases hz; exact hy)).1

variable {F : Floats}

theorem scalar_utf8 {t : Bytes} {v : Json} (h : Scalar (fun _ => .true) F t v) (ht : IsUtf8 t) : Scalar utf8Ok F t v := by
  cases h with
  | null => exact Scalar.null
  | true => exact Scalar.true
  | false => exact Scalar.false
  | num hd hn => exact Scalar.num hd hn
  | str hs _ => exact Scalar.str hs (utf8Ok_iff.2 (str_utf8 hs [] (inner (by decide) (by decide) ht)))

theorem entry_utf8 {P Q : Bytes → Json → Prop} (h : ∀ t a, IsUtf8 t → P t a → Q t a) (t : Bytes) (e : Bytes × Json) (ht : IsUtf8 t)
    (he : Entry (fun _ => true) P t e) : Entry utf8Ok Q t e := by
  obtain ⟨s, w, w', t, rfl, hs, -, hw, hw', hp⟩ := he
  obtain ⟨h1, h2⟩ := (ht.tail (by decide)).cut (fun x hx => by cases hx; decide)
  have h3 := (IsUtf8.drop (white_ascii hw) (h2.tail (by decide))).tail (by decide)
  exact ⟨s, w, w', t, rfl, hs, utf8Ok_iff.2 (str_utf8 hs [] h1), hw, hw', h _ _ (IsUtf8.drop (white_ascii hw') h3) hp⟩

theorem value_utf8 : ∀ (n : Nat) (t : Bytes) (v : Json), IsUtf8 t → Value (fun _ => true) F n t v → Value utf8Ok F n t v
  | 0, _, _, ht, h => scalar_utf8 h ht
  | n + 1, t, v, ht, h => by
    rcases h with h | ⟨b, l, a, rfl, hr, rfl, ha⟩ | ⟨b, l, o, rfl, hr, rfl, ho⟩
    · exact Or.inl (scalar_utf8 h ht)
    · refine Or.inr (Or.inl ⟨b, l, a, rfl, ?_, rfl, ha⟩)
      rcases hr with hr | hr
      · exact Or.inl hr
      · exact Or.inr (row_utf8 (value_utf8 n) hr (inner (by decide) (by decide) ht))
    · refine Or.inr (Or.inr ⟨b, l, o, rfl, ?_, rfl, ho⟩)
      rcases hr with hr | hr
      · exact Or.inl hr
      · exact Or.inr (row_utf8 (entry_utf8 (value_utf8 n)) hr (inner (by decide) (by decide) ht))

theorem scalar_any {utf8 : Bytes → Bool} {t : Bytes} {v : Json} (h : Scalar utf8 F t v) : Scalar (fun _ => .true) F t v := by
  cases h with
  | null => exact Scalar.null
  | true => exact Scalar.true
  | false => exact Scalar.false
  | num hd hn => exact Scalar.num hd hn
  | str hs _ => exact Scalar.str hs rfl

theorem value_any {utf8 : Bytes → Bool} : ∀ (n : Nat) (t : Bytes) (v : Json), Value utf8 F n t v → Value (fun _ => true) F n t v
  | 0, _, _, h => scalar_any h
  | n + 1, t, v, h => by
    rcases h with h | ⟨b, l, a, rfl, hr, rfl, ha⟩ | ⟨b, l, o, rfl, hr, rfl, ho⟩
    · exact Or.inl (scalar_any h)
    · refine Or.inr (Or.inl ⟨b, l, a, rfl, ?_, rfl, ha⟩)
      rcases hr with hr | hr
      · exact Or.inl hr
      · exact Or.inr (row_mono (value_any n) hr)
    · refine Or.inr (Or.inr ⟨b, l, o, rfl, ?_, rfl, ho⟩)
      rcases hr with hr | hr
      · exact Or.inl hr
      · refine Or.inr (row_mono (fun t e he => ?_) hr)
        obtain ⟨s, w, w', t, rfl, hs, -, hw, hw', hp⟩ := he
        exact ⟨s, w, w', t, rfl, hs, rfl, hw, hw', value_any n _ _ hp⟩

/-- In a text that is UTF-8 the strings need not be checked. -/
theorem text_iff {n : Nat} {b : Bytes} (hb : IsUtf8 b) (v : Json) : Text utf8Ok F n b v ↔ Text (fun _ => true) F n b v := by
  constructor
  · rintro ⟨w, t, w', rfl, hw, hw', h⟩
    exact ⟨w, t, w', rfl, hw, hw', value_any n t v h⟩
  · rintro ⟨w, t, w', rfl, hw, hw', h⟩
    have := white_head hw' (b := []) (fun _ h => nomatch h)
    rw [List.append_nil] at this
    exact ⟨w, t, w', rfl, hw, hw', value_utf8 n t v ((IsUtf8.drop (white_ascii hw) hb).cut this).1 h⟩

/-- More levels may be allowed. -/
theorem value_succ {utf8 : Bytes → Bool} : ∀ (n : Nat) (t : Bytes) (v : Json), Value utf8 F n t v → Value utf8 F (n + 1) t v
  | 0, _, _, h => Or.inl h
  | n + 1, t, v, h => by
    rcases h with h | ⟨b, l, a, rfl, hr, rfl, ha⟩ | ⟨b, l, o, rfl, hr, rfl, ho⟩
    · exact Or.inl h
    · refine Or.inr (Or.inl ⟨b, l, a, rfl, ?_, rfl, ha⟩)
      rcases hr with hr | hr
      · exact Or.inl hr
      · exact Or.inr (row_mono (value_succ n) hr)
    · refine Or.inr (Or.inr ⟨b, l, o, rfl, ?_, rfl, ho⟩)
      rcases hr with hr | hr
      · exact Or.inl hr
      · refine Or.inr (row_mono (fun t e he => ?_) hr)
        obtain ⟨s, w, w', t, rfl, hs, hu, hw, hw', hp⟩ := he
        exact ⟨s, w, w', t, rfl, hs, hu, hw, hw', value_succ n _ _ hp⟩

theorem value_add {utf8 : Bytes → Bool} {n : Nat} {t : Bytes} {v : Json} (h : Value utf8 F n t v) : ∀ k, Value utf8 F (n + k) t v
  | 0 => h
  | k + 1 => value_succ _ _ _ (value_add h k)

theorem text_mono {utf8 : Bytes → Bool} {n m : Nat} {b : Bytes} {v : Json} (hnm : n ≤ m) (h : Text utf8 F n b v) : Text utf8 F m b v := by
  obtain ⟨w, t, w', rfl, hw, hw', h⟩ := h
  have := value_add h (m - n)
  rw [Nat.add_sub_cancel' hnm] at this
  exact ⟨w, t, w', rfl, hw, hw', this⟩

/-- A text stands for one value. -/
theorem text_unique {utf8 : Bytes → Bool} {n m : Nat} {b : Bytes} {v w : Json} (hv : Text utf8 F n b v) (hw : Text utf8 F m b w) : v = w := by
  have h1 := (all_iff (n + m) b v).2 (text_mono (Nat.le_add_right n m) hv)
  have h2 := (all_iff (n + m) b w).2 (text_mono (Nat.le_add_left m n) hw)
  exact Option.some.inj (h1.symm.trans h2)

end JsonGrammar
end IndraDB
