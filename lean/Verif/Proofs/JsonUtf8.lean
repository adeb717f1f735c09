import Verif.Proofs.JsonText
/-
The text of a value is UTF-8.
-/
namespace IndraDB

/-- UTF-8: the bytes of a list of characters. -/
def IsUtf8 (b : Bytes) : Prop := b.toByteArray.IsValidUTF8

theorem utf8Ok_iff {b : Bytes} : utf8Ok b = true ↔ IsUtf8 b := decide_eq_true_iff

namespace IsUtf8

theorem nil : IsUtf8 [] := ⟨[], rfl⟩

theorem append {a b : Bytes} (ha : IsUtf8 a) (hb : IsUtf8 b) : IsUtf8 (a ++ b) := by
  unfold IsUtf8 at *
  rw [List.toByteArray_append]
  exact ha.append hb

theorem ascii1 {x : UInt8} (h : x.toNat < 128) : IsUtf8 [x] := by
  refine ⟨[Char.ofNat x.toNat], ?_⟩
  have hv : x.toNat.isValidChar := Or.inl (by omega)
  have h1 : (Char.ofNat x.toNat).val.toNat = x.toNat := by
    rw [Char.ofNat, dif_pos hv]
    rfl
  rw [List.utf8Encode_singleton]
  congr 1
  unfold String.utf8EncodeChar
  simp only [h1]
  rw [if_pos (by omega)]
  simp

theorem ascii {b : Bytes} (h : ∀ x ∈ b, x.toNat < 128) : IsUtf8 b := by
  induction b with
  | nil => exact nil
  | cons x b ih => exact append (a := [x]) (ascii1 (h x List.mem_cons_self)) (ih fun y hy => h y (List.mem_cons_of_mem _ hy))

theorem cons {x : UInt8} {b : Bytes} (h : x.toNat < 128) (hb : IsUtf8 b) : IsUtf8 (x :: b) := append (a := [x]) (ascii1 h) hb

end IsUtf8

/-- A character is one byte below 128 or bytes that are all above. -/
theorem char_bytes (c : Char) : (∃ x : UInt8, x.toNat < 128 ∧ String.utf8EncodeChar c = [x]) ∨
    ∀ x ∈ String.utf8EncodeChar c, 128 ≤ x.toNat := by
  unfold String.utf8EncodeChar
  dsimp only
  have key : ∀ n, n < 256 → (UInt8.ofNat n).toNat = n := fun n h => by simp [UInt8.toNat_ofNat']; omega
  split
  · rename_i h
    exact Or.inl ⟨_, by rw [key _ (by omega)]; omega, rfl⟩
  · right
    intro x hx
    have : ∃ n, n < 256 ∧ 128 ≤ n ∧ x = UInt8.ofNat n := by
      split at hx
      · simp only [List.mem_cons, List.not_mem_nil, or_false] at hx
        rcases hx with rfl | rfl
        · exact ⟨_, by omega, by omega, rfl⟩
        · exact ⟨_, by omega, by omega, rfl⟩
      · split at hx
        · simp only [List.mem_cons, List.not_mem_nil, or_false] at hx
          rcases hx with rfl | rfl | rfl
          · exact ⟨_, by omega, by omega, rfl⟩
          · exact ⟨_, by omega, by omega, rfl⟩
          · exact ⟨_, by omega, by omega, rfl⟩
        · simp only [List.mem_cons, List.not_mem_nil, or_false] at hx
          rcases hx with rfl | rfl | rfl | rfl
          · exact ⟨_, by omega, by omega, rfl⟩
          · exact ⟨_, by omega, by omega, rfl⟩
          · exact ⟨_, by omega, by omega, rfl⟩
          · exact ⟨_, by omega, by omega, rfl⟩
    obtain ⟨n, h1, h2, rfl⟩ := this
    rw [key n h1]; exact h2

theorem escapeByte_high {x : UInt8} (h : 128 ≤ x.toNat) : escapeByte x = [x] := by
  have hne : ∀ y : UInt8, y.toNat < 128 → x ≠ y := fun y hy e => by subst e; omega
  unfold escapeByte
  rw [if_neg (hne 34 (by decide)), if_neg (hne 92 (by decide)), if_neg (hne 8 (by decide)), if_neg (hne 9 (by decide)),
    if_neg (hne 10 (by decide)), if_neg (hne 12 (by decide)), if_neg (hne 13 (by decide)), if_neg (by omega)]

theorem escapeByte_low {x : UInt8} (h : x.toNat < 128) : ∀ y ∈ escapeByte x, y.toNat < 128 := by
  have : ∀ n : Fin 128, ∀ y ∈ escapeByte (UInt8.ofNat n.val), y.toNat < 128 := by decide +kernel
  have h2 := this ⟨x.toNat, h⟩
  rwa [show UInt8.ofNat x.toNat = x by simp] at h2

theorem escapeAll_append_high : ∀ {a : Bytes}, (∀ x ∈ a, 128 ≤ x.toNat) → ∀ b, escapeAll (a ++ b) = a ++ escapeAll b
  | [], _, _ => rfl
  | x :: a, h, b => by
    show escapeByte x ++ escapeAll (a ++ b) = _
    rw [escapeByte_high (h x List.mem_cons_self), escapeAll_append_high (fun y hy => h y (List.mem_cons_of_mem _ hy)) b]
    rfl

theorem toByteArray_inj {a b : Bytes} (h : a.toByteArray = b.toByteArray) : a = b := by
  have := congrArg (fun x => x.data.toList) h
  simpa using this

theorem escapeAll_utf8 {s : Bytes} (h : IsUtf8 s) : IsUtf8 (escapeAll s) := by
  obtain ⟨m, hm⟩ := h
  have : s = m.flatMap String.utf8EncodeChar := toByteArray_inj hm
  subst this
  clear hm
  induction m with
  | nil => exact IsUtf8.ascii1 (by decide)
  | cons c m ih =>
    rw [List.flatMap_cons]
    rcases char_bytes c with ⟨x, hx, e⟩ | hc
    · rw [e]
      exact IsUtf8.append (IsUtf8.ascii (escapeByte_low hx)) ih
    · rw [escapeAll_append_high hc]
      exact IsUtf8.append ⟨[c], List.utf8Encode_singleton.symm⟩ ih

theorem AllDigits.utf8 {d : Bytes} (h : AllDigits d) : ∀ x ∈ d, x.toNat < 128 := fun x hx => by have := h x hx; omega

theorem Decimal.Proper.utf8 {d : Decimal} (h : d.Proper) : IsUtf8 d.text := by
  unfold Decimal.text
  refine IsUtf8.append ?_ (IsUtf8.append (IsUtf8.ascii h.int.1.utf8) (IsUtf8.append ?_ ?_))
  · split
    · exact IsUtf8.ascii1 (by decide)
    · exact IsUtf8.nil
  · split
    · exact IsUtf8.nil
    · exact IsUtf8.cons (by decide) (IsUtf8.ascii h.frac.utf8)
  · cases he : d.exp with
    | none => exact IsUtf8.nil
    | some p =>
      obtain ⟨neg, e⟩ := p
      refine IsUtf8.cons (by decide) (IsUtf8.append ?_ (IsUtf8.ascii (h.exp neg e he).1.utf8))
      split
      · exact IsUtf8.ascii1 (by decide)
      · exact IsUtf8.nil

theorem quoted_utf8 {s : Bytes} (h : IsUtf8 s) : IsUtf8 (quoted s) := IsUtf8.cons (by decide) (escapeAll_utf8 h)

theorem comma_utf8 (first : Bool) : IsUtf8 (comma first) := by
  cases first
  · exact IsUtf8.ascii1 (by decide)
  · exact IsUtf8.nil

section
variable {F : Floats} (hF : F.Proper)
include hF

mutual
theorem text_utf8 : ∀ v : Json, v.Typed utf8Ok → IsUtf8 (v.text F)
  | .null, _ => IsUtf8.ascii (b := [110, 117, 108, 108]) (by decide)
  | .bool true, _ => IsUtf8.ascii (b := [116, 114, 117, 101]) (by decide)
  | .bool false, _ => IsUtf8.ascii (b := [102, 97, 108, 115, 101]) (by decide)
  | .num (.posInt _), _ => IsUtf8.ascii (JsonRead.digitsOf_all _ _).utf8
  | .num (.negInt _), _ => IsUtf8.cons (by decide) (IsUtf8.ascii (JsonRead.digitsOf_all _ _).utf8)
  | .num (.float f), _ => (hF f).utf8
  | .str s, h => quoted_utf8 (utf8Ok_iff.1 h)
  | .arr a, h => IsUtf8.cons (by decide) (arr_utf8 a true h)
  | .obj o, h => IsUtf8.cons (by decide) (obj_utf8 o true h)
theorem arr_utf8 : ∀ (a : JArr) (first : Bool), a.Typed utf8Ok → IsUtf8 (a.text F first)
  | .nil, _, _ => IsUtf8.ascii1 (by decide)
  | .cons v r, first, h => IsUtf8.append (comma_utf8 first) (IsUtf8.append (text_utf8 v h.1) (arr_utf8 r false h.2))
theorem obj_utf8 : ∀ (o : JObj) (first : Bool), o.Typed utf8Ok → IsUtf8 (o.text F first)
  | .nil, _, _ => IsUtf8.ascii1 (by decide)
  | .cons k v r, first, h => IsUtf8.append (comma_utf8 first)
    (IsUtf8.append (IsUtf8.append (quoted_utf8 (utf8Ok_iff.1 h.1)) (IsUtf8.cons (by decide) (text_utf8 v h.2.2.1)))
      (obj_utf8 r false h.2.2.2))
end

theorem serdeText_print {v : Json} (h : v.Typed utf8Ok) : strBytes ((serdeText F).print v) = v.text F := by
  show strBytes (if h : (v.text F).toByteArray.IsValidUTF8 then String.ofByteArray (v.text F).toByteArray h else "") = _
  rw [dif_pos (show (v.text F).toByteArray.IsValidUTF8 from text_utf8 hF v h)]
  show (String.ofByteArray _ _).toByteArray.data.toList = _
  simp

theorem serdeText_back {v : Json} (h : v.Typed utf8Ok) :
    (serdeText F).parse ((serdeText F).print v) = if v.levels ≤ 127 then v.back F else none := by
  show JsonRead.all utf8Ok F 128 (strBytes ((serdeText F).print v)) = _
  rw [serdeText_print hF h]
  exact JsonRead.all_text hF h 127

end
end IndraDB
