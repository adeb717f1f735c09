import Verif.Spec.JsonText
import Verif.Proofs.Msgpack
/-
Reading JSON text back.
-/
namespace IndraDB
open Unpack
namespace JsonRead

/-- What may follow a value: the end, a comma, a bracket or a brace. -/
def Ends : Bytes → Prop
  | [] => True
  | x :: _ => x = 44 ∨ x = 93 ∨ x = 125

/-- The reader does with `w`, whatever follows, what `o` says: it returns the value and takes exactly `w`, or fails. -/
def Does {α : Type} (p : Unpack α) (w : Bytes) (o : Option α) : Prop := ∀ r, Ends r → p (w ++ r) = o.map (·, r)

/-- The same if anything follows. -/
def DoesAny {α : Type} (p : Unpack α) (w : Bytes) (o : Option α) : Prop := ∀ r, p (w ++ r) = o.map (·, r)

/-! ### Digits -/

theorem isDigit_iff {x : UInt8} : isDigit x = true ↔ 48 ≤ x.toNat ∧ x.toNat ≤ 57 := by
  simp [isDigit]

/-- Not a digit comes next. -/
def NoDigit : Bytes → Prop
  | [] => True
  | x :: _ => isDigit x = false

theorem digitRun_append {r : Bytes} (hr : NoDigit r) : ∀ {d : Bytes}, AllDigits d → digitRun (d ++ r) = (d, r)
  | [], _ => by
    cases r with
    | nil => rfl
    | cons x r => simp only [List.nil_append, digitRun, show isDigit x = false from hr]; rfl
  | x :: d, h => by
    have h1 : isDigit x = true := isDigit_iff.2 (h x List.mem_cons_self)
    have h2 := digitRun_append hr (d := d) (fun y hy => h y (List.mem_cons_of_mem _ hy))
    simp only [List.cons_append, digitRun, h1, h2, if_true]

theorem digits_append {d r : Bytes} (hd : AllDigits d) (hne : d ≠ []) (hr : NoDigit r) : digits (d ++ r) = some (d, r) := by
  unfold digits
  rw [digitRun_append hr hd, if_neg hne]

theorem digitChar {n : Nat} (h : n < 10) : (UInt8.ofNat (48 + n)).toNat = 48 + n := by
  simp [UInt8.toNat_ofNat']; omega

theorem digitsOf_all : ∀ k n, AllDigits (digitsOf k n)
  | 0, _ => fun _ h => nomatch h
  | k + 1, n => by
    unfold digitsOf
    split
    · rename_i h
      intro x hx
      rw [List.mem_singleton] at hx
      subst hx
      rw [digitChar h]; omega
    · intro x hx
      rcases List.mem_append.1 hx with hx | hx
      · exact digitsOf_all k _ x hx
      · rw [List.mem_singleton] at hx
        subst hx
        rw [digitChar (by omega)]; omega

theorem digitsOf_ne (k n : Nat) : digitsOf (k + 1) n ≠ [] := by
  unfold digitsOf
  split <;> simp

theorem decVal_append (a b : Bytes) : ∀ acc, decVal acc (a ++ b) = decVal (decVal acc a) b := by
  induction a with
  | nil => intro acc; rfl
  | cons x a ih => intro acc; exact ih _

theorem decVal_one {n : Nat} (h : n < 10) (acc : Nat) : decVal acc [UInt8.ofNat (48 + n)] = acc * 10 + n := by
  show acc * 10 + ((UInt8.ofNat (48 + n)).toNat - 48) = acc * 10 + n
  rw [digitChar h, Nat.add_sub_cancel_left]

theorem decVal_digitsOf : ∀ k n, n < 10 ^ k → decVal 0 (digitsOf k n) = n
  | 0, n, h => by
    rw [Nat.pow_zero] at h
    have : n = 0 := by omega
    subst this; rfl
  | k + 1, n, h => by
    rw [digitsOf]
    by_cases h1 : n < 10
    · rw [if_pos h1, decVal_one h1, Nat.zero_mul, Nat.zero_add]
    · have h2 : n / 10 < 10 ^ k := Nat.div_lt_of_lt_mul (by rw [Nat.pow_succ, Nat.mul_comm] at h; exact h)
      rw [if_neg h1, decVal_append, decVal_digitsOf k (n / 10) h2, decVal_one (Nat.mod_lt _ (by decide)), Nat.mul_comm,
        Nat.div_add_mod]

/-- No zero in front. -/
theorem digitsOf_head : ∀ k n, n < 10 ^ k → (digitsOf k n).head? = some 48 → digitsOf k n = [48]
  | 0, n, _, h => by simp [digitsOf] at h
  | k + 1, n, hn, h => by
    unfold digitsOf at h ⊢
    split
    · rename_i h1
      rw [if_pos h1] at h
      simp only [List.head?_cons, Option.some.injEq] at h
      rw [h]
    · rename_i h1
      rw [if_neg h1] at h
      have hk : n / 10 < 10 ^ k := Nat.div_lt_of_lt_mul (by rw [Nat.pow_succ, Nat.mul_comm] at hn; exact hn)
      have h2 : digitsOf k (n / 10) ≠ [] := by
        cases k with
        | zero => rw [Nat.pow_zero] at hk; omega
        | succ k => exact digitsOf_ne k _
      have h3 : (digitsOf k (n / 10)).head? = some 48 := by
        cases hd : digitsOf k (n / 10) with
        | nil => exact absurd hd h2
        | cons x r => rw [hd] at h; exact h
      have h4 := digitsOf_head k _ hk h3
      have h5 := decVal_digitsOf k _ hk
      rw [h4] at h5
      have h6 : n / 10 = 0 := h5.symm
      clear h5 hk hn h
      omega

/-! ### Numbers -/

theorem accept_no {x : UInt8} : ∀ {r : Bytes}, r.head? ≠ some x → accept x r = some (false, r)
  | [], _ => rfl
  | y :: r, h => by
    have : y ≠ x := fun e => h (by rw [e]; rfl)
    simp only [accept, this, if_false]

theorem accept_yes (x : UInt8) (r : Bytes) : accept x (x :: r) = some (true, r) := by simp only [accept, if_true]

theorem ends_head {r : Bytes} (h : Ends r) {x : UInt8} (hx : r.head? = some x) : x = 44 ∨ x = 93 ∨ x = 125 := by
  cases r with
  | nil => cases hx
  | cons y r => cases hx; exact h

theorem ends_noDigit {r : Bytes} (h : Ends r) : NoDigit r := by
  cases r with
  | nil => trivial
  | cons x r =>
    rcases h with rfl | rfl | rfl <;> rfl

theorem digits_head {d : Bytes} (h : AllDigits d) {x : UInt8} {r : Bytes} (hx : (d ++ r).head? = some x) (hne : d ≠ []) :
    48 ≤ x.toNat ∧ x.toNat ≤ 57 := by
  cases d with
  | nil => exact absurd rfl hne
  | cons y d => cases hx; exact h _ List.mem_cons_self

/-- The rest of a float after its digits. -/
theorem exponent_text {e : Option (Bool × Bytes)} {r : Bytes} (hr : Ends r)
    (he : ∀ neg d, e = some (neg, d) → AllDigits d ∧ d ≠ []) :
    exponent ((match e with
     | none => []
     | some (neg, e) => 101 :: ((if neg then [45] else []) ++ e)) ++ r) = some (e, r) := by
  cases e with
  | none =>
    unfold exponent
    have h1 : accept 101 r = some (false, r) := accept_no (fun h => by rcases ends_head hr h with h | h | h <;> exact absurd h (by decide))
    have h2 : accept 69 r = some (false, r) := accept_no (fun h => by rcases ends_head hr h with h | h | h <;> exact absurd h (by decide))
    simp only [List.nil_append, Unpack.bind, h1, h2, Bool.false_eq_true, if_false]
    rfl
  | some p =>
    obtain ⟨neg, d⟩ := p
    obtain ⟨hd, hne⟩ := he neg d rfl
    have h1 := digits_append hd hne (ends_noDigit hr)
    cases neg with
    | true =>
      have h2 : ∀ s, accept 43 (45 :: s) = some (false, 45 :: s) := fun s => accept_no (by simp)
      simp only [exponent, Unpack.bind, List.cons_append, accept_yes, if_true, Unpack.ret, List.nil_append, h2,
        Bool.false_eq_true, if_false, h1]
    | false =>
      have h2 : accept 43 (d ++ r) = some (false, d ++ r) := accept_no (fun h => by
        have := digits_head hd h hne
        exact absurd this (by decide))
      have h3 : accept 45 (d ++ r) = some (false, d ++ r) := accept_no (fun h => by
        have := digits_head hd h hne
        exact absurd this (by decide))
      simp only [exponent, Unpack.bind, List.cons_append, accept_yes, if_true, Unpack.ret, List.nil_append, h2,
        Bool.false_eq_true, if_false, h1, h3]

/-- The text of an exponent, or nothing. -/
def expText : Option (Bool × Bytes) → Bytes
  | none => []
  | some (neg, e) => 101 :: ((if neg then [45] else []) ++ e)

theorem expText_head {e : Option (Bool × Bytes)} {r : Bytes} (hr : Ends r) {x : UInt8} (h : (expText e ++ r).head? = some x) :
    x = 101 ∨ x = 44 ∨ x = 93 ∨ x = 125 := by
  cases e with
  | none => exact Or.inr (ends_head hr h)
  | some p => cases h; exact Or.inl rfl

theorem head_noDigit {b : Bytes} (h : ∀ x, b.head? = some x → isDigit x = false) : NoDigit b := by
  cases b with
  | nil => trivial
  | cons x b => exact h x rfl

theorem number_text (F : Floats) {d : Decimal} (hi : AllDigits d.int ∧ d.int ≠ [] ∧ (d.int.head? = some 48 → d.int = [48]))
    (hf : AllDigits d.frac) (he : ∀ neg e, d.exp = some (neg, e) → AllDigits e ∧ e ≠ []) (r : Bytes) (hr : Ends r) :
    number F d.neg ((d.int ++ ((if d.frac = [] then [] else 46 :: d.frac) ++ expText d.exp)) ++ r) =
      (numOf F d).map (·, r) := by
  obtain ⟨neg, i, f, e⟩ := d
  simp only at *
  have hx := exponent_text hr he
  have hx : exponent (expText e ++ r) = some (e, r) := by
    cases e with
    | none => exact hx
    | some p => exact hx
  have hd : ∀ x, (expText e ++ r).head? = some x → isDigit x = false := fun x h => by
    rcases expText_head hr h with rfl | rfl | rfl | rfl <;> rfl
  have hfr : fraction (((if f = [] then [] else 46 :: f) ++ expText e) ++ r) = some (f, expText e ++ r) := by
    unfold fraction
    by_cases h : f = []
    · subst h
      simp only [if_true, List.nil_append, Unpack.bind]
      rw [accept_no (fun h => by rcases expText_head hr h with h | h | h | h <;> exact absurd h (by decide))]
      rfl
    · simp only [h, if_false, Unpack.bind, List.cons_append, accept_yes, if_true, List.append_assoc]
      exact digits_append hf h (head_noDigit hd)
  have hin : NoDigit (((if f = [] then [] else 46 :: f) ++ expText e) ++ r) := head_noDigit (fun x h => by
    by_cases hf' : f = []
    · simp only [hf', if_true, List.nil_append] at h; exact hd x h
    · simp only [hf', if_false, List.cons_append, List.head?_cons, Option.some.injEq] at h; subst h; rfl)
  have hdi := digits_append hi.1 hi.2.1 hin
  unfold number
  rw [List.append_assoc]
  simp only [Unpack.bind, hdi]
  rw [if_neg (fun h => h.2 (hi.2.2 h.1))]
  simp only [Unpack.bind, hfr, hx]
  cases numOf F ⟨neg, i, f, e⟩ with
  | none => rfl
  | some n => rfl

theorem ofNat_digits (F : Floats) (neg : Bool) {n k : Nat} (hn : n < 10 ^ (k + 1)) (r : Bytes) (hr : Ends r) :
    number F neg (digitsOf (k + 1) n ++ r) = (numOf F ⟨neg, digitsOf (k + 1) n, [], none⟩).map (·, r) := by
  have := number_text F (d := ⟨neg, digitsOf (k + 1) n, [], none⟩)
    ⟨digitsOf_all _ _, digitsOf_ne _ _, digitsOf_head _ _ hn⟩ (fun _ h => nomatch h) (fun _ _ h => nomatch h) r hr
  simpa only [if_true, expText, List.append_nil] using this

theorem numOf_pos (F : Floats) (n : Fin 18446744073709551616) : numOf F ⟨false, digitsOf 20 n.val, [], none⟩ = some (.posInt n) := by
  have h := decVal_digitsOf 20 n.val (Nat.lt_trans n.isLt (by decide))
  have h2 := n.isLt
  unfold numOf
  simp only [and_self, if_true, Bool.false_eq_true, if_false, h, h2, dif_pos]

theorem numOf_neg (F : Floats) (n : Fin 9223372036854775808) :
    numOf F ⟨true, digitsOf 20 (n.val + 1), [], none⟩ = some (.negInt n) := by
  have h := decVal_digitsOf 20 (n.val + 1) (Nat.lt_trans (Nat.succ_lt_succ n.isLt) (by decide))
  have h2 : 0 < n.val + 1 ∧ n.val + 1 ≤ 9223372036854775808 := ⟨Nat.succ_pos _, n.isLt⟩
  unfold numOf
  simp only [and_self, if_true, h, h2, dif_pos, Nat.add_sub_cancel]

theorem numOf_float (F : Floats) {d : Decimal} (h : d.frac ≠ [] ∨ d.exp ≠ none) : numOf F d = (F.parse d).map .float := by
  unfold numOf
  rw [if_neg (fun e => by rcases h with h | h; exact h e.1; exact h e.2)]

/-- The first byte of a text decides what is read. -/
theorem skip_cons {x : UInt8} (h1 : x ≠ 32) (h2 : x ≠ 10) (h3 : x ≠ 9) (h4 : x ≠ 13) (r : Bytes) : skip (x :: r) = x :: r := by
  simp [skip, h1, h2, h3, h4]

section
variable {utf8 : Bytes → Bool} {F : Floats}

theorem json_minus (c : Nat) (b : Bytes) : json utf8 F (c + 1) (45 :: b) = ((number F true).bind fun n => ret (.num n)) b := rfl

theorem json_digit (c : Nat) {x : UInt8} (hx : 48 ≤ x.toNat ∧ x.toNat ≤ 57) (b : Bytes) :
    json utf8 F (c + 1) (x :: b) = ((number F false).bind fun n => ret (.num n)) (x :: b) := by
  have hne : ∀ y : UInt8, y.toNat < 48 ∨ 57 < y.toNat → x ≠ y := fun y hy e => by subst e; omega
  simp only [json, Unpack.bind, ws, skip_cons (hne 32 (by decide)) (hne 10 (by decide)) (hne 9 (by decide)) (hne 13 (by decide)),
    Unpack.byte, hne 110 (by decide), hne 116 (by decide), hne 102 (by decide), hne 45 (by decide), if_false, isDigit_iff.2 hx, if_true]

theorem num_does (hF : F.Proper) (c : Nat) (n : Num) : Does (json utf8 F (c + 1)) (n.text F) ((n.back F).map .num) := by
  intro r hr
  have start : ∀ (d b : Bytes), AllDigits d → d ≠ [] → json utf8 F (c + 1) (d ++ b) = ((number F false).bind fun n => ret (.num n)) (d ++ b) := by
    intro d b hd hne
    cases d with
    | nil => exact absurd rfl hne
    | cons x d => exact json_digit c (hd x List.mem_cons_self) _
  cases n with
  | posInt n =>
    simp only [Num.text, Num.back]
    rw [start _ _ (digitsOf_all _ _) (digitsOf_ne _ _)]
    unfold Unpack.bind
    rw [ofNat_digits F false (Nat.lt_trans n.isLt (by decide)) r hr, numOf_pos]
    rfl
  | negInt m =>
    simp only [Num.text, Num.back, List.cons_append]
    rw [json_minus]
    unfold Unpack.bind
    rw [ofNat_digits F true (Nat.lt_trans (Nat.succ_lt_succ m.isLt) (by decide)) r hr, numOf_neg]
    rfl
  | float f =>
    have hp := hF f
    have hn := number_text F hp.int hp.frac hp.exp r hr
    rw [numOf_float F hp.float] at hn
    have ht : (F.print f).text = (if (F.print f).neg then [45] else []) ++ ((F.print f).int ++
        ((if (F.print f).frac = [] then [] else 46 :: (F.print f).frac) ++ expText (F.print f).exp)) := by
      unfold Decimal.text
      cases (F.print f).exp with
      | none => rfl
      | some p => rfl
    simp only [Num.text, Num.back, Floats.back, ht]
    cases hneg : (F.print f).neg with
    | true =>
      rw [hneg] at hn
      simp only [if_true, List.cons_append, List.nil_append, json_minus]
      unfold Unpack.bind
      rw [hn]
      cases F.parse (F.print f) <;> rfl
    | false =>
      rw [hneg] at hn
      simp only [Bool.false_eq_true, if_false, List.nil_append]
      rw [List.append_assoc, start _ _ hp.int.1 hp.int.2.1, ← List.append_assoc]
      unfold Unpack.bind
      rw [hn]
      cases F.parse (F.print f) <;> rfl

end

/-! ### Strings -/

theorem bind_some {α β : Type} {p : Unpack α} {f : α → Unpack β} {b r : Bytes} {a : α} (h : p b = some (a, r)) :
    p.bind f b = f a r := by
  unfold Unpack.bind
  rw [h]

theorem bind_none {α β : Type} {p : Unpack α} {f : α → Unpack β} {b : Bytes} (h : p b = none) : p.bind f b = none := by
  unfold Unpack.bind
  rw [h]

theorem hexVal_hexDigit {n : Nat} (h : n < 16) : hexVal (hexDigit n) = some n := by
  have : ∀ n : Fin 16, hexVal (hexDigit n.val) = some n.val := by decide
  exact this ⟨n, h⟩

theorem hex1_hexDigit {n : Nat} (h : n < 16) (r : Bytes) : hex1 (hexDigit n :: r) = some (n, r) := by
  show hex1 (hexDigit n :: r) = _
  unfold hex1
  rw [bind_some (show byte (hexDigit n :: r) = some (hexDigit n, r) from rfl)]
  rw [hexVal_hexDigit h]
  rfl

theorem escape_control {x : UInt8} (h : x.toNat < 32) (r : Bytes) :
    escape (117 :: 48 :: 48 :: hexDigit (x.toNat / 16) :: hexDigit (x.toNat % 16) :: r) = some ([x], r) := by
  show unicode _ = _
  unfold unicode
  have h0 : ∀ s, hex1 (48 :: s) = some (0, s) := fun s => rfl
  have h4 : hex4 (48 :: 48 :: hexDigit (x.toNat / 16) :: hexDigit (x.toNat % 16) :: r) = some (x.toNat, r) := by
    unfold hex4
    rw [bind_some (h0 _), bind_some (h0 _), bind_some (hex1_hexDigit (by omega) _), bind_some (hex1_hexDigit (by omega) _)]
    show some (_, r) = some (_, r)
    have : ((0 * 16 + 0) * 16 + x.toNat / 16) * 16 + x.toNat % 16 = x.toNat := by omega
    rw [this]
  rw [bind_some h4, if_neg (by omega), if_neg (by omega)]
  show some (utf8Of x.toNat, r) = _
  unfold utf8Of
  rw [if_pos (by omega)]
  simp

theorem strRest_byte (n : Nat) (x : UInt8) (b : Bytes) :
    strRest (n + 1) (escapeByte x ++ b) = ((strRest n).bind fun s => ret (x :: s)) b := by
  unfold escapeByte
  split
  · rename_i h; subst h; rfl
  split
  · rename_i h; subst h; rfl
  split
  · rename_i h; subst h; rfl
  split
  · rename_i h; subst h; rfl
  split
  · rename_i h; subst h; rfl
  split
  · rename_i h; subst h; rfl
  split
  · rename_i h; subst h; rfl
  split
  · rename_i h
    show (escape.bind fun e => (strRest n).bind fun s => ret (e ++ s))
      (117 :: 48 :: 48 :: hexDigit (x.toNat / 16) :: hexDigit (x.toNat % 16) :: b) = _
    rw [bind_some (escape_control h b)]
    rfl
  · rename_i h1 h2 _ _ _ _ _ h3
    show (if x = 34 then _ else if x = 92 then _ else if x.toNat < 32 then _ else _ : Unpack Bytes) b = _
    rw [if_neg h1, if_neg h2, if_neg h3]

theorem strRest_text : ∀ (s : Bytes) (n : Nat) (r : Bytes), s.length ≤ n → strRest (n + 1) (escapeAll s ++ r) = some (s, r)
  | [], n, r, _ => rfl
  | x :: s, 0, r, h => by simp at h
  | x :: s, n + 1, r, h => by
    rw [escapeAll, List.append_assoc, strRest_byte, bind_some (strRest_text s n r (by simpa using h))]
    rfl

theorem escapeByte_pos (x : UInt8) : 1 ≤ (escapeByte x).length := by
  unfold escapeByte
  repeat' split
  all_goals simp

theorem escapeAll_length : ∀ s : Bytes, s.length ≤ (escapeAll s).length
  | [] => Nat.zero_le _
  | x :: s => by
    have := escapeAll_length s
    have := escapeByte_pos x
    simp only [escapeAll, List.length_append, List.length_cons]
    omega

theorem str_text {utf8 : Bytes → Bool} {s : Bytes} (hu : utf8 s = true) (r : Bytes) : str utf8 (escapeAll s ++ r) = some (s, r) := by
  unfold str
  have h : (fun b : Bytes => strRest (b.length + 1) b) (escapeAll s ++ r) = some (s, r) :=
    strRest_text s _ r (by have := escapeAll_length s; simp only [List.length_append]; omega)
  rw [bind_some (p := fun b : Bytes => strRest (b.length + 1) b) h, if_pos hu]
  rfl

/-! ### Values -/

mutual
/-- A value that is written and then read with at most `c` levels. -/
def backAt (F : Floats) : Json → Nat → Option Json
  | .num n, _ => (n.back F).map .num
  | .arr a, c => if c = 0 then none else (backArr F a (c - 1)).map .arr
  | .obj o, c => if c = 0 then none else (backObj F o (c - 1)).map .obj
  | v, _ => some v
def backArr (F : Floats) : JArr → Nat → Option JArr
  | .nil, _ => some .nil
  | .cons v r, c => (backAt F v c).bind fun v => (backArr F r c).map fun r => .cons v r
def backObj (F : Floats) : JObj → Nat → Option JObj
  | .nil, _ => some .nil
  | .cons k v r, c => (backAt F v c).bind fun v => (backObj F r c).map fun r => .cons k v r
end

section
variable {utf8 : Bytes → Bool} {F : Floats}

/-- The first byte of the text of a value. -/
def Starts (x : UInt8) : Prop := x = 110 ∨ x = 116 ∨ x = 102 ∨ x = 45 ∨ (48 ≤ x.toNat ∧ x.toNat ≤ 57) ∨ x = 34 ∨ x = 91 ∨ x = 123

theorem text_starts (hF : F.Proper) (v : Json) : ∃ x t, v.text F = x :: t ∧ Starts x := by
  have hd : ∀ d t : Bytes, AllDigits d → d ≠ [] → ∃ x t', d ++ t = x :: t' ∧ Starts x := by
    intro d t h hne
    cases d with
    | nil => exact absurd rfl hne
    | cons x d => exact ⟨x, d ++ t, rfl, by have := h x List.mem_cons_self; simp [Starts, this]⟩
  cases v with
  | null => exact ⟨_, _, rfl, by simp [Starts]⟩
  | bool b => cases b <;> exact ⟨_, _, rfl, by simp [Starts]⟩
  | str s => exact ⟨_, _, rfl, by simp [Starts]⟩
  | arr a => exact ⟨_, _, rfl, by simp [Starts]⟩
  | obj o => exact ⟨_, _, rfl, by simp [Starts]⟩
  | num n =>
    cases n with
    | posInt n =>
      have := hd (digitsOf 20 n.val) [] (digitsOf_all _ _) (digitsOf_ne _ _)
      rwa [List.append_nil] at this
    | negInt m => exact ⟨_, _, rfl, by simp [Starts]⟩
    | float f =>
      have hp := hF f
      show ∃ x t, (F.print f).text = _ ∧ _
      unfold Decimal.text
      cases (F.print f).neg with
      | true => exact ⟨45, _, rfl, by simp [Starts]⟩
      | false => exact hd (F.print f).int _ hp.int.1 hp.int.2.1

theorem starts_skip {x : UInt8} (h : Starts x) (r : Bytes) : skip (x :: r) = x :: r := by
  have h' : x ≠ 32 ∧ x ≠ 10 ∧ x ≠ 9 ∧ x ≠ 13 := by
    unfold Starts at h
    refine ⟨?_, ?_, ?_, ?_⟩ <;> (intro e; subst e; revert h; decide)
  exact skip_cons h'.1 h'.2.1 h'.2.2.1 h'.2.2.2 r

theorem starts_ne {x : UInt8} (h : Starts x) : x ≠ 93 ∧ x ≠ 125 ∧ x ≠ 44 := by
  unfold Starts at h
  refine ⟨?_, ?_, ?_⟩ <;> (intro e; subst e; revert h; decide)

/-- One more element of an array. -/
theorem items_cons {α : Type} {close : UInt8} {p : Unpack α} {w : Bytes} (n : Nat) (first : Bool) (hc : close ≠ 44)
    (hw : ∃ x t, w = x :: t ∧ Starts x ∧ x ≠ close) (b : Bytes) :
    items close p (n + 1) first (comma first ++ (w ++ b)) =
      (p.bind fun a => (items close p n false).bind fun l => ret (a :: l)) (w ++ b) := by
  obtain ⟨x, t, rfl, hs, hx⟩ := hw
  cases first with
  | true =>
    show items close p (n + 1) true (x :: (t ++ b)) = _
    rw [items]
    rw [bind_some (show ws (x :: (t ++ b)) = some ((), x :: (t ++ b)) by simp only [ws, starts_skip hs])]
    rw [bind_some (show byte (x :: (t ++ b)) = some (x, t ++ b) from rfl), if_neg hx, if_pos rfl]
    rfl
  | false =>
    show items close p (n + 1) false (44 :: (x :: (t ++ b))) = _
    rw [items]
    rw [bind_some (show ws (44 :: (x :: (t ++ b))) = some ((), 44 :: (x :: (t ++ b))) from rfl)]
    rw [bind_some (show byte (44 :: (x :: (t ++ b))) = some (44, x :: (t ++ b)) from rfl), if_neg (Ne.symm hc),
      if_neg (by decide), if_pos rfl]
    rw [bind_some (show ws (x :: (t ++ b)) = some ((), x :: (t ++ b)) by simp only [ws, starts_skip hs])]
    rfl

theorem items_nil {α : Type} {close : UInt8} {p : Unpack α} (n : Nat) (first : Bool)
    (h0 : close ≠ 32 ∧ close ≠ 10 ∧ close ≠ 9 ∧ close ≠ 13) (r : Bytes) : items close p (n + 1) first (close :: r) = some ([], r) := by
  rw [items]
  rw [bind_some (show ws (close :: r) = some ((), close :: r) by simp only [ws, skip_cons h0.1 h0.2.1 h0.2.2.1 h0.2.2.2])]
  rw [bind_some (show byte (close :: r) = some (close, r) from rfl), if_pos rfl]
  rfl

theorem text_pos (hF : F.Proper) (v : Json) : 1 ≤ (v.text F).length := by
  obtain ⟨x, t, h, _⟩ := text_starts hF v
  rw [h]; simp

theorem arr_length (hF : F.Proper) : ∀ (a : JArr) (first : Bool), a.length ≤ (a.text F first).length
  | .nil, _ => Nat.zero_le _
  | .cons v r, first => by
    have := arr_length hF r false
    have := text_pos hF v
    simp only [JArr.text, JArr.length, List.length_append]
    omega

theorem obj_length (hF : F.Proper) : ∀ (o : JObj) (first : Bool), o.length ≤ (o.text F first).length
  | .nil, _ => Nat.zero_le _
  | .cons k v r, first => by
    have := obj_length hF r false
    have := text_pos hF v
    simp only [JObj.text, JObj.length, List.length_append, List.length_cons]
    omega

theorem arr_ends (a : JArr) (r : Bytes) : Ends (a.text F false ++ r) := by
  cases a <;> simp [JArr.text, comma, Ends]

theorem obj_ends (o : JObj) (r : Bytes) : Ends (o.text F false ++ r) := by
  cases o <;> simp [JObj.text, comma, Ends]

/-- An entry of an object. -/
def entry (utf8 : Bytes → Bool) (F : Floats) (c : Nat) : Unpack (Bytes × Json) :=
  (expect 34).bind fun _ => (str utf8).bind fun k => ws.bind fun _ => (expect 58).bind fun _ => (json utf8 F c).bind fun v => ret (k, v)

theorem json_arr (c : Nat) (hc : c ≠ 0) (b : Bytes) : json utf8 F (c + 1) (91 :: b) =
    Unpack.bind (fun b => items 93 (json utf8 F c) (b.length + 1) true b) (fun l => ret (.arr (JArr.ofElems l))) b := by
  show (if c = 0 then fail else _ : Unpack Json) b = _
  rw [if_neg hc]

theorem json_arr_deep (b : Bytes) : json utf8 F 1 (91 :: b) = none := rfl

theorem json_obj (c : Nat) (hc : c ≠ 0) (b : Bytes) : json utf8 F (c + 1) (123 :: b) =
    Unpack.bind (fun b => items 125 (entry utf8 F c) (b.length + 1) true b) (fun l => ret (.obj (JObj.ofEntries .nil l))) b := by
  show (if c = 0 then fail else _ : Unpack Json) b = _
  rw [if_neg hc]
  rfl

theorem json_obj_deep (b : Bytes) : json utf8 F 1 (123 :: b) = none := rfl

mutual
theorem back_typed : ∀ (v : Json) (c : Nat) (w : Json), v.Typed utf8 → backAt F v c = some w → w.Typed utf8
  | .null, _, w, _, h => by cases h; trivial
  | .bool _, _, w, _, h => by cases h; trivial
  | .str _, _, w, ht, h => by cases h; exact ht
  | .num n, _, w, _, h => by
    simp only [backAt] at h
    cases hn : n.back F with
    | none => rw [hn] at h; cases h
    | some m => rw [hn] at h; cases h; trivial
  | .arr a, c, w, ht, h => by
    simp only [backAt] at h
    split at h
    · cases h
    · cases ha : backArr F a (c - 1) with
      | none => rw [ha] at h; cases h
      | some a' => rw [ha] at h; cases h; exact backArr_typed a _ a' ht ha
  | .obj o, c, w, ht, h => by
    simp only [backAt] at h
    split at h
    · cases h
    · cases ha : backObj F o (c - 1) with
      | none => rw [ha] at h; cases h
      | some o' => rw [ha] at h; cases h; exact (backObj_typed o _ o' ht ha).1
theorem backArr_typed : ∀ (v : JArr) (c : Nat) (w : JArr), v.Typed utf8 → backArr F v c = some w → w.Typed utf8
  | .nil, _, w, _, h => by cases h; trivial
  | .cons v r, c, w, ht, h => by
    simp only [backArr] at h
    cases hv : backAt F v c with
    | none => rw [hv] at h; cases h
    | some v' =>
      cases hr : backArr F r c with
      | none => rw [hv, hr] at h; cases h
      | some r' => rw [hv, hr] at h; cases h; exact ⟨back_typed v c v' ht.1 hv, backArr_typed r c r' ht.2 hr⟩
theorem backObj_typed : ∀ (v : JObj) (c : Nat) (w : JObj), v.Typed utf8 → backObj F v c = some w →
    w.Typed utf8 ∧ ∀ k, v.Above k → w.Above k
  | .nil, _, w, _, h => by cases h; exact ⟨trivial, fun _ _ => trivial⟩
  | .cons k v r, c, w, ht, h => by
    simp only [backObj] at h
    cases hv : backAt F v c with
    | none => rw [hv] at h; cases h
    | some v' =>
      cases hr : backObj F r c with
      | none => rw [hv, hr] at h; cases h
      | some r' =>
        rw [hv, hr] at h; cases h
        obtain ⟨h1, h2⟩ := backObj_typed r c r' ht.2.2.2 hr
        exact ⟨⟨ht.1, h2 _ ht.2.1, back_typed v c v' ht.2.2.1 hv, h1⟩, fun k' hk => ⟨hk.1, h2 _ hk.2⟩⟩
end

mutual
theorem does (hF : F.Proper) : ∀ (v : Json) (c : Nat), v.Typed utf8 → Does (json utf8 F (c + 1)) (v.text F) (backAt F v c)
  | .null, c, _ => fun r _ => rfl
  | .bool true, c, _ => fun r _ => rfl
  | .bool false, c, _ => fun r _ => rfl
  | .num n, c, _ => num_does hF c n
  | .str s, c, ht => fun r _ => by
    show (str utf8).bind (fun s => ret (Json.str s)) (escapeAll s ++ r) = _
    rw [bind_some (str_text (show utf8 s = true from ht) r)]
    rfl
  | .arr a, 0, _ => fun r _ => by
    show json utf8 F 1 (91 :: (a.text F true ++ r)) = _
    rw [json_arr_deep]; rfl
  | .obj o, 0, _ => fun r _ => by
    show json utf8 F 1 (123 :: (o.text F true ++ r)) = _
    rw [json_obj_deep]; rfl
  | .arr a, c + 1, ht => fun r _ => by
    show json utf8 F (c + 1 + 1) (91 :: (a.text F true ++ r)) = _
    rw [json_arr _ (by omega)]
    have h := arr_does hF a c true (a.text F true ++ r).length ht (by have := arr_length hF a true; simp only [List.length_append]; omega) r
    simp only [backAt, Nat.add_sub_cancel, show c + 1 ≠ 0 by omega, if_false]
    cases hb : backArr F a c with
    | none =>
      rw [hb] at h
      exact bind_none h
    | some a' =>
      rw [hb] at h
      rw [bind_some (p := fun b : Bytes => items 93 (json utf8 F (c + 1)) (b.length + 1) true b) h, JArr.ofElems_elems]
      rfl
  | .obj o, c + 1, ht => fun r _ => by
    show json utf8 F (c + 1 + 1) (123 :: (o.text F true ++ r)) = _
    rw [json_obj _ (by omega)]
    have h := obj_does hF o c true (o.text F true ++ r).length ht (by have := obj_length hF o true; simp only [List.length_append]; omega) r
    simp only [backAt, Nat.add_sub_cancel, show c + 1 ≠ 0 by omega, if_false]
    cases hb : backObj F o c with
    | none =>
      rw [hb] at h
      exact bind_none h
    | some o' =>
      rw [hb] at h
      rw [bind_some (p := fun b : Bytes => items 125 (entry utf8 F (c + 1)) (b.length + 1) true b) h,
        JObj.ofEntries_entries o' .nil (backObj_typed o c o' ht hb).1 (by cases o' <;> trivial)]
      rfl
theorem arr_does (hF : F.Proper) : ∀ (a : JArr) (c : Nat) (first : Bool) (n : Nat), a.Typed utf8 → a.length ≤ n → ∀ r,
    items 93 (json utf8 F (c + 1)) (n + 1) first (a.text F first ++ r) = (backArr F a c).map fun a => (a.elems, r)
  | .nil, c, first, n, _, _, r => items_nil n first (by decide) r
  | .cons v a, c, first, 0, _, hl, r => by simp only [JArr.length] at hl; omega
  | .cons v a, c, first, n + 1, ht, hl, r => by
    simp only [JArr.length] at hl
    have hv := does hF v c ht.1 (a.text F false ++ r) (arr_ends a r)
    have ha := arr_does hF a c false n ht.2 (by omega) r
    simp only [JArr.text, List.append_assoc]
    obtain ⟨x, t, e, hs⟩ := text_starts hF v
    rw [items_cons (n + 1) first (by decide) ⟨x, t, e, hs, (starts_ne hs).1⟩]
    simp only [backArr]
    cases hb : backAt F v c with
    | none =>
      rw [hb] at hv
      exact bind_none hv
    | some v' =>
      rw [hb] at hv
      rw [bind_some hv]
      cases hc : backArr F a c with
      | none =>
        rw [hc] at ha
        exact bind_none ha
      | some a' =>
        rw [hc] at ha
        rw [bind_some ha]
        rfl
theorem obj_does (hF : F.Proper) : ∀ (o : JObj) (c : Nat) (first : Bool) (n : Nat), o.Typed utf8 → o.length ≤ n → ∀ r,
    items 125 (entry utf8 F (c + 1)) (n + 1) first (o.text F first ++ r) = (backObj F o c).map fun o => (o.entries, r)
  | .nil, c, first, n, _, _, r => items_nil n first (by decide) r
  | .cons k v o, c, first, 0, _, hl, r => by simp only [JObj.length] at hl; omega
  | .cons k v o, c, first, n + 1, ht, hl, r => by
    simp only [JObj.length] at hl
    have hv := does hF v c ht.2.2.1 (o.text F false ++ r) (obj_ends o r)
    have ha := obj_does hF o c false n ht.2.2.2 (by omega) r
    have hk : ∀ b, entry utf8 F (c + 1) ((quoted k ++ 58 :: v.text F) ++ b) =
        ((json utf8 F (c + 1)).bind fun v => ret (k, v)) (v.text F ++ b) := fun b => by
      simp only [quoted, List.cons_append, List.append_assoc, entry]
      rw [bind_some (show expect 34 (34 :: (escapeAll k ++ 58 :: (v.text F ++ b))) = some ((), escapeAll k ++ 58 :: (v.text F ++ b)) from rfl)]
      rw [bind_some (str_text ht.1 _)]
      rw [bind_some (show ws (58 :: (v.text F ++ b)) = some ((), 58 :: (v.text F ++ b)) from rfl)]
      rw [bind_some (show expect 58 (58 :: (v.text F ++ b)) = some ((), v.text F ++ b) from rfl)]
    simp only [JObj.text, List.append_assoc (comma first)]
    have hs : Starts 34 := by simp [Starts]
    rw [List.append_assoc _ (o.text F false) r]
    rw [items_cons (w := quoted k ++ 58 :: v.text F) (n + 1) first (by decide) ⟨34, escapeAll k ++ 58 :: v.text F, rfl, hs, by decide⟩]
    simp only [backObj]
    cases hb : backAt F v c with
    | none =>
      rw [hb] at hv
      exact bind_none ((hk _).trans (bind_none hv))
    | some v' =>
      rw [hb] at hv
      rw [bind_some ((hk _).trans (bind_some hv))]
      cases hc : backObj F o c with
      | none =>
        rw [hc] at ha
        exact bind_none ha
      | some o' =>
        rw [hc] at ha
        rw [bind_some ha]
        rfl
end

mutual
theorem backAt_eq : ∀ (v : Json) (c : Nat), backAt F v c = if v.levels ≤ c then v.back F else none
  | .null, c | .bool _, c | .str _, c | .num _, c => by simp only [backAt, Json.levels, Json.back, Nat.zero_le, if_true]
  | .arr a, c => by
    rw [show (Json.arr a).levels = 1 + a.levels by rw [Json.levels]]
    simp only [backAt, Json.back]
    by_cases h : c = 0
    · rw [if_pos h, if_neg (by omega)]
    · rw [if_neg h, backArr_eq a]
      by_cases h2 : a.levels ≤ c - 1
      · rw [if_pos h2, if_pos (by omega)]
      · rw [if_neg h2, if_neg (by omega)]; rfl
  | .obj o, c => by
    rw [show (Json.obj o).levels = 1 + o.levels by rw [Json.levels]]
    simp only [backAt, Json.back]
    by_cases h : c = 0
    · rw [if_pos h, if_neg (by omega)]
    · rw [if_neg h, backObj_eq o]
      by_cases h2 : o.levels ≤ c - 1
      · rw [if_pos h2, if_pos (by omega)]
      · rw [if_neg h2, if_neg (by omega)]; rfl
theorem backArr_eq : ∀ (v : JArr) (c : Nat), backArr F v c = if v.levels ≤ c then v.back F else none
  | .nil, c => by simp only [backArr, JArr.levels, JArr.back, Nat.zero_le, if_true]
  | .cons v r, c => by
    rw [show (JArr.cons v r).levels = max v.levels r.levels by rw [JArr.levels]]
    simp only [backArr, JArr.back, backAt_eq v, backArr_eq r]
    by_cases h : v.levels ≤ c
    · by_cases h2 : r.levels ≤ c
      · rw [if_pos h, if_pos h2, if_pos (by omega)]
      · rw [if_neg h2, if_neg (show ¬ max v.levels r.levels ≤ c by omega)]
        cases (if v.levels ≤ c then v.back F else none) <;> rfl
    · rw [if_neg h, if_neg (show ¬ max v.levels r.levels ≤ c by omega)]; rfl
theorem backObj_eq : ∀ (v : JObj) (c : Nat), backObj F v c = if v.levels ≤ c then v.back F else none
  | .nil, c => by simp only [backObj, JObj.levels, JObj.back, Nat.zero_le, if_true]
  | .cons k v r, c => by
    rw [show (JObj.cons k v r).levels = max v.levels r.levels by rw [JObj.levels]]
    simp only [backObj, JObj.back, backAt_eq v, backObj_eq r]
    by_cases h : v.levels ≤ c
    · by_cases h2 : r.levels ≤ c
      · rw [if_pos h, if_pos h2, if_pos (by omega)]
      · rw [if_neg h2, if_neg (show ¬ max v.levels r.levels ≤ c by omega)]
        cases (if v.levels ≤ c then v.back F else none) <;> rfl
    · rw [if_neg h, if_neg (show ¬ max v.levels r.levels ≤ c by omega)]; rfl
end

theorem all_text (hF : F.Proper) {v : Json} (ht : v.Typed utf8) (c : Nat) :
    all utf8 F (c + 1) (v.text F) = if v.levels ≤ c then v.back F else none := by
  have h := does hF v c ht [] trivial
  rw [List.append_nil, backAt_eq] at h
  unfold all
  rw [h]
  cases (if v.levels ≤ c then v.back F else none) with
  | none => rfl
  | some w => rfl

end

end JsonRead

/-! ### Floats -/

mutual
/-- The value that is read differs only in its floats. -/
theorem Json.back_same {F : Floats} : ∀ v : Json, v.FloatsAre (fun f => F.back f = some f) → v.back F = some v
  | .null, _ | .bool _, _ | .str _, _ => rfl
  | .num (.posInt _), _ | .num (.negInt _), _ => rfl
  | .num (.float f), h => by
    simp only [Json.back, Num.back, show F.back f = some f from h, Option.map_some]
  | .arr a, h => by simp only [Json.back, JArr.back_same a h, Option.map_some]
  | .obj o, h => by simp only [Json.back, JObj.back_same o h, Option.map_some]
theorem JArr.back_same {F : Floats} : ∀ v : JArr, v.FloatsAre (fun f => F.back f = some f) → v.back F = some v
  | .nil, _ => rfl
  | .cons v r, h => by simp only [JArr.back, Json.back_same v h.1, JArr.back_same r h.2, Option.bind_some, Option.map_some]
theorem JObj.back_same {F : Floats} : ∀ v : JObj, v.FloatsAre (fun f => F.back f = some f) → v.back F = some v
  | .nil, _ => rfl
  | .cons k v r, h => by simp only [JObj.back, Json.back_same v h.1, JObj.back_same r h.2, Option.bind_some, Option.map_some]
end

mutual
theorem Json.back_some {F : Floats} : ∀ v : Json, (∃ w, v.back F = some w) ↔ v.FloatsAre (fun f => ∃ g, F.back f = some g)
  | .null | .bool _ | .str _ => ⟨fun _ => trivial, fun _ => ⟨_, rfl⟩⟩
  | .num (.posInt _) | .num (.negInt _) => ⟨fun _ => trivial, fun _ => ⟨_, rfl⟩⟩
  | .num (.float f) => by
    show _ ↔ ∃ g, F.back f = some g
    simp only [Json.back, Num.back]
    cases F.back f <;> simp
  | .arr a => by
    show _ ↔ a.FloatsAre _
    rw [← JArr.back_some a]
    simp only [Json.back]
    cases a.back F <;> simp
  | .obj a => by
    show _ ↔ a.FloatsAre _
    rw [← JObj.back_some a]
    simp only [Json.back]
    cases a.back F <;> simp
theorem JArr.back_some {F : Floats} : ∀ v : JArr, (∃ w, v.back F = some w) ↔ v.FloatsAre (fun f => ∃ g, F.back f = some g)
  | .nil => ⟨fun _ => trivial, fun _ => ⟨_, rfl⟩⟩
  | .cons v r => by
    show _ ↔ (v.FloatsAre _ ∧ r.FloatsAre _)
    rw [← Json.back_some v, ← JArr.back_some r]
    simp only [JArr.back]
    cases v.back F <;> cases r.back F <;> simp
theorem JObj.back_some {F : Floats} : ∀ v : JObj, (∃ w, v.back F = some w) ↔ v.FloatsAre (fun f => ∃ g, F.back f = some g)
  | .nil => ⟨fun _ => trivial, fun _ => ⟨_, rfl⟩⟩
  | .cons k v r => by
    show _ ↔ (v.FloatsAre _ ∧ r.FloatsAre _)
    rw [← Json.back_some v, ← JObj.back_some r]
    simp only [JObj.back]
    cases v.back F <;> cases r.back F <;> simp
end

mutual
theorem Json.floatsAre {P : F64 → Prop} (h : ∀ f, P f) : ∀ v : Json, v.FloatsAre P
  | .null | .bool _ | .str _ | .num (.posInt _) | .num (.negInt _) => trivial
  | .num (.float f) => h f
  | .arr a => JArr.floatsAre h a
  | .obj o => JObj.floatsAre h o
theorem JArr.floatsAre {P : F64 → Prop} (h : ∀ f, P f) : ∀ v : JArr, v.FloatsAre P
  | .nil => trivial
  | .cons v r => ⟨Json.floatsAre h v, JArr.floatsAre h r⟩
theorem JObj.floatsAre {P : F64 → Prop} (h : ∀ f, P f) : ∀ v : JObj, v.FloatsAre P
  | .nil => trivial
  | .cons _ v r => ⟨Json.floatsAre h v, JObj.floatsAre h r⟩
end

mutual
/-- What is written does not depend on how floats are read. -/
theorem Json.text_print {F G : Floats} (h : F.print = G.print) : ∀ v : Json, v.text F = v.text G
  | .null | .bool true | .bool false | .str _ => rfl
  | .num (.posInt _) | .num (.negInt _) => rfl
  | .num (.float f) => by simp only [Json.text, Num.text, h]
  | .arr a => by simp only [Json.text, JArr.text_print h a]
  | .obj o => by simp only [Json.text, JObj.text_print h o]
theorem JArr.text_print {F G : Floats} (h : F.print = G.print) : ∀ (v : JArr) (first : Bool), v.text F first = v.text G first
  | .nil, _ => rfl
  | .cons v r, _ => by simp only [JArr.text, Json.text_print h v, JArr.text_print h r]
theorem JObj.text_print {F G : Floats} (h : F.print = G.print) : ∀ (v : JObj) (first : Bool), v.text F first = v.text G first
  | .nil, _ => rfl
  | .cons k v r, _ => by simp only [JObj.text, Json.text_print h v, JObj.text_print h r]
end

theorem text_injective {utf8 : Bytes → Bool} {F : Floats} (hF : F.Proper) (hi : ∀ f g, F.print f = F.print g → f = g) {v w : Json}
    (hv : v.Typed utf8) (hw : w.Typed utf8) (h : v.text F = w.text F) : v = w := by
  classical
  let G : Floats := ⟨F.print, fun d => if h : ∃ f, F.print f = d then some h.choose else none⟩
  have hb : ∀ f, G.back f = some f := fun f => by
    have he : ∃ g, F.print g = F.print f := ⟨f, rfl⟩
    show (if h : ∃ g, F.print g = F.print f then some h.choose else none) = some f
    rw [dif_pos he, hi _ _ he.choose_spec]
  have hG : G.Proper := hF
  have e : ∀ v : Json, v.text G = v.text F := Json.text_print rfl
  have h1 := JsonRead.all_text hG hv (max v.levels w.levels)
  have h2 := JsonRead.all_text hG hw (max v.levels w.levels)
  rw [e, h, ← e, h2, if_pos (Nat.le_max_left _ _), if_pos (Nat.le_max_right _ _), Json.back_same w (Json.floatsAre hb w),
    Json.back_same v (Json.floatsAre hb v)] at h1
  exact (Option.some.inj h1).symm

end IndraDB
