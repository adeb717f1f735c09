import Verif.Spec.JsonGrammar
import Verif.Proofs.JsonFloat
/-
The reader of JSON text takes exactly the texts of the grammar.
-/
namespace IndraDB
open Unpack JsonRead
namespace JsonGrammar

theorem bind_eq {α β : Type} {p : Unpack α} {f : α → Unpack β} {b r : Bytes} {x : β} :
    p.bind f b = some (x, r) ↔ ∃ a r', p b = some (a, r') ∧ f a r' = some (x, r) := by
  unfold Unpack.bind
  cases h : p b with
  | none => simp
  | some q =>
    obtain ⟨a, r'⟩ := q
    exact ⟨fun h => ⟨a, r', rfl, h⟩, fun ⟨_, _, e, h⟩ => by cases e; exact h⟩

theorem ret_eq {α : Type} {a x : α} {b r : Bytes} : ret a b = some (x, r) ↔ x = a ∧ r = b := by
  unfold ret
  simp only [Option.some.injEq, Prod.mk.injEq]
  exact ⟨fun h => ⟨h.1.symm, h.2.symm⟩, fun h => ⟨h.1.symm, h.2.symm⟩⟩

theorem byte_eq {x : UInt8} {b r : Bytes} : byte b = some (x, r) ↔ b = x :: r := by
  cases b with
  | nil => simp [byte]
  | cons y b => simp [byte]

theorem expect_eq {x : UInt8} {u : Unit} {b r : Bytes} : expect x b = some (u, r) ↔ b = x :: r := by
  unfold expect
  rw [bind_eq]
  constructor
  · rintro ⟨y, r', h1, h2⟩
    rw [byte_eq] at h1
    split at h2
    · rename_i e
      rw [ret_eq] at h2
      rw [h1, e, h2.2]
    · exact nomatch h2
  · rintro rfl
    exact ⟨x, r, rfl, by rw [if_pos rfl]; rfl⟩

/-! ### Strings -/

theorem hexVal_iff {x : UInt8} {d : Nat} : hexVal x = some d ↔ Hex x d := by
  have hx : x = UInt8.ofNat (⟨x.toNat, x.toNat_lt⟩ : Fin 256).val := by simp
  have h1' : ∀ n : Fin 256, (hexVal (UInt8.ofNat n.val)).all (fun d => d < 16) = true := by decide +kernel
  have h1 : ∀ d, hexVal x = some d → d < 16 := fun d h => by
    have := h1' ⟨x.toNat, x.toNat_lt⟩
    rw [← hx, h] at this
    simpa using this
  have h2' : ∀ n : Fin 256, ∀ d : Fin 16, hexVal (UInt8.ofNat n.val) = some d.val ↔
    ((strBytes "0123456789abcdef")[d.val]? = some (UInt8.ofNat n.val) ∨
    (strBytes "0123456789ABCDEF")[d.val]? = some (UInt8.ofNat n.val)) := by decide +kernel
  have h2 := h2' ⟨x.toNat, x.toNat_lt⟩
  rw [← hx] at h2
  constructor
  · intro h
    exact (h2 ⟨d, h1 d h⟩).1 h
  · intro h
    have hd : d < 16 := by
      rcases h with h | h
      · exact (List.getElem?_eq_some_iff.1 h).1
      · exact (List.getElem?_eq_some_iff.1 h).1
    exact (h2 ⟨d, hd⟩).2 h

theorem hex1_eq {n : Nat} {b r : Bytes} : hex1 b = some (n, r) ↔ ∃ x, b = x :: r ∧ Hex x n := by
  unfold hex1
  rw [bind_eq]
  constructor
  · rintro ⟨x, r', h1, h2⟩
    rw [byte_eq] at h1
    refine ⟨x, ?_⟩
    cases h : hexVal x with
    | none => rw [h] at h2; exact nomatch h2
    | some d =>
      rw [h] at h2
      rw [ret_eq] at h2
      rw [h2.1, ← hexVal_iff, h, h2.2]
      exact ⟨h1, rfl⟩
  · rintro ⟨x, rfl, h⟩
    exact ⟨x, r, rfl, by rw [hexVal_iff.2 h]; rfl⟩

theorem hex4_eq {n : Nat} {b r : Bytes} : hex4 b = some (n, r) ↔ ∃ t, b = t ++ r ∧ Hex4 t n := by
  unfold hex4
  simp only [bind_eq, ret_eq, hex1_eq]
  constructor
  · rintro ⟨a, r1, ⟨x, rfl, hx⟩, b, r2, ⟨y, rfl, hy⟩, c, r3, ⟨z, rfl, hz⟩, d, r4, ⟨w, rfl, hw⟩, rfl, rfl⟩
    exact ⟨[x, y, z, w], rfl, x, y, z, w, a, b, c, d, rfl, hx, hy, hz, hw, by omega⟩
  · rintro ⟨t, rfl, x, y, z, w, a, b, c, d, rfl, hx, hy, hz, hw, rfl⟩
    exact ⟨a, _, ⟨x, rfl, hx⟩, b, _, ⟨y, rfl, hy⟩, c, _, ⟨z, rfl, hz⟩, d, _, ⟨w, rfl, hw⟩, by omega, rfl⟩

theorem utf8Of_char (c : Char) : utf8Of c.toNat = String.utf8EncodeChar c := by
  have h : c.val.toNat < 0x110000 := by
    have := c.valid
    unfold UInt32.isValidChar Nat.isValidChar at this
    omega
  show utf8Of c.val.toNat = _
  unfold utf8Of String.utf8EncodeChar
  generalize c.val.toNat = v at *
  simp only []
  by_cases h1 : v ≤ 0x7f
  · rw [if_pos (by omega), if_pos h1]
  · rw [if_neg (by omega), if_neg h1]
    by_cases h2 : v ≤ 0x7ff
    · rw [if_pos (by omega), if_pos h2, Nat.mod_eq_of_lt (show v / 64 < 0x20 by omega)]
      simp only [Nat.add_comm]
    · rw [if_neg (by omega), if_neg h2]
      by_cases h3 : v ≤ 0xffff
      · rw [if_pos (by omega), if_pos h3, Nat.mod_eq_of_lt (show v / 4096 < 0x10 by omega)]
        simp only [Nat.add_comm]
      · rw [if_neg (by omega), if_neg h3, Nat.mod_eq_of_lt (show v / 262144 < 0x08 by omega)]
        simp only [Nat.add_comm]

theorem charOf {n : Nat} (h : n < 0xd800 ∨ (0xdfff < n ∧ n < 0x110000)) : ∃ c : Char, c.toNat = n := by
  have hv : n.isValidChar := h
  refine ⟨Char.ofNat n, ?_⟩
  rw [Char.ofNat, dif_pos hv]
  show (UInt32.ofNatLT n _).toNat = n
  exact UInt32.toNat_ofNatLT

theorem hex4_lt {t : Bytes} {n : Nat} (h : Hex4 t n) : n < 0x10000 := by
  have hh : ∀ x d, Hex x d → d < 16 := fun x d h => by
    rcases h with h | h
    · exact (List.getElem?_eq_some_iff.1 h).1
    · exact (List.getElem?_eq_some_iff.1 h).1
  obtain ⟨x, y, z, w, a, b, c, d, rfl, hx, hy, hz, hw, rfl⟩ := h
  have := hh _ _ hx
  have := hh _ _ hy
  have := hh _ _ hz
  have := hh _ _ hw
  omega

theorem char_range (c : Char) : c.toNat < 0xd800 ∨ (0xdfff < c.toNat ∧ c.toNat < 0x110000) := c.valid

theorem escape_sound {b r c : Bytes} (h : JsonRead.escape b = some (c, r)) : ∃ e, b = e ++ r ∧ Escape e c := by
  unfold JsonRead.escape at h
  rw [bind_eq] at h
  obtain ⟨x, r', h1, h⟩ := h
  rw [byte_eq] at h1
  subst h1
  split at h
  · rename_i e; subst e; rw [ret_eq] at h; obtain ⟨rfl, rfl⟩ := h; exact ⟨_, rfl, Escape.quote⟩
  split at h
  · rename_i e; subst e; rw [ret_eq] at h; obtain ⟨rfl, rfl⟩ := h; exact ⟨_, rfl, Escape.backslash⟩
  split at h
  · rename_i e; subst e; rw [ret_eq] at h; obtain ⟨rfl, rfl⟩ := h; exact ⟨_, rfl, Escape.slash⟩
  split at h
  · rename_i e; subst e; rw [ret_eq] at h; obtain ⟨rfl, rfl⟩ := h; exact ⟨_, rfl, Escape.backspace⟩
  split at h
  · rename_i e; subst e; rw [ret_eq] at h; obtain ⟨rfl, rfl⟩ := h; exact ⟨_, rfl, Escape.formFeed⟩
  split at h
  · rename_i e; subst e; rw [ret_eq] at h; obtain ⟨rfl, rfl⟩ := h; exact ⟨_, rfl, Escape.lineFeed⟩
  split at h
  · rename_i e; subst e; rw [ret_eq] at h; obtain ⟨rfl, rfl⟩ := h; exact ⟨_, rfl, Escape.return⟩
  split at h
  · rename_i e; subst e; rw [ret_eq] at h; obtain ⟨rfl, rfl⟩ := h; exact ⟨_, rfl, Escape.tab⟩
  split at h
  · rename_i e
    subst e
    unfold unicode at h
    rw [bind_eq] at h
    obtain ⟨n, r1, h1, h⟩ := h
    obtain ⟨t, rfl, ht⟩ := hex4_eq.1 h1
    have hlt := hex4_lt ht
    split at h
    · exact nomatch h
    split at h
    · simp only [bind_eq, expect_eq] at h
      obtain ⟨_, r2, rfl, _, r3, rfl, m, r4, h2, h⟩ := h
      obtain ⟨t', rfl, ht'⟩ := hex4_eq.1 h2
      split at h
      · rename_i h3 h4
        rw [ret_eq] at h
        obtain ⟨h5, h6⟩ := h
        obtain ⟨ch, hc⟩ := charOf (n := 0x10000 + (n - 0xd800) * 1024 + (m - 0xdc00)) (by omega)
        rw [h5, h6, ← hc, utf8Of_char]
        refine ⟨117 :: (t ++ 92 :: 117 :: t'), by simp, Escape.pair (n := n - 0xd800) (m := m - 0xdc00) ?_ ?_ (by omega) (by omega) hc⟩
        · rw [show 0xd800 + (n - 0xd800) = n by omega]; exact ht
        · rw [show 0xdc00 + (m - 0xdc00) = m by omega]; exact ht'
      · exact nomatch h
    · rw [ret_eq] at h
      obtain ⟨rfl, rfl⟩ := h
      obtain ⟨ch, hc⟩ := charOf (n := n) (by omega)
      rw [← hc, utf8Of_char]
      rw [← hc] at ht
      exact ⟨117 :: t, rfl, Escape.code ht⟩
  · exact nomatch h

theorem escape_complete {e c : Bytes} (h : Escape e c) (r : Bytes) : JsonRead.escape (e ++ r) = some (c, r) := by
  cases h with
  | quote | backslash | slash | backspace | formFeed | lineFeed | «return» | tab => rfl
  | @code t ch ht =>
    show unicode (t ++ r) = _
    have := char_range ch
    unfold unicode
    rw [bind_some (hex4_eq.2 ⟨t, rfl, ht⟩), if_neg (by omega), if_neg (by omega), utf8Of_char]
    rfl
  | @pair t t' n m ch ht ht' hn hm hc =>
    show unicode ((t ++ 92 :: 117 :: t') ++ r) = _
    unfold unicode
    rw [List.append_assoc, bind_some (hex4_eq.2 ⟨t, rfl, ht⟩), if_neg (by omega), if_pos (by omega)]
    rw [List.cons_append, List.cons_append, bind_some (show expect 92 _ = some ((), _) from expect_eq.2 rfl),
      bind_some (show expect 117 _ = some ((), _) from expect_eq.2 rfl), bind_some (hex4_eq.2 ⟨t', rfl, ht'⟩), if_pos (by omega),
      show 0x10000 + (0xd800 + n - 0xd800) * 1024 + (0xdc00 + m - 0xdc00) = ch.toNat by omega, utf8Of_char]
    rfl

theorem escape_pos {e c : Bytes} (h : Escape e c) : 1 ≤ e.length := by
  cases h <;> first | exact Nat.le_refl _ | (simp only [List.length_cons]; omega) | decide

theorem strRest_sound : ∀ {n : Nat} {b r s : Bytes}, strRest n b = some (s, r) → ∃ t, b = t ++ 34 :: r ∧ Str t s
  | 0, _, _, _, h => nomatch h
  | n + 1, b, r, s, h => by
    unfold strRest at h
    rw [bind_eq] at h
    obtain ⟨x, r', h1, h⟩ := h
    rw [byte_eq] at h1
    subst h1
    split at h
    · rename_i e
      rw [ret_eq] at h
      obtain ⟨rfl, rfl⟩ := h
      subst e
      exact ⟨[], rfl, Str.nil⟩
    rename_i h34
    split at h
    · rename_i e
      subst e
      simp only [bind_eq, ret_eq] at h
      obtain ⟨c, r1, h1, s', r2, h2, rfl, rfl⟩ := h
      obtain ⟨e, rfl, he⟩ := escape_sound h1
      obtain ⟨t, rfl, ht⟩ := strRest_sound h2
      exact ⟨92 :: (e ++ t), by simp, Str.escape he ht⟩
    rename_i h92
    split at h
    · exact nomatch h
    · rename_i h32
      simp only [bind_eq, ret_eq] at h
      obtain ⟨s', r2, h2, rfl, rfl⟩ := h
      obtain ⟨t, rfl, ht⟩ := strRest_sound h2
      exact ⟨x :: t, rfl, Str.char (by omega) h34 h92 ht⟩

theorem strRest_complete {t s : Bytes} (h : Str t s) : ∀ (n : Nat) (r : Bytes), t.length ≤ n → strRest (n + 1) (t ++ 34 :: r) = some (s, r) := by
  induction h with
  | nil => intro n r _; rfl
  | @char x t s h32 h34 h92 ht ih =>
    intro n r hn
    cases n with
    | zero => simp at hn
    | succ n =>
      show (if x = 34 then _ else if x = 92 then _ else if x.toNat < 32 then _ else _ : Unpack Bytes) (t ++ 34 :: r) = _
      rw [if_neg h34, if_neg h92, if_neg (by omega), bind_some (ih n r (by simpa using hn))]
      rfl
  | @escape e c t s he ht ih =>
    intro n r hn
    have := escape_pos he
    cases n with
    | zero => simp at hn
    | succ n =>
      show ((JsonRead.escape.bind fun e => (strRest (n + 1)).bind fun s => ret (e ++ s))) ((e ++ t) ++ 34 :: r) = _
      rw [List.append_assoc, bind_some (escape_complete he _),
        bind_some (ih n r (by simp only [List.length_cons, List.length_append] at hn; omega))]
      rfl

theorem str_sound {utf8 : Bytes → Bool} {b r s : Bytes} (h : str utf8 b = some (s, r)) : ∃ t, b = t ++ 34 :: r ∧ Str t s ∧ utf8 s = true := by
  unfold str at h
  rw [bind_eq] at h
  obtain ⟨s', r', h1, h⟩ := h
  obtain ⟨t, e, ht⟩ := strRest_sound h1
  split at h
  · rename_i hu
    rw [ret_eq] at h
    obtain ⟨rfl, rfl⟩ := h
    exact ⟨t, e, ht, hu⟩
  · exact nomatch h

theorem str_complete {utf8 : Bytes → Bool} {t s : Bytes} (h : Str t s) (hu : utf8 s = true) (r : Bytes) :
    str utf8 (t ++ 34 :: r) = some (s, r) := by
  unfold str
  have h1 : (fun b : Bytes => strRest (b.length + 1) b) (t ++ 34 :: r) = some (s, r) :=
    strRest_complete h _ r (by simp)
  rw [bind_some (p := fun b : Bytes => strRest (b.length + 1) b) h1, if_pos hu]
  rfl

/-! ### Numbers -/

/-- What follows does not belong to a number. -/
def Stops (r : Bytes) : Prop := ∀ x, r.head? = some x → isDigit x = false ∧ x ≠ 46 ∧ x ≠ 101 ∧ x ≠ 69

theorem digitRun_sound : ∀ b : Bytes, b = (digitRun b).1 ++ (digitRun b).2 ∧ AllDigits (digitRun b).1
  | [] => ⟨rfl, fun _ h => nomatch h⟩
  | x :: b => by
    obtain ⟨h1, h2⟩ := digitRun_sound b
    unfold digitRun
    split
    · rename_i h
      refine ⟨by rw [List.cons_append, ← h1], fun y hy => ?_⟩
      rcases List.mem_cons.1 hy with rfl | hy
      · exact isDigit_iff.1 h
      · exact h2 y hy
    · exact ⟨rfl, fun _ h => nomatch h⟩

theorem digits_sound {b d r : Bytes} (h : digits b = some (d, r)) : b = d ++ r ∧ AllDigits d ∧ d ≠ [] := by
  unfold digits at h
  have := digitRun_sound b
  split at h
  · exact nomatch h
  · rename_i hne
    have e : digitRun b = (d, r) := Option.some.inj h
    rw [e] at this hne
    exact ⟨this.1, this.2, hne⟩

theorem accept_eq {x : UInt8} {t : Bool} {b r : Bytes} (h : accept x b = some (t, r)) :
    (t = true ∧ b = x :: r) ∨ (t = false ∧ b = r ∧ b.head? ≠ some x) := by
  cases b with
  | nil => cases h; exact Or.inr ⟨rfl, rfl, by simp⟩
  | cons y b =>
    by_cases e : y = x
    · subst e
      rw [accept_yes] at h
      cases h
      exact Or.inl ⟨rfl, rfl⟩
    · have hne : (y :: b).head? ≠ some x := by simpa using e
      rw [accept_no hne] at h
      cases h
      exact Or.inr ⟨rfl, rfl, hne⟩

theorem fraction_sound {b f r : Bytes} (h : fraction b = some (f, r)) : ∃ t, b = t ++ r ∧ Frac t f := by
  unfold fraction at h
  rw [bind_eq] at h
  obtain ⟨t, r', h1, h⟩ := h
  rcases accept_eq h1 with ⟨rfl, rfl⟩ | ⟨rfl, rfl, -⟩
  · rw [if_pos rfl] at h
    obtain ⟨rfl, h2, h3⟩ := digits_sound h
    exact ⟨46 :: f, rfl, Frac.some h2 h3⟩
  · rw [if_neg (by decide), ret_eq] at h
    obtain ⟨rfl, rfl⟩ := h
    exact ⟨[], rfl, Frac.none⟩

theorem exponent_sound {b r : Bytes} {e : Option (Bool × Bytes)} (h : JsonRead.exponent b = some (e, r)) : ∃ t, b = t ++ r ∧ Exp t e := by
  unfold JsonRead.exponent at h
  rw [bind_eq] at h
  obtain ⟨t, r1, h1, h⟩ := h
  rw [bind_eq] at h
  obtain ⟨t', r2, h2, h⟩ := h
  have hx : (t' = true ∧ ∃ x : UInt8, (x = 101 ∨ x = 69) ∧ b = x :: r2) ∨ (t' = false ∧ b = r2) := by
    rcases accept_eq h1 with ⟨rfl, rfl⟩ | ⟨rfl, rfl, -⟩
    · rw [if_pos rfl, ret_eq] at h2
      obtain ⟨rfl, rfl⟩ := h2
      exact Or.inl ⟨rfl, _, Or.inl rfl, rfl⟩
    · rw [if_neg (by decide)] at h2
      rcases accept_eq h2 with ⟨rfl, rfl⟩ | ⟨rfl, rfl, -⟩
      · exact Or.inl ⟨rfl, _, Or.inr rfl, rfl⟩
      · exact Or.inr ⟨rfl, rfl⟩
  rcases hx with ⟨rfl, x, hx, rfl⟩ | ⟨rfl, rfl⟩
  · rw [if_pos rfl, bind_eq] at h
    obtain ⟨p, r3, h3, h⟩ := h
    rw [bind_eq] at h
    obtain ⟨neg, r4, h4, h⟩ := h
    rw [bind_eq] at h
    obtain ⟨d, r5, h5, h⟩ := h
    rw [ret_eq] at h
    obtain ⟨rfl, rfl⟩ := h
    obtain ⟨rfl, hd, hne⟩ := digits_sound h5
    rcases accept_eq h3 with ⟨rfl, rfl⟩ | ⟨rfl, rfl, -⟩
    · rw [if_pos rfl, ret_eq] at h4
      obtain ⟨rfl, rfl⟩ := h4
      exact ⟨x :: 43 :: d, rfl, Exp.plus hx hd hne⟩
    · rw [if_neg (by decide)] at h4
      rcases accept_eq h4 with ⟨rfl, rfl⟩ | ⟨rfl, rfl, -⟩
      · exact ⟨x :: 45 :: d, rfl, Exp.minus hx hd hne⟩
      · exact ⟨x :: d, rfl, Exp.plain hx hd hne⟩
  · rw [if_neg (by decide), ret_eq] at h
    obtain ⟨rfl, rfl⟩ := h
    exact ⟨[], rfl, Exp.none⟩

theorem numOf_iff {F : Floats} {d : IndraDB.Decimal} {n : Num} : numOf F d = some n ↔ Number F d n := by
  unfold numOf
  simp only [decVal_digitsVal]
  show _ ↔ _
  have hv : List.foldl (fun v (x : UInt8) => v * 10 + (x.toNat - 48)) 0 d.int = digitsVal d.int := rfl
  simp only [hv]
  constructor
  · intro h
    split at h
    · rename_i h0
      split at h
      · rename_i hn
        split at h
        · rename_i hr
          cases h
          exact Number.neg _ h0.1 h0.2 hn (by show _ = digitsVal d.int - 1 + 1; omega)
        · rename_i hr
          cases hf : F.parse d with
          | none => rw [hf] at h; exact nomatch h
          | some f =>
            rw [hf] at h
            cases h
            exact Number.float f (Or.inr (Or.inr (Or.inr ⟨hn, by omega⟩))) hf
      · rename_i hn
        split at h
        · rename_i hr
          cases h
          exact Number.pos _ h0.1 h0.2 (by simpa using hn) rfl
        · rename_i hr
          cases hf : F.parse d with
          | none => rw [hf] at h; exact nomatch h
          | some f =>
            rw [hf] at h
            cases h
            exact Number.float f (Or.inr (Or.inr (Or.inl ⟨by simpa using hn, by omega⟩))) hf
    · rename_i h0
      cases hf : F.parse d with
      | none => rw [hf] at h; exact nomatch h
      | some f =>
        rw [hf] at h
        cases h
        refine Number.float f ?_ hf
        by_cases h1 : d.frac = []
        · exact Or.inr (Or.inl (fun h2 => h0 ⟨h1, h2⟩))
        · exact Or.inl h1
  · intro h
    cases h with
    | pos n h1 h2 h3 h4 =>
      have := n.isLt
      rw [if_pos ⟨h1, h2⟩, if_neg (by simp [h3]), dif_pos (by omega)]
      simp only [h4]
    | neg m h1 h2 h3 h4 =>
      have := m.isLt
      rw [if_pos ⟨h1, h2⟩, if_pos h3, dif_pos (by omega)]
      simp only [h4, Nat.add_sub_cancel]
    | float f h1 h2 =>
      rw [h2]
      split
      · rename_i h0
        split
        · rename_i hn
          rw [dif_neg]
          · rfl
          · rcases h1 with h1 | h1 | h1 | h1
            · exact absurd h0.1 h1
            · exact absurd h0.2 h1
            · rw [hn] at h1; exact absurd h1.1 (by decide)
            · omega
        · rename_i hn
          rw [dif_neg]
          · rfl
          · rcases h1 with h1 | h1 | h1 | h1
            · exact absurd h0.1 h1
            · exact absurd h0.2 h1
            · omega
            · exact absurd h1.1 hn
      · rfl

theorem number_sound {F : Floats} {neg : Bool} {b r : Bytes} {n : Num} (h : number F neg b = some (n, r)) :
    ∃ i tf te f e, b = (i ++ (tf ++ te)) ++ r ∧ AllDigits i ∧ i ≠ [] ∧ (i.head? = some 48 → i = [48]) ∧ Frac tf f ∧ Exp te e ∧
      Number F ⟨neg, i, f, e⟩ n := by
  unfold number at h
  rw [bind_eq] at h
  obtain ⟨i, r1, h1, h⟩ := h
  obtain ⟨rfl, hi, hne⟩ := digits_sound h1
  split at h
  · exact nomatch h
  rename_i hz
  rw [bind_eq] at h
  obtain ⟨f, r2, h2, h⟩ := h
  rw [bind_eq] at h
  obtain ⟨e, r3, h3, h⟩ := h
  obtain ⟨tf, rfl, hf⟩ := fraction_sound h2
  obtain ⟨te, rfl, he⟩ := exponent_sound h3
  cases hn : numOf F ⟨neg, i, f, e⟩ with
  | none => rw [hn] at h; exact nomatch h
  | some n' =>
    rw [hn] at h
    rw [ret_eq] at h
    obtain ⟨rfl, rfl⟩ := h
    exact ⟨i, tf, te, f, e, by simp, hi, hne, fun h0 => Classical.byContradiction fun hc => hz ⟨h0, hc⟩, hf, he, numOf_iff.1 hn⟩

theorem exp_head {t r : Bytes} {e : Option (Bool × Bytes)} (h : Exp t e) (hr : Stops r) {x : UInt8} (hx : (t ++ r).head? = some x) :
    isDigit x = false ∧ x ≠ 46 := by
  cases h with
  | none => exact ⟨(hr x hx).1, (hr x hx).2.1⟩
  | plain h _ _ | plus h _ _ | minus h _ _ => cases hx; rcases h with rfl | rfl <;> exact ⟨rfl, by decide⟩

theorem exponent_complete {t r : Bytes} {e : Option (Bool × Bytes)} (h : Exp t e) (hr : Stops r) :
    JsonRead.exponent (t ++ r) = some (e, r) := by
  have hnd : NoDigit r := head_noDigit (fun x hx => (hr x hx).1)
  have start : ∀ (x : UInt8) (s : Bytes) (q : Bool → Unpack (Option (Bool × Bytes))), x = 101 ∨ x = 69 →
      ((accept 101).bind fun t => (if t then ret true else accept 69).bind q) (x :: s) = q true s := by
    intro x s q hx
    rcases hx with rfl | rfl
    · rfl
    · rfl
  unfold JsonRead.exponent
  cases h with
  | none =>
    rw [List.nil_append, bind_some (accept_no (fun h => (hr _ h).2.2.1 rfl)), if_neg (by decide),
      bind_some (accept_no (fun h => (hr _ h).2.2.2 rfl))]
    rfl
  | @plain x d hx hd hne =>
    have a : ∀ y : UInt8, y.toNat < 48 → (d ++ r).head? ≠ some y := fun y hy e => by have := digits_head hd e hne; omega
    rw [List.cons_append, start x _ _ hx, if_pos rfl, bind_some (accept_no (a 43 (by decide))), if_neg (by decide),
      bind_some (accept_no (a 45 (by decide))), bind_some (digits_append hd hne hnd)]
    rfl
  | @plus x d hx hd hne =>
    rw [List.cons_append, start x _ _ hx, if_pos rfl, List.cons_append, bind_some (accept_yes 43 _), if_pos rfl,
      bind_some (show ret false _ = some (false, _) from rfl), bind_some (digits_append hd hne hnd)]
    rfl
  | @minus x d hx hd hne =>
    rw [List.cons_append, start x _ _ hx, if_pos rfl, List.cons_append,
      bind_some (accept_no (x := 43) (r := 45 :: (d ++ r)) (by simp)), if_neg (by decide),
      bind_some (accept_yes 45 _), bind_some (digits_append hd hne hnd)]
    rfl

theorem number_complete {F : Floats} {neg : Bool} {i tf te f r : Bytes} {e : Option (Bool × Bytes)} {n : Num} (hi : AllDigits i) (hne : i ≠ [])
    (hz : i.head? = some 48 → i = [48]) (hf : Frac tf f) (he : Exp te e) (hn : Number F ⟨neg, i, f, e⟩ n) (hr : Stops r) :
    number F neg ((i ++ (tf ++ te)) ++ r) = some (n, r) := by
  have hfr : fraction (tf ++ (te ++ r)) = some (f, te ++ r) := by
    unfold fraction
    cases hf with
    | none =>
      rw [List.nil_append, bind_some (accept_no (fun h => (exp_head he hr h).2 rfl))]
      rfl
    | some h1 h2 =>
      rw [List.cons_append, bind_some (accept_yes 46 _), if_pos rfl]
      exact digits_append h1 h2 (head_noDigit (fun x hx => (exp_head he hr hx).1))
  have hin : NoDigit (tf ++ (te ++ r)) := head_noDigit (fun x h => by
    cases hf with
    | none => exact (exp_head he hr h).1
    | some _ _ => cases h; rfl)
  unfold number
  rw [List.append_assoc, List.append_assoc, bind_some (digits_append hi hne hin), if_neg (fun h => h.2 (hz h.1)), bind_some hfr,
    bind_some (exponent_complete he hr), numOf_iff.2 hn]
  rfl

/-! ### Objects and arrays -/

theorem elements_ofElems : ∀ l : List Json, elements (JArr.ofElems l) = l
  | [] => rfl
  | v :: l => congrArg (v :: ·) (elements_ofElems l)

theorem ofElems_elements : ∀ a : JArr, JArr.ofElems (elements a) = a
  | .nil => rfl
  | .cons v r => congrArg (JArr.cons v) (ofElems_elements r)

theorem find_insert (k j : Bytes) (v : Json) : ∀ o : JObj, find j (o.insert k v) = if k = j then some v else find j o
  | .nil => rfl
  | .cons k' v' r => by
    unfold JObj.insert
    split
    · rfl
    · split
      · rename_i h1 h2
        simp only [find]
        rw [find_insert k j v r]
        by_cases h : k' = j
        · subst h
          rw [if_pos rfl, if_pos rfl, if_neg (fun e => by subst e; exact absurd h2 h1)]
        · rw [if_neg h, if_neg h]
      · rename_i h1 h2
        have e : k = k' := Classical.byContradiction fun hne => by
          rcases Order.total hne with h | h
          · exact h1 h
          · exact h2 h
        subst e
        simp only [find]
        by_cases h : k = j
        · rw [if_pos h, if_pos h]
        · rw [if_neg h, if_neg h, if_neg h]

theorem above_insert {j k : Bytes} {v : Json} (hjk : Order.lt j k = true) : ∀ {o : JObj}, o.Above j → (o.insert k v).Above j
  | .nil, _ => ⟨hjk, trivial⟩
  | .cons k' v' r, h => by
    unfold JObj.insert
    split
    · exact ⟨hjk, h⟩
    · split
      · exact ⟨h.1, above_insert hjk h.2⟩
      · exact ⟨hjk, h.2⟩

theorem above_trans {j k : Bytes} (hjk : Order.lt j k = true) : ∀ {o : JObj}, o.Above k → o.Above j
  | .nil, _ => trivial
  | .cons _ _ _, h => ⟨Order.trans _ _ _ hjk h.1, above_trans hjk h.2⟩

theorem sorted_insert (k : Bytes) (v : Json) : ∀ {o : JObj}, Sorted o → Sorted (o.insert k v)
  | .nil, _ => ⟨trivial, trivial⟩
  | .cons k' v' r, h => by
    unfold JObj.insert
    split
    · rename_i h1
      exact ⟨⟨h1, above_trans h1 h.1⟩, h⟩
    · split
      · rename_i h1 h2
        exact ⟨above_insert h2 h.1, sorted_insert k v h.2⟩
      · rename_i h1 h2
        have e : k = k' := Classical.byContradiction fun hne => by
          rcases Order.total hne with h | h
          · exact h1 h
          · exact h2 h
        subst e
        exact h

theorem ofEntries_object (l : List (Bytes × Json)) : ∀ acc : JObj, Sorted acc → Sorted (JObj.ofEntries acc l) ∧
    ∀ k, find k (JObj.ofEntries acc l) = ((l.reverse.find? (fun e => e.1 == k)).map (·.2)).or (find k acc) := by
  induction l with
  | nil => exact fun acc h => ⟨h, fun k => rfl⟩
  | cons e l ih =>
    intro acc h
    obtain ⟨h1, h2⟩ := ih (acc.insert e.1 e.2) (sorted_insert _ _ h)
    refine ⟨h1, fun k => ?_⟩
    refine (h2 k).trans ?_
    rw [List.reverse_cons, List.find?_append, find_insert]
    cases l.reverse.find? (fun e => e.1 == k) with
    | some x => rfl
    | none =>
      by_cases hk : e.1 = k
      · simp [hk]
      · simp [hk]

theorem object_ofEntries (l : List (Bytes × Json)) : Object l (JObj.ofEntries .nil l) := by
  obtain ⟨h1, h2⟩ := ofEntries_object l .nil trivial
  refine ⟨h1, fun k => (h2 k).trans ?_⟩
  cases (l.reverse.find? (fun e => e.1 == k)).map (·.2) <;> rfl

theorem find_above {k j : Bytes} {v : Json} : ∀ {o : JObj}, o.Above k → find j o = some v → Order.lt k j = true
  | .nil, _, h => nomatch h
  | .cons k' v' r, ha, h => by
    simp only [find] at h
    split at h
    · rename_i e; subst e; exact ha.1
    · exact find_above ha.2 h

theorem sorted_ext : ∀ {o o' : JObj}, Sorted o → Sorted o' → (∀ k, find k o = find k o') → o = o'
  | .nil, .nil, _, _, _ => rfl
  | .nil, .cons k v r, _, _, h => by
    have := h k
    simp [find] at this
  | .cons k v r, .nil, _, _, h => by
    have := h k
    simp [find] at this
  | .cons k v r, .cons k' v' r', hs, hs', h => by
    have hk : k = k' := Classical.byContradiction fun hne => by
      have h1 := h k
      have h2 := h k'
      simp only [find, if_true, if_neg hne, if_neg (Ne.symm hne)] at h1 h2
      have h3 := find_above hs'.1 h1.symm
      have h4 := find_above hs.1 h2
      exact Order.ne_of_lt (Order.trans _ _ _ h3 h4) rfl
    subst hk
    have hv := h k
    simp only [find, if_true, Option.some.injEq] at hv
    subst hv
    have : r = r' := sorted_ext hs.2 hs'.2 (fun j => by
      by_cases hj : k = j
      · subst hj
        have n1 : find k r = none := by
          cases hf : find k r with
          | none => rfl
          | some x => exact absurd rfl (Order.ne_of_lt (find_above hs.1 hf))
        have n2 : find k r' = none := by
          cases hf : find k r' with
          | none => rfl
          | some x => exact absurd rfl (Order.ne_of_lt (find_above hs'.1 hf))
        rw [n1, n2]
      · have := h j
        simpa only [find, if_neg hj] using this)
    rw [this]

theorem object_iff {l : List (Bytes × Json)} {o : JObj} : Object l o ↔ o = JObj.ofEntries .nil l := by
  constructor
  · intro h
    have h' := object_ofEntries l
    exact sorted_ext h.1 h'.1 (fun k => (h.2 k).trans (h'.2 k).symm)
  · rintro rfl
    exact object_ofEntries l

/-! ### Rows -/

theorem skip_sound : ∀ b : Bytes, ∃ w, b = w ++ skip b ∧ White w
  | [] => ⟨[], rfl, fun _ h => nomatch h⟩
  | x :: b => by
    unfold skip
    split
    · rename_i h
      obtain ⟨w, h1, h2⟩ := skip_sound b
      refine ⟨x :: w, by rw [List.cons_append, ← h1], fun y hy => ?_⟩
      rcases List.mem_cons.1 hy with rfl | hy
      · rcases h with h | h | h | h <;> simp [h]
      · exact h2 y hy
    · exact ⟨[], rfl, fun _ h => nomatch h⟩

theorem skip_white {w : Bytes} (h : White w) (r : Bytes) : skip (w ++ r) = skip r := by
  induction w with
  | nil => rfl
  | cons x w ih =>
    have hx := h x List.mem_cons_self
    rw [List.cons_append, skip, if_pos (by rcases hx with h | h | h | h <;> simp [h])]
    exact ih (fun y hy => h y (List.mem_cons_of_mem _ hy))

theorem ws_eq {u : Unit} {b r : Bytes} : ws b = some (u, r) ↔ r = skip b := by
  unfold ws
  simp [eq_comm]

theorem White.append {a b : Bytes} (ha : White a) (hb : White b) : White (a ++ b) := fun x hx => by
  rcases List.mem_append.1 hx with h | h
  · exact ha x h
  · exact hb x h

theorem White.nil : White [] := fun _ h => nomatch h

theorem white_stops {w r : Bytes} (hw : White w) (hr : Stops r) : Stops (w ++ r) := by
  cases w with
  | nil => exact hr
  | cons x w =>
    intro y hy
    cases hy
    rcases hw _ List.mem_cons_self with h | h | h | h <;> (rw [h]; decide)

section
variable {α : Type} {P : Bytes → α → Prop} {p : Unpack α} {close : UInt8}

theorem items_sound_more (hp : ∀ b a r, p b = some (a, r) → ∃ w t, b = w ++ (t ++ r) ∧ White w ∧ P t a) :
    ∀ {n : Nat} {b r : Bytes} {l : List α}, items close p n false b = some (l, r) →
    (∃ w, White w ∧ b = w ++ close :: r ∧ l = []) ∨ (∃ w body, White w ∧ b = w ++ 44 :: (body ++ close :: r) ∧ Row P body l)
  | 0, _, _, _, h => nomatch h
  | n + 1, b, r, l, h => by
    unfold items at h
    rw [bind_eq] at h
    obtain ⟨_, b1, h1, h⟩ := h
    rw [ws_eq] at h1
    obtain ⟨w0, hb, hw0⟩ := skip_sound b
    rw [← h1] at hb
    rw [bind_eq] at h
    obtain ⟨x, b2, h2, h⟩ := h
    rw [byte_eq] at h2
    subst hb h2
    split at h
    · rename_i e
      subst e
      rw [ret_eq] at h
      obtain ⟨rfl, rfl⟩ := h
      exact Or.inl ⟨w0, hw0, rfl, rfl⟩
    · rw [if_neg (by decide)] at h
      split at h
      · rename_i e
        subst e
        rw [bind_eq] at h
        obtain ⟨_, b3, h3, h⟩ := h
        rw [ws_eq] at h3
        obtain ⟨w1, hb2, hw1⟩ := skip_sound b2
        rw [← h3] at hb2
        rw [bind_eq] at h
        obtain ⟨a, b4, h4, h⟩ := h
        obtain ⟨w2, t, rfl, hw2, ha⟩ := hp _ _ _ h4
        rw [bind_eq] at h
        obtain ⟨l', r', h5, h⟩ := h
        rw [ret_eq] at h
        obtain ⟨rfl, rfl⟩ := h
        right
        rcases items_sound_more hp h5 with ⟨w3, hw3, rfl, rfl⟩ | ⟨w3, body, hw3, rfl, hrow⟩
        · exact ⟨w0, _, hw0, by rw [hb2]; simp, Row.last (w := w1 ++ w2) (hw1.append hw2) ha hw3⟩
        · exact ⟨w0, _, hw0, by rw [hb2]; simp, Row.more (w := w1 ++ w2) (hw1.append hw2) ha hw3 hrow⟩
      · exact nomatch h

theorem items_sound (hp : ∀ b a r, p b = some (a, r) → ∃ w t, b = w ++ (t ++ r) ∧ White w ∧ P t a)
    {n : Nat} {b r : Bytes} {l : List α} (h : items close p n true b = some (l, r)) : ∃ body, b = body ++ close :: r ∧ Rows P body l := by
  cases n with
  | zero => exact nomatch h
  | succ n =>
    unfold items at h
    rw [bind_eq] at h
    obtain ⟨_, b1, h1, h⟩ := h
    rw [ws_eq] at h1
    obtain ⟨w0, hb, hw0⟩ := skip_sound b
    rw [← h1] at hb
    rw [bind_eq] at h
    obtain ⟨x, b2, h2, h⟩ := h
    rw [byte_eq] at h2
    subst hb h2
    split at h
    · rename_i e
      subst e
      rw [ret_eq] at h
      obtain ⟨rfl, rfl⟩ := h
      exact ⟨w0, rfl, Or.inl ⟨hw0, rfl⟩⟩
    · rw [if_pos rfl, bind_eq] at h
      obtain ⟨a, b4, h4, h⟩ := h
      obtain ⟨w2, t, e2, hw2, ha⟩ := hp _ _ _ h4
      rw [bind_eq] at h
      obtain ⟨l', r', h5, h⟩ := h
      rw [ret_eq] at h
      obtain ⟨rfl, rfl⟩ := h
      rcases items_sound_more hp h5 with ⟨w3, hw3, rfl, rfl⟩ | ⟨w3, body, hw3, rfl, hrow⟩
      · exact ⟨_, by rw [e2]; simp, Or.inr (Row.last (w := w0 ++ w2) (hw0.append hw2) ha hw3)⟩
      · exact ⟨_, by rw [e2]; simp, Or.inr (Row.more (w := w0 ++ w2) (hw0.append hw2) ha hw3 hrow)⟩

theorem items_close {n : Nat} {first : Bool} {w r : Bytes} (hw : White w) (hc : skip (close :: r) = close :: r) :
    items close p (n + 1) first (w ++ close :: r) = some ([], r) := by
  unfold items
  rw [bind_some (show ws _ = some ((), _) from ws_eq.2 rfl), skip_white hw, hc, bind_some (show byte _ = some (_, _) from rfl), if_pos rfl]
  rfl

theorem items_first {n : Nat} {w t b : Bytes} (hw : White w) (ht : ∃ x t', t = x :: t' ∧ Starts x ∧ x ≠ close) :
    items close p (n + 1) true (w ++ (t ++ b)) = (p.bind fun a => (items close p n false).bind fun l => ret (a :: l)) (t ++ b) := by
  obtain ⟨x, t, rfl, hs, hx⟩ := ht
  rw [items, bind_some (show ws _ = some ((), _) from ws_eq.2 rfl), skip_white hw, List.cons_append, starts_skip hs,
    bind_some (show byte _ = some (_, _) from rfl), if_neg hx, if_pos rfl]
  rfl

theorem items_next {n : Nat} {w0 w t b : Bytes} (hc : close ≠ 44) (hw0 : White w0) (hw : White w)
    (ht : ∃ x t', t = x :: t' ∧ Starts x ∧ x ≠ close) :
    items close p (n + 1) false (w0 ++ 44 :: (w ++ (t ++ b))) =
      (p.bind fun a => (items close p n false).bind fun l => ret (a :: l)) (t ++ b) := by
  obtain ⟨x, t, rfl, hs, hx⟩ := ht
  rw [items, bind_some (show ws _ = some ((), _) from ws_eq.2 rfl), skip_white hw0,
    show skip (44 :: (w ++ (x :: t ++ b))) = 44 :: (w ++ (x :: t ++ b)) from skip_cons (by decide) (by decide) (by decide) (by decide) _,
    bind_some (show byte _ = some (_, _) from rfl), if_neg (Ne.symm hc), if_neg (by decide), if_pos rfl,
    bind_some (show ws _ = some ((), _) from ws_eq.2 rfl), skip_white hw, List.cons_append, starts_skip hs]

theorem row_length (hb : ∀ t a, P t a → ∃ x t', t = x :: t' ∧ Starts x ∧ x ≠ close) {b : Bytes} {l : List α} (h : Row P b l) :
    l.length ≤ b.length := by
  induction h with
  | last _ ha _ =>
    obtain ⟨x, t, rfl, -⟩ := hb _ _ ha
    simp only [List.length_append, List.length_cons, List.length_nil]; omega
  | more _ _ _ _ ih => simp only [List.length_append, List.length_cons]; omega

theorem items_complete_more (hp : ∀ t a r, P t a → Stops r → p (t ++ r) = some (a, r))
    (hb : ∀ t a, P t a → ∃ x t', t = x :: t' ∧ Starts x ∧ x ≠ close) (hc : close = 93 ∨ close = 125)
    {b : Bytes} {l : List α} (h : Row P b l) : ∀ (n : Nat) (w r : Bytes), White w → l.length ≤ n →
    items close p (n + 1) false (w ++ 44 :: (b ++ close :: r)) = some (l, r) := by
  have hc44 : close ≠ 44 := by rcases hc with rfl | rfl <;> decide
  have hsk : ∀ r, skip (close :: r) = close :: r := fun r => by rcases hc with rfl | rfl <;> rfl
  have hst : ∀ r, Stops (close :: r) := fun r x hx => by cases hx; rcases hc with rfl | rfl <;> decide
  have h44 : ∀ r, Stops (44 :: r) := fun r x hx => by cases hx; decide
  induction h with
  | @last w1 t w2 a hw1 ha hw2 =>
    intro n w r hw hn
    cases n with
    | zero => simp at hn
    | succ n =>
      rw [List.append_assoc, List.append_assoc, items_next hc44 hw hw1 (hb _ _ ha), bind_some (hp _ _ _ ha (white_stops hw2 (hst r))),
        bind_some (items_close hw2 (hsk r))]
      rfl
  | @more w1 t w2 b a l hw1 ha hw2 _ ih =>
    intro n w r hw hn
    cases n with
    | zero => simp at hn
    | succ n =>
      rw [List.append_assoc, List.append_assoc, List.append_assoc, List.cons_append, items_next hc44 hw hw1 (hb _ _ ha),
        bind_some (hp _ _ _ ha (white_stops hw2 (h44 _))), bind_some (ih n w2 r hw2 (by simpa using hn))]
      rfl

theorem items_complete (hp : ∀ t a r, P t a → Stops r → p (t ++ r) = some (a, r))
    (hb : ∀ t a, P t a → ∃ x t', t = x :: t' ∧ Starts x ∧ x ≠ close) (hc : close = 93 ∨ close = 125)
    {b : Bytes} {l : List α} (h : Rows P b l) (r : Bytes) :
    items close p ((b ++ close :: r).length + 1) true (b ++ close :: r) = some (l, r) := by
  have hsk : ∀ r, skip (close :: r) = close :: r := fun r => by rcases hc with rfl | rfl <;> rfl
  have hst : ∀ r, Stops (close :: r) := fun r x hx => by cases hx; rcases hc with rfl | rfl <;> decide
  have h44 : ∀ r, Stops (44 :: r) := fun r x hx => by cases hx; decide
  rcases h with ⟨hw, rfl⟩ | h
  · exact items_close hw (hsk r)
  · have hl := row_length hb h
    have hn : l.length + 1 ≤ (b ++ close :: r).length := by simp only [List.length_append, List.length_cons]; omega
    generalize (b ++ close :: r).length = n at *
    cases n with
    | zero => omega
    | succ n =>
      cases h with
      | @last w1 t w2 a hw1 ha hw2 =>
        rw [List.append_assoc, List.append_assoc, items_first hw1 (hb _ _ ha), bind_some (hp _ _ _ ha (white_stops hw2 (hst r))),
          bind_some (items_close hw2 (hsk r))]
        rfl
      | @more w1 t w2 b a l hw1 ha hw2 hrow =>
        rw [List.append_assoc, List.append_assoc, List.append_assoc, List.cons_append, items_first hw1 (hb _ _ ha),
          bind_some (hp _ _ _ ha (white_stops hw2 (h44 _))),
          bind_some (items_complete_more hp hb hc hrow n w2 r hw2 (by simp only [List.length_cons] at hn; omega))]
        rfl

end

/-! ### Values -/

section
variable {utf8 : Bytes → Bool} {F : Floats}

theorem decimal_starts {t : Bytes} {d : IndraDB.Decimal} (h : Decimal t d) : ∃ x t', t = x :: t' ∧ Starts x := by
  cases h with
  | @mk i tf te f e neg hi hne hz hf he =>
    cases neg with
    | true => exact ⟨45, _, rfl, by simp [Starts]⟩
    | false =>
      cases i with
      | nil => exact absurd rfl hne
      | cons x i => exact ⟨x, _, rfl, by have := hi x List.mem_cons_self; simp [Starts, this]⟩

theorem scalar_starts {t : Bytes} {v : Json} (h : Scalar utf8 F t v) : ∃ x t', t = x :: t' ∧ Starts x := by
  cases h with
  | null => exact ⟨110, _, rfl, by simp [Starts]⟩
  | true => exact ⟨116, _, rfl, by simp [Starts]⟩
  | false => exact ⟨102, _, rfl, by simp [Starts]⟩
  | num h _ => exact decimal_starts h
  | str _ _ => exact ⟨34, _, rfl, by simp [Starts]⟩

theorem value_starts {n : Nat} {t : Bytes} {v : Json} (h : Value utf8 F n t v) : ∃ x t', t = x :: t' ∧ Starts x := by
  cases n with
  | zero => exact scalar_starts h
  | succ n =>
    rcases h with h | ⟨b, l, a, rfl, -⟩ | ⟨b, l, o, rfl, -⟩
    · exact scalar_starts h
    · exact ⟨91, _, rfl, by simp [Starts]⟩
    · exact ⟨123, _, rfl, by simp [Starts]⟩

theorem value_scalar {n : Nat} {t : Bytes} {v : Json} (h : Scalar utf8 F t v) : Value utf8 F n t v := by
  cases n with
  | zero => exact h
  | succ n => exact Or.inl h

/-- The reader after white space. -/
theorem json_ws (c : Nat) {w b : Bytes} (hw : White w) : json utf8 F (c + 1) (w ++ b) = json utf8 F (c + 1) b := by
  unfold json
  rw [bind_some (show ws _ = some ((), _) from ws_eq.2 rfl), bind_some (show ws b = some ((), _) from ws_eq.2 rfl), skip_white hw]

theorem entry_sound {P : Bytes → Json → Prop} {p : Unpack Json} (hp : ∀ b a r, p b = some (a, r) → ∃ w t, b = w ++ (t ++ r) ∧ White w ∧ P t a)
    (b : Bytes) (e : Bytes × Json) (r : Bytes)
    (h : ((expect 34).bind fun _ => (str utf8).bind fun k => ws.bind fun _ => (expect 58).bind fun _ => p.bind fun v => ret (k, v)) b =
      some (e, r)) : ∃ w t, b = w ++ (t ++ r) ∧ White w ∧ Entry utf8 P t e := by
  rw [bind_eq] at h
  obtain ⟨_, b1, h1, h⟩ := h
  rw [expect_eq] at h1
  rw [bind_eq] at h
  obtain ⟨k, b2, h2, h⟩ := h
  obtain ⟨s, rfl, hs, hu⟩ := str_sound h2
  rw [bind_eq] at h
  obtain ⟨_, b3, h3, h⟩ := h
  rw [ws_eq] at h3
  obtain ⟨w, hb2, hw⟩ := skip_sound b2
  rw [← h3] at hb2
  rw [bind_eq] at h
  obtain ⟨_, b4, h4, h⟩ := h
  rw [expect_eq] at h4
  rw [bind_eq] at h
  obtain ⟨v, b5, h5, h⟩ := h
  rw [ret_eq] at h
  obtain ⟨rfl, rfl⟩ := h
  obtain ⟨w', t, rfl, hw', ht⟩ := hp _ _ _ h5
  refine ⟨[], 34 :: (s ++ 34 :: (w ++ 58 :: (w' ++ t))), ?_, White.nil, s, w, w', t, rfl, hs, hu, hw, hw', ht⟩
  rw [h1, hb2, h4]
  simp

theorem entry_complete {P : Bytes → Json → Prop} {p : Unpack Json} (hp : ∀ w t a r, White w → P t a → Stops r → p (w ++ (t ++ r)) = some (a, r))
    (t : Bytes) (e : Bytes × Json) (r : Bytes) (h : Entry utf8 P t e) (hr : Stops r) :
    ((expect 34).bind fun _ => (str utf8).bind fun k => ws.bind fun _ => (expect 58).bind fun _ => p.bind fun v => ret (k, v)) (t ++ r) =
      some (e, r) := by
  obtain ⟨s, w, w', t, rfl, hs, hu, hw, hw', ht⟩ := h
  rw [List.cons_append, bind_some (show expect 34 _ = some ((), _) from expect_eq.2 rfl), List.append_assoc, List.cons_append,
    bind_some (str_complete hs hu _), List.append_assoc, bind_some (show ws _ = some ((), _) from ws_eq.2 rfl), skip_white hw,
    List.cons_append, show ∀ b, skip (58 :: b) = 58 :: b from fun b => rfl, bind_some (show expect 58 _ = some ((), _) from expect_eq.2 rfl),
    List.append_assoc, bind_some (hp _ _ _ _ hw' ht hr)]
  rfl

theorem json_sound : ∀ (n : Nat) (b : Bytes) (v : Json) (r : Bytes), json utf8 F (n + 1) b = some (v, r) →
    ∃ w t, b = w ++ (t ++ r) ∧ White w ∧ Value utf8 F n t v := by
  intro n
  induction n with
  | zero =>
    intro b v r h
    exact step 0 (fun m e => nomatch e) b v r h
  | succ n ih => exact step (n + 1) (fun m e => by cases e; exact ih)
where
  step (n : Nat) (ih : ∀ m, n = m + 1 → ∀ (b : Bytes) (v : Json) (r : Bytes), json utf8 F (m + 1) b = some (v, r) →
      ∃ w t, b = w ++ (t ++ r) ∧ White w ∧ Value utf8 F m t v) (b : Bytes) (v : Json) (r : Bytes)
      (h : json utf8 F (n + 1) b = some (v, r)) : ∃ w t, b = w ++ (t ++ r) ∧ White w ∧ Value utf8 F n t v := by
    unfold json at h
    rw [bind_eq] at h
    obtain ⟨_, b1, h1, h⟩ := h
    rw [ws_eq] at h1
    obtain ⟨w, hb, hw⟩ := skip_sound b
    rw [← h1] at hb
    rw [bind_eq] at h
    obtain ⟨x, b2, h2, h⟩ := h
    rw [byte_eq] at h2
    subst hb h2
    clear h1
    refine ⟨w, ?_⟩
    suffices hs : ∃ t, x :: b2 = t ++ r ∧ Value utf8 F n t v by
      obtain ⟨t, e, ht⟩ := hs
      exact ⟨t, by rw [e], hw, ht⟩
    split at h
    · rename_i e
      subst e
      simp only [bind_eq, expect_eq, ret_eq] at h
      obtain ⟨_, _, rfl, _, _, rfl, _, _, rfl, rfl, rfl⟩ := h
      exact ⟨_, rfl, value_scalar Scalar.null⟩
    split at h
    · rename_i e
      subst e
      simp only [bind_eq, expect_eq, ret_eq] at h
      obtain ⟨_, _, rfl, _, _, rfl, _, _, rfl, rfl, rfl⟩ := h
      exact ⟨_, rfl, value_scalar Scalar.true⟩
    split at h
    · rename_i e
      subst e
      simp only [bind_eq, expect_eq, ret_eq] at h
      obtain ⟨_, _, rfl, _, _, rfl, _, _, rfl, _, _, rfl, rfl, rfl⟩ := h
      exact ⟨_, rfl, value_scalar Scalar.false⟩
    split at h
    · rename_i e
      subst e
      rw [bind_eq] at h
      obtain ⟨m, b3, h3, h⟩ := h
      rw [ret_eq] at h
      obtain ⟨rfl, rfl⟩ := h
      obtain ⟨i, tf, te, f, e, rfl, hi, hne, hz, hf, he, hn⟩ := number_sound h3
      exact ⟨_, rfl, value_scalar (Scalar.num (Decimal.mk Bool.true hi hne hz hf he) hn)⟩
    split at h
    · rw [bind_eq] at h
      obtain ⟨m, b3, h3, h⟩ := h
      rw [ret_eq] at h
      obtain ⟨rfl, rfl⟩ := h
      obtain ⟨i, tf, te, f, e, h4, hi, hne, hz, hf, he, hn⟩ := number_sound h3
      exact ⟨_, h4, value_scalar (Scalar.num (Decimal.mk Bool.false hi hne hz hf he) hn)⟩
    split at h
    · rename_i e
      subst e
      rw [bind_eq] at h
      obtain ⟨s, b3, h3, h⟩ := h
      rw [ret_eq] at h
      obtain ⟨rfl, rfl⟩ := h
      obtain ⟨t, rfl, ht, hu⟩ := str_sound h3
      exact ⟨34 :: (t ++ [34]), by simp, value_scalar (Scalar.str ht hu)⟩
    split at h
    · rename_i e
      subst e
      split at h
      · exact nomatch h
      · rename_i hn
        obtain ⟨m, rfl⟩ := Nat.exists_eq_succ_of_ne_zero hn
        rw [bind_eq] at h
        obtain ⟨l, b3, h3, h⟩ := h
        rw [ret_eq] at h
        obtain ⟨rfl, rfl⟩ := h
        obtain ⟨body, rfl, hr⟩ := items_sound (ih m rfl) h3
        exact ⟨91 :: (body ++ [93]), by simp, Or.inr (Or.inl ⟨body, l, _, rfl, hr, rfl, elements_ofElems l⟩)⟩
    split at h
    · rename_i e
      subst e
      split at h
      · exact nomatch h
      · rename_i hn
        obtain ⟨m, rfl⟩ := Nat.exists_eq_succ_of_ne_zero hn
        rw [bind_eq] at h
        obtain ⟨l, b3, h3, h⟩ := h
        rw [ret_eq] at h
        obtain ⟨rfl, rfl⟩ := h
        obtain ⟨body, rfl, hr⟩ := items_sound (entry_sound (ih m rfl)) h3
        exact ⟨123 :: (body ++ [125]), by simp, Or.inr (Or.inr ⟨body, l, _, rfl, hr, rfl, object_ofEntries l⟩)⟩
    · exact nomatch h

theorem json_scalar (n : Nat) {t : Bytes} {v : Json} (h : Scalar utf8 F t v) {r : Bytes} (hr : Stops r) :
    json utf8 F (n + 1) (t ++ r) = some (v, r) := by
  cases h with
  | null => rfl
  | true => rfl
  | false => rfl
  | @num t d m hd hn =>
    cases hd with
    | @mk i tf te f e neg hi hne hz hf he =>
      cases neg with
      | true =>
        show json utf8 F (n + 1) (45 :: ((i ++ (tf ++ te)) ++ r)) = _
        rw [json_minus, bind_some (number_complete hi hne hz hf he hn hr)]
        rfl
      | false =>
        show json utf8 F (n + 1) ((i ++ (tf ++ te)) ++ r) = _
        have hnum := number_complete hi hne hz hf he hn hr
        cases i with
        | nil => exact absurd rfl hne
        | cons x i =>
          refine (json_digit n (hi x List.mem_cons_self) _).trans ?_
          exact bind_some hnum
  | @str t s hs hu =>
    show (((str utf8).bind fun s => ret (Json.str s)) ((t ++ [34]) ++ r)) = _
    rw [List.append_assoc]
    exact bind_some (str_complete hs hu r)

theorem json_complete : ∀ (n : Nat) (w t : Bytes) (v : Json) (r : Bytes), White w → Value utf8 F n t v → Stops r →
    json utf8 F (n + 1) (w ++ (t ++ r)) = some (v, r) := by
  intro n
  induction n with
  | zero => intro w t v r hw h hr; rw [json_ws 0 hw]; exact json_scalar 0 h hr
  | succ n ih =>
    intro w t v r hw h hr
    rw [json_ws _ hw]
    rcases h with h | ⟨b, l, a, rfl, hrow, rfl, ha⟩ | ⟨b, l, o, rfl, hrow, rfl, ho⟩
    · exact json_scalar _ h hr
    · have h1 := items_complete (close := 93) (p := json utf8 F (n + 1)) (fun t a r h hr => ih [] t a r White.nil h hr)
        (fun t a h => by obtain ⟨x, t', e, hs⟩ := value_starts h; exact ⟨x, t', e, hs, (starts_ne hs).1⟩) (Or.inl rfl) hrow r
      have h2 : (fun b => items 93 (json utf8 F (n + 1)) (b.length + 1) true b) (b ++ 93 :: r) = some (l, r) := h1
      show Unpack.bind (fun b => items 93 (json utf8 F (n + 1)) (b.length + 1) true b) (fun l => ret (Json.arr (JArr.ofElems l)))
        ((b ++ [93]) ++ r) = _
      rw [List.append_assoc]
      refine (bind_some h2).trans ?_
      rw [← ha, ofElems_elements]
      rfl
    · have h1 := items_complete (close := 125) (P := Entry utf8 (Value utf8 F n)) (entry_complete ih)
        (fun t a h => by
          obtain ⟨s, w, w', t, rfl, -⟩ := h
          exact ⟨34, _, rfl, by simp [Starts], by decide⟩) (Or.inr rfl) hrow r
      show Unpack.bind (fun b => items 125 ((expect 34).bind fun _ => (str utf8).bind fun k => ws.bind fun _ =>
        (expect 58).bind fun _ => (json utf8 F (n + 1)).bind fun v => ret (k, v)) (b.length + 1) true b)
        (fun l => ret (Json.obj (JObj.ofEntries .nil l))) ((b ++ [125]) ++ r) = _
      rw [List.append_assoc]
      refine (bind_some (p := fun b => items 125 ((expect 34).bind fun _ => (str utf8).bind fun k => ws.bind fun _ =>
        (expect 58).bind fun _ => (json utf8 F (n + 1)).bind fun v => ret (k, v)) (b.length + 1) true b) h1).trans ?_
      rw [object_iff.1 ho]
      rfl

/-- The reader accepts exactly the texts of the grammar, and gives the value they stand for. -/
theorem all_iff (n : Nat) (b : Bytes) (v : Json) : JsonRead.all utf8 F (n + 1) b = some v ↔ Text utf8 F n b v := by
  unfold JsonRead.all
  constructor
  · intro h
    cases hj : json utf8 F (n + 1) b with
    | none => rw [hj] at h; exact nomatch h
    | some p =>
      obtain ⟨v', r⟩ := p
      rw [hj] at h
      simp only [] at h
      split at h
      · rename_i hr
        cases h
        obtain ⟨w, t, rfl, hw, ht⟩ := json_sound n b v r hj
        obtain ⟨w', e, hw'⟩ := skip_sound r
        rw [hr, List.append_nil] at e
        subst e
        exact ⟨w, t, r, rfl, hw, hw', ht⟩
      · exact nomatch h
  · rintro ⟨w, t, w', rfl, hw, hw', ht⟩
    have hst : Stops w' := by
      have := white_stops hw' (r := []) (fun x hx => nomatch hx)
      rwa [List.append_nil] at this
    rw [json_complete n w t v w' hw ht hst]
    simp only []
    have hsk : skip w' = [] := by
      have := skip_white hw' []
      rwa [List.append_nil] at this
    rw [if_pos hsk]

end

end JsonGrammar
end IndraDB
