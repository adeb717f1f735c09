import Verif.Model.JsonText
import Verif.Spec.JsonFloat
/-
The grammar of JSON text (RFC 8259) and what texts stand for.
-/
namespace IndraDB
namespace JsonGrammar

/-- White space: spaces, tabs, line feeds and carriage returns. -/
def White (b : Bytes) : Prop := ∀ x ∈ b, x = 32 ∨ x = 9 ∨ x = 10 ∨ x = 13

/-! ### Strings -/

/-- `x` is the hexadecimal digit for `d`. -/
def Hex (x : UInt8) (d : Nat) : Prop :=
  (strBytes "0123456789abcdef")[d]? = some x ∨ (strBytes "0123456789ABCDEF")[d]? = some x

/-- Four hexadecimal digits, and the number. -/
def Hex4 (t : Bytes) (n : Nat) : Prop :=
  ∃ x y z w a b c d, t = [x, y, z, w] ∧ Hex x a ∧ Hex y b ∧ Hex z c ∧ Hex w d ∧ n = a * 16 ^ 3 + b * 16 ^ 2 + c * 16 + d

/-- What may follow a backslash, and the bytes it stands for. -/
inductive Escape : Bytes → Bytes → Prop
  | quote : Escape (strBytes "\"") (strBytes "\"")
  | backslash : Escape (strBytes "\\") (strBytes "\\")
  | slash : Escape (strBytes "/") (strBytes "/")
  | backspace : Escape (strBytes "b") [8]
  | formFeed : Escape (strBytes "f") [12]
  | lineFeed : Escape (strBytes "n") [10]
  | return : Escape (strBytes "r") [13]
  | tab : Escape (strBytes "t") [9]
  /-- A character by its number. -/
  | code {t : Bytes} {c : Char} : Hex4 t c.toNat → Escape (117 :: t) (String.utf8EncodeChar c)
  /-- A character by its two surrogates. -/
  | pair {t t' : Bytes} {n m : Nat} {c : Char} : Hex4 t (0xd800 + n) → Hex4 t' (0xdc00 + m) → n < 1024 → m < 1024 →
      c.toNat = 0x10000 + n * 1024 + m → Escape (117 :: (t ++ 92 :: 117 :: t')) (String.utf8EncodeChar c)

/-- The text between quotes, and the bytes it stands for. -/
inductive Str : Bytes → Bytes → Prop
  | nil : Str [] []
  | char {x : UInt8} {t s : Bytes} : 32 ≤ x.toNat → x ≠ 34 → x ≠ 92 → Str t s → Str (x :: t) (x :: s)
  | escape {e c t s : Bytes} : Escape e c → Str t s → Str (92 :: (e ++ t)) (c ++ s)

/-! ### Numbers -/

/-- A point and digits, or nothing. -/
inductive Frac : Bytes → Bytes → Prop
  | none : Frac [] []
  | some {f : Bytes} : AllDigits f → f ≠ [] → Frac (46 :: f) f

/-- An exponent, or nothing. -/
inductive Exp : Bytes → Option (Bool × Bytes) → Prop
  | none : Exp [] none
  | plain {x : UInt8} {d : Bytes} : x = 101 ∨ x = 69 → AllDigits d → d ≠ [] → Exp (x :: d) (some (false, d))
  | plus {x : UInt8} {d : Bytes} : x = 101 ∨ x = 69 → AllDigits d → d ≠ [] → Exp (x :: 43 :: d) (some (false, d))
  | minus {x : UInt8} {d : Bytes} : x = 101 ∨ x = 69 → AllDigits d → d ≠ [] → Exp (x :: 45 :: d) (some (true, d))

/-- The text of a number. -/
inductive Decimal : Bytes → IndraDB.Decimal → Prop
  | mk {i tf te f : Bytes} {e : Option (Bool × Bytes)} (neg : Bool) : AllDigits i → i ≠ [] → (i.head? = some 48 → i = [48]) → Frac tf f →
      Exp te e → Decimal ((if neg then [45] else []) ++ (i ++ (tf ++ te))) ⟨neg, i, f, e⟩

/-- The number: an integer if it is written as one and is in the range of `u64` or `i64`, and otherwise a float. -/
inductive Number (F : Floats) (d : IndraDB.Decimal) : Num → Prop
  | pos (n : Fin 18446744073709551616) : d.frac = [] → d.exp = none → d.neg = false → digitsVal d.int = n.val → Number F d (.posInt n)
  | neg (m : Fin 9223372036854775808) : d.frac = [] → d.exp = none → d.neg = true → digitsVal d.int = m.val + 1 → Number F d (.negInt m)
  | float (f : F64) : d.frac ≠ [] ∨ d.exp ≠ none ∨ (d.neg = false ∧ 2 ^ 64 ≤ digitsVal d.int) ∨
      (d.neg = true ∧ (digitsVal d.int = 0 ∨ 2 ^ 63 < digitsVal d.int)) → F.parse d = some f → Number F d (.float f)

/-! ### Values -/

/-- Things in a row, with white space around them, separated by commas. -/
inductive Row {α : Type} (P : Bytes → α → Prop) : Bytes → List α → Prop
  | last {w t w' : Bytes} {a : α} : White w → P t a → White w' → Row P (w ++ (t ++ w')) [a]
  | more {w t w' b : Bytes} {a : α} {l : List α} : White w → P t a → White w' → Row P b l → Row P (w ++ (t ++ (w' ++ 44 :: b))) (a :: l)

/-- The same, or none. -/
def Rows {α : Type} (P : Bytes → α → Prop) (b : Bytes) (l : List α) : Prop := (White b ∧ l = []) ∨ Row P b l

/-- A string and a value with a colon in between. -/
def Entry (utf8 : Bytes → Bool) (P : Bytes → Json → Prop) (b : Bytes) (e : Bytes × Json) : Prop :=
  ∃ s w w' t, b = 34 :: (s ++ 34 :: (w ++ 58 :: (w' ++ t))) ∧ Str s e.1 ∧ utf8 e.1 = true ∧ White w ∧ White w' ∧ P t e.2

/-- The entry of an object with this key. -/
def find (k : Bytes) : JObj → Option Json
  | .nil => none
  | .cons k' v r => if k' = k then some v else find k r

/-- The keys are in order (each once). -/
def Sorted : JObj → Prop
  | .nil => True
  | .cons k _ r => r.Above k ∧ Sorted r

/-- The object with these entries; of entries with the same key the last one counts. -/
def Object (l : List (Bytes × Json)) (o : JObj) : Prop :=
  Sorted o ∧ ∀ k, find k o = (l.reverse.find? (fun e => e.1 == k)).map (·.2)

/-- The elements of an array. -/
def elements : JArr → List Json
  | .nil => []
  | .cons v r => v :: elements r

/-- Values without brackets and braces. -/
inductive Scalar (utf8 : Bytes → Bool) (F : Floats) : Bytes → Json → Prop
  | null : Scalar utf8 F (strBytes "null") .null
  | true : Scalar utf8 F (strBytes "true") (.bool true)
  | false : Scalar utf8 F (strBytes "false") (.bool false)
  | num {t : Bytes} {d : IndraDB.Decimal} {n : Num} : Decimal t d → Number F d n → Scalar utf8 F t (.num n)
  | str {t s : Bytes} : Str t s → utf8 s = .true → Scalar utf8 F (34 :: (t ++ [34])) (.str s)

/-- A value, with brackets and braces nested at most `n` deep. -/
def Value (utf8 : Bytes → Bool) (F : Floats) : Nat → Bytes → Json → Prop
  | 0, t, v => Scalar utf8 F t v
  | n + 1, t, v => Scalar utf8 F t v ∨
    (∃ b l a, t = 91 :: (b ++ [93]) ∧ Rows (Value utf8 F n) b l ∧ v = .arr a ∧ elements a = l) ∨
    (∃ b l o, t = 123 :: (b ++ [125]) ∧ Rows (Entry utf8 (Value utf8 F n)) b l ∧ v = .obj o ∧ Object l o)

/-- A JSON text with nesting of at most `n` levels: a value with white space around it. -/
def Text (utf8 : Bytes → Bool) (F : Floats) (n : Nat) (b : Bytes) (v : Json) : Prop :=
  ∃ w t w', b = w ++ (t ++ w') ∧ White w ∧ White w' ∧ Value utf8 F n t v

end JsonGrammar
end IndraDB
