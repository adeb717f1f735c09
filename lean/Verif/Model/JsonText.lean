import Verif.Model.Msgpack
import Verif.Model.Rocks
import Verif.Model.Proto
/-
JSON text: what `serde_json::to_vec` writes for a value (`lib/src/rdb/managers.rs:356, 470`) and how `serde_json::from_slice`
reads it (`lib/src/rdb/managers.rs:331, 338, 442, 452`), i.e. a `Codec`. The crate is not part of the repository; what is modelled is
its behaviour with the features the repository turns on (none): the compact writer, and the reader for `Value`.
Simplifications: the conversion of floats to and from decimal digits is a parameter (`Floats`); of an error only that there is one is
kept.
-/
namespace IndraDB

/-- A number as it is written: a sign, digits, digits after the point (none: no point is written), and digits after the letter `e`
with their sign. Written at `lib/src/rdb/managers.rs:356`, read at `lib/src/rdb/managers.rs:338`. -/
structure Decimal where
  neg : Bool
  int : Bytes
  frac : Bytes
  exp : Option (Bool × Bytes)
deriving DecidableEq

/-- How floats become digits (the crate `ryu`) and digits become floats (`serde_json`, best effort: the feature
`float_roundtrip` is off); `none` for numbers that are out of range. No law is built in.
Used at `lib/src/rdb/managers.rs:331, 338, 356, 442, 452, 470`. -/
structure Floats where
  print : F64 → Decimal
  parse : Decimal → Option F64

/-! ### Writing -/

/-- The digits of a number below `10^k` (the crate `itoa`). Part of what is written at `lib/src/rdb/managers.rs:356`. -/
def digitsOf : Nat → Nat → Bytes
  | 0, _ => []
  | k + 1, n => if n < 10 then [UInt8.ofNat (48 + n)] else digitsOf k (n / 10) ++ [UInt8.ofNat (48 + n % 10)]

/-- A float. Part of what is written at `lib/src/rdb/managers.rs:356`. -/
def Decimal.text (d : Decimal) : Bytes :=
  (if d.neg then [45] else []) ++ (d.int ++ ((if d.frac = [] then [] else 46 :: d.frac) ++
    (match d.exp with
     | none => []
     | some (neg, e) => 101 :: ((if neg then [45] else []) ++ e))))

/-- `Serialize for serde_json::Number`, used by `Json` (`lib/src/models/json.rs:198-205`). -/
def Num.text (F : Floats) : Num → Bytes
  | .posInt n => digitsOf 20 n.val
  | .negInt m => 45 :: digitsOf 20 (m.val + 1)
  | .float f => (F.print f).text

/-- A digit of a hexadecimal number below 16, in lower case. Part of what is written at `lib/src/rdb/managers.rs:356`. -/
def hexDigit (n : Nat) : UInt8 := UInt8.ofNat (if n < 10 then 48 + n else 87 + n)

/-- The byte of a string: quotes, backslashes and control characters are escaped. Part of what is written at
`lib/src/rdb/managers.rs:356`. -/
def escapeByte (x : UInt8) : Bytes :=
  if x = 34 then [92, 34]
  else if x = 92 then [92, 92]
  else if x = 8 then [92, 98]
  else if x = 9 then [92, 116]
  else if x = 10 then [92, 110]
  else if x = 12 then [92, 102]
  else if x = 13 then [92, 114]
  else if x.toNat < 32 then [92, 117, 48, 48, hexDigit (x.toNat / 16), hexDigit (x.toNat % 16)]
  else [x]

/-- The bytes of a string and the quote after them. Part of what is written at `lib/src/rdb/managers.rs:356`. -/
def escapeAll : Bytes → Bytes
  | [] => [34]
  | x :: s => escapeByte x ++ escapeAll s

/-- A string. Part of what is written at `lib/src/rdb/managers.rs:356`. -/
def quoted (s : Bytes) : Bytes := 34 :: escapeAll s

/-- The comma before all elements but the first. Part of what is written at `lib/src/rdb/managers.rs:356`. -/
def comma (first : Bool) : Bytes := if first then [] else [44]

mutual
/-- `Serialize for serde_json::Value`, used by `Json` (`lib/src/models/json.rs:198-205`), without spaces. -/
def Json.text (F : Floats) : Json → Bytes
  | .null => [110, 117, 108, 108]
  | .bool false => [102, 97, 108, 115, 101]
  | .bool true => [116, 114, 117, 101]
  | .num n => n.text F
  | .str s => quoted s
  | .arr a => 91 :: a.text F true
  | .obj o => 123 :: o.text F true
/-- The elements of an array, in order, and the bracket after them (`lib/src/models/json.rs:198-205`). -/
def JArr.text (F : Floats) : JArr → Bool → Bytes
  | .nil, _ => [93]
  | .cons v r, first => comma first ++ (v.text F ++ r.text F false)
/-- The entries of an object, in order, and the brace after them (`lib/src/models/json.rs:198-205`). -/
def JObj.text (F : Floats) : JObj → Bool → Bytes
  | .nil, _ => [125]
  | .cons k v r, first => comma first ++ ((quoted k ++ 58 :: v.text F) ++ r.text F false)
end

/-! ### Reading -/

namespace JsonRead
open Unpack

/-- A digit. Part of what is done at `lib/src/rdb/managers.rs:338`. -/
def isDigit (x : UInt8) : Bool := 48 ≤ x.toNat && x.toNat ≤ 57

/-- The digits at the front. Part of what is done at `lib/src/rdb/managers.rs:338`. -/
def digitRun : Bytes → Bytes × Bytes
  | [] => ([], [])
  | x :: r => if isDigit x then (x :: (digitRun r).1, (digitRun r).2) else ([], x :: r)

/-- The digits at the front, at least one. Part of what is done at `lib/src/rdb/managers.rs:338`. -/
def digits : Unpack Bytes := fun b => if (digitRun b).1 = [] then none else some (digitRun b)

/-- Take the byte `x` if it comes next. Part of what is done at `lib/src/rdb/managers.rs:338`. -/
def accept (x : UInt8) : Unpack Bool
  | [] => some (false, [])
  | y :: r => if y = x then some (true, r) else some (false, y :: r)

/-- The byte `x` must come next. Part of what is done at `lib/src/rdb/managers.rs:338`. -/
def expect (x : UInt8) : Unpack Unit := byte.bind fun y => if y = x then ret () else fail

/-- Skip spaces, tabs and line ends. Part of what is done at `lib/src/rdb/managers.rs:338`. -/
def skip : Bytes → Bytes
  | [] => []
  | x :: r => if x = 32 ∨ x = 10 ∨ x = 9 ∨ x = 13 then skip r else x :: r

/-- Skip white space. Part of what is done at `lib/src/rdb/managers.rs:338`. -/
def ws : Unpack Unit := fun b => some ((), skip b)

/-- The value of digits; `acc` is what has been read before. Part of what is done at `lib/src/rdb/managers.rs:338`. -/
def decVal (acc : Nat) : Bytes → Nat
  | [] => acc
  | x :: r => decVal (acc * 10 + (x.toNat - 48)) r

/-- A point and digits, or nothing. Part of what is done at `lib/src/rdb/managers.rs:338`. -/
def fraction : Unpack Bytes := (accept 46).bind fun t => if t then digits else ret []

/-- The letter `e` or `E`, a sign and digits, or nothing. Part of what is done at `lib/src/rdb/managers.rs:338`. -/
def exponent : Unpack (Option (Bool × Bytes)) :=
  (accept 101).bind fun t => (if t then ret true else accept 69).bind fun t =>
    if t then (accept 43).bind fun plus => (if plus then ret false else accept 45).bind fun neg =>
      digits.bind fun d => ret (some (neg, d))
    else ret none

/-- The number: an integer if it has neither point nor exponent and fits in 64 bits (`-0` does not), and otherwise a float.
Part of what is done at `lib/src/rdb/managers.rs:338`. -/
def numOf (F : Floats) (d : Decimal) : Option Num :=
  if d.frac = [] ∧ d.exp = none then
    if d.neg then
      if h : 0 < decVal 0 d.int ∧ decVal 0 d.int ≤ 9223372036854775808 then
        some (.negInt ⟨decVal 0 d.int - 1, by omega⟩)
      else (F.parse d).map .float
    else if h : decVal 0 d.int < 18446744073709551616 then some (.posInt ⟨decVal 0 d.int, h⟩)
    else (F.parse d).map .float
  else (F.parse d).map .float

/-- A number after its sign. A zero in front of other digits is refused. Part of what is done at `lib/src/rdb/managers.rs:338`. -/
def number (F : Floats) (neg : Bool) : Unpack Num :=
  digits.bind fun i => if i.head? = some 48 ∧ i ≠ [48] then fail else
    fraction.bind fun f => exponent.bind fun e =>
      match numOf F ⟨neg, i, f, e⟩ with
      | some n => ret n
      | none => fail

/-- A hexadecimal digit. Part of what is done at `lib/src/rdb/managers.rs:338`. -/
def hexVal (x : UInt8) : Option Nat :=
  if isDigit x then some (x.toNat - 48)
  else if 97 ≤ x.toNat ∧ x.toNat ≤ 102 then some (x.toNat - 87)
  else if 65 ≤ x.toNat ∧ x.toNat ≤ 70 then some (x.toNat - 55)
  else none

/-- Read a hexadecimal digit. Part of what is done at `lib/src/rdb/managers.rs:338`. -/
def hex1 : Unpack Nat := byte.bind fun x => match hexVal x with
  | some n => ret n
  | none => fail

/-- Four hexadecimal digits. Part of what is done at `lib/src/rdb/managers.rs:338`. -/
def hex4 : Unpack Nat := hex1.bind fun a => hex1.bind fun b => hex1.bind fun c => hex1.bind fun d =>
  ret (((a * 16 + b) * 16 + c) * 16 + d)

/-- A code point in UTF-8. Part of what is done at `lib/src/rdb/managers.rs:338`. -/
def utf8Of (n : Nat) : Bytes :=
  if n < 0x80 then [UInt8.ofNat n]
  else if n < 0x800 then [UInt8.ofNat (0xc0 + n / 64), UInt8.ofNat (0x80 + n % 64)]
  else if n < 0x10000 then
    [UInt8.ofNat (0xe0 + n / 4096), UInt8.ofNat (0x80 + n / 64 % 64), UInt8.ofNat (0x80 + n % 64)]
  else [UInt8.ofNat (0xf0 + n / 262144), UInt8.ofNat (0x80 + n / 4096 % 64), UInt8.ofNat (0x80 + n / 64 % 64),
    UInt8.ofNat (0x80 + n % 64)]

/-- After `\u`: a code point, or the two halves of one. Part of what is done at `lib/src/rdb/managers.rs:338`. -/
def unicode : Unpack Bytes := hex4.bind fun n =>
  if 0xdc00 ≤ n ∧ n ≤ 0xdfff then fail
  else if 0xd800 ≤ n ∧ n ≤ 0xdbff then
    (expect 92).bind fun _ => (expect 117).bind fun _ => hex4.bind fun m =>
      if 0xdc00 ≤ m ∧ m ≤ 0xdfff then ret (utf8Of (0x10000 + (n - 0xd800) * 1024 + (m - 0xdc00))) else fail
  else ret (utf8Of n)

/-- After a backslash. Part of what is done at `lib/src/rdb/managers.rs:338`. -/
def escape : Unpack Bytes := byte.bind fun x =>
  if x = 34 then ret [34]
  else if x = 92 then ret [92]
  else if x = 47 then ret [47]
  else if x = 98 then ret [8]
  else if x = 102 then ret [12]
  else if x = 110 then ret [10]
  else if x = 114 then ret [13]
  else if x = 116 then ret [9]
  else if x = 117 then unicode
  else fail

/-- A string after its quote, at most `n` steps. Part of what is done at `lib/src/rdb/managers.rs:338`. -/
def strRest : Nat → Unpack Bytes
  | 0 => fail
  | n + 1 => byte.bind fun x =>
    if x = 34 then ret []
    else if x = 92 then escape.bind fun e => (strRest n).bind fun s => ret (e ++ s)
    else if x.toNat < 32 then fail
    else (strRest n).bind fun s => ret (x :: s)

/-- The elements of an array, or the entries of an object, up to the closing byte, at most `n` steps. (A closing byte after a comma is
refused by `p`.) Part of what is done at `lib/src/rdb/managers.rs:338`. -/
def items {α : Type} (close : UInt8) (p : Unpack α) : Nat → Bool → Unpack (List α)
  | 0, _ => fail
  | n + 1, first => ws.bind fun _ => byte.bind fun x =>
    if x = close then ret []
    else if first then Unpack.bind (fun b => p (x :: b)) fun a => (items close p n false).bind fun l => ret (a :: l)
    else if x = 44 then ws.bind fun _ => p.bind fun a => (items close p n false).bind fun l => ret (a :: l)
    else fail

section
variable (utf8 : Bytes → Bool) (F : Floats)

/-- A string after its quote; `utf8` is the check made by `str::from_utf8`. Part of what is done at
`lib/src/rdb/managers.rs:338`. -/
def str : Unpack Bytes := Unpack.bind (fun b => strRest (b.length + 1) b) fun s => if utf8 s then ret s else fail

/-- `Deserialize for serde_json::Value`, used by `Json` (`lib/src/models/json.rs:207-215`). The argument is the number of levels
that may still be opened (`remaining_depth`): entering an array or an object lowers it by one, and is an error if it becomes
zero. -/
def json : Nat → Unpack Json
  | 0 => fail
  | c + 1 => ws.bind fun _ => byte.bind fun x =>
    if x = 110 then (expect 117).bind fun _ => (expect 108).bind fun _ => (expect 108).bind fun _ => ret .null
    else if x = 116 then
      (expect 114).bind fun _ => (expect 117).bind fun _ => (expect 101).bind fun _ => ret (.bool true)
    else if x = 102 then
      (expect 97).bind fun _ => (expect 108).bind fun _ => (expect 115).bind fun _ => (expect 101).bind fun _ =>
        ret (.bool false)
    else if x = 45 then (number F true).bind fun n => ret (.num n)
    else if isDigit x then Unpack.bind (fun b => number F false (x :: b)) fun n => ret (.num n)
    else if x = 34 then (str utf8).bind fun s => ret (.str s)
    else if x = 91 then if c = 0 then fail else
      Unpack.bind (fun b => items 93 (json c) (b.length + 1) true b) fun l => ret (.arr (JArr.ofElems l))
    else if x = 123 then if c = 0 then fail else
      Unpack.bind (fun b => items 125 ((expect 34).bind fun _ => (str utf8).bind fun k => ws.bind fun _ =>
        (expect 58).bind fun _ => (json c).bind fun v => ret (k, v)) (b.length + 1) true b) fun l =>
        ret (.obj (JObj.ofEntries .nil l))
    else fail

/-- The whole text is one value, with white space around it. `lib/src/rdb/managers.rs:338`. -/
def all (limit : Nat) (b : Bytes) : Option Json :=
  match json utf8 F limit b with
  | some (v, r) => if skip r = [] then some v else none
  | none => none

end
end JsonRead

/-- `serde_json::to_vec` and `serde_json::from_slice`; the limit of the nesting is 128.
`lib/src/rdb/managers.rs:331, 338, 356, 442, 452, 470`. -/
def serdeJson (utf8 : Bytes → Bool) (F : Floats) : Codec := ⟨Json.text F, JsonRead.all utf8 F 128⟩

/-- `str::from_utf8` succeeds. Used by `serde_json::from_slice` at `lib/src/rdb/managers.rs:338`, and true of every `String`. -/
def utf8Ok (b : Bytes) : Bool := decide b.toByteArray.IsValidUTF8

/-- `serde_json::to_string` and `serde_json::from_str` (`proto/src/converters.rs:102-113`). The text that is written is
always UTF-8 (`text_utf8`). `from_str` does not check the strings it reads, since they are UTF-8 if the text is; checking them makes no
difference (`JsonGrammar.text_iff`, `C92_message`). -/
def serdeText (F : Floats) : JsonText where
  print v := if h : (v.text F).toByteArray.IsValidUTF8 then String.ofByteArray (v.text F).toByteArray h else ""
  parse s := JsonRead.all utf8Ok F 128 (strBytes s)

end IndraDB
