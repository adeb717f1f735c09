import Verif.Model.Cli
/-
The text of an id: `Uuid::parse_str`, by which the command line client reads the ids it is given
(`client/src/main.rs:165, 261, 267, 268`), and the text `{:?}` prints for an id (170, 176, 206, 210, 222, 234). Both belong
to the crate `uuid` (1.12.0 by `Cargo.lock:1471`); they are written here after its `parser.rs` and `fmt.rs`.
-/
namespace IndraDB
namespace UuidText

/-- `HEX_TABLE`: the value of a hexadecimal digit in either case. Used through `client/src/main.rs:165, 261, 267, 268`. -/
def hexDigit (b : UInt8) : Option UInt8 :=
  if 48 ≤ b ∧ b ≤ 57 then some (b - 48)
  else if 97 ≤ b ∧ b ≤ 102 then some (b - 87)
  else if 65 ≤ b ∧ b ≤ 70 then some (b - 55)
  else none

/-- The byte given by the two digits at position `i`; `SHL4_TABLE` multiplies by 16.
Used through `client/src/main.rs:165, 261, 267, 268`. -/
def pairAt (s : Bytes) (i : Nat) : Option UInt8 := do
  let hi ← (← s[i]?) |> hexDigit
  let lo ← (← s[i + 1]?) |> hexDigit
  return hi * 16 + lo

/-- `parse_simple`: 32 digits. Used through `client/src/main.rs:165, 261, 267, 268`. -/
def parseSimple (s : Bytes) : Option Bytes :=
  if s.length = 32 then (List.range 16).mapM fun i => pairAt s (i * 2) else none

/-- `parse_hyphenated`: the hyphens first, then four digits at each of eight positions.
Used through `client/src/main.rs:165, 261, 267, 268`. -/
def parseHyphenated (s : Bytes) : Option Bytes :=
  if s.length = 36 then
    if s[8]? = some 45 ∧ s[13]? = some 45 ∧ s[18]? = some 45 ∧ s[23]? = some 45 then
      ([0, 4, 9, 14, 19, 24, 28, 32].flatMap fun i => [i, i + 2]).mapM (pairAt s)
    else none
  else none

/-- `try_parse`: which form it is, by the length. Used through `client/src/main.rs:165, 261, 267, 268`. -/
def tryParse (s : Bytes) : Option Bytes :=
  if s.length = 32 then parseSimple s
  else if s.length = 36 then parseHyphenated s
  else if s.length = 38 then
    if s[0]? = some 123 ∧ s[37]? = some 125 then parseHyphenated ((s.drop 1).take 36) else none
  else if s.length = 45 then
    if s.take 9 = [117, 114, 110, 58, 117, 117, 105, 100, 58] then parseHyphenated (s.drop 9) else none
  else none

/-- `Uuid::parse_str`. Used at `client/src/main.rs:165, 261, 267, 268`. -/
def parseStr (s : String) : Option Uuid := (tryParse (strBytes s)).bind Uuid.ofBytes?

/-- `LOWER`: the digits printed. Used through `client/src/main.rs:170, 176, 206, 210, 222, 234`. -/
def lower (n : UInt8) : Char := Char.ofNat (if n < 10 then 48 + n.toNat else 87 + n.toNat)

/-- Two digits for each byte. Used through `client/src/main.rs:170, 176, 206, 210, 222, 234`. -/
def hex (b : Bytes) : List Char := b.flatMap fun x => [lower (x / 16), lower (x % 16)]

/-- `encode_hyphenated`: the five groups of bytes. Used through `client/src/main.rs:170, 176, 206, 210, 222, 234`. -/
def hyphenated (b : Bytes) : List Char :=
  hex (b.take 4) ++ '-' :: hex ((b.drop 4).take 2) ++ '-' :: hex ((b.drop 6).take 2) ++ '-' :: hex ((b.drop 8).take 2) ++
    '-' :: hex (b.drop 10)

/-- What `{:?}` prints for a `Uuid`. Used at `client/src/main.rs:170, 176, 206, 210, 222, 234`. -/
def text (u : Uuid) : String := String.ofList (hyphenated u.bytes)

end UuidText
end IndraDB
