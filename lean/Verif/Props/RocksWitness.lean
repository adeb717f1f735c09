import Lean
import Verif.Props.Witness
import Verif.Proofs.RocksHistory
/-
A concrete configuration of the RocksDB datastore for examples and refutations: the real hash function, and a codec that
agrees with `serde_json` on the values used.
-/
namespace IndraDB

/-- Closes `a = b` by evaluation in the kernel, which may contain free variables (unlike `decide +kernel`). It only
proposes the proof `Eq.refl a`; the kernel checks it. -/
elab "kernel_rfl" : tactic => do
  let g ← Lean.Elab.Tactic.getMainGoal
  let t ← Lean.instantiateMVars (← g.getType)
  match t.consumeMData.app3? ``Eq with
  | some (α, a, _) =>
    let u ← Lean.Meta.getLevel α
    g.assign (Lean.mkApp2 (.const ``Eq.refl [u]) α a)
  | none => Lean.throwError "kernel_rfl: not an equation"

/-! ### SipHash-1-3 with zero keys (`std::collections::hash_map::DefaultHasher::new()`) -/
namespace Sip

/-- Rotation. -/
def rotl (x : UInt64) (n : UInt64) : UInt64 := (x <<< n) ||| (x >>> (64 - n))

structure St where
  v0 : UInt64
  v1 : UInt64
  v2 : UInt64
  v3 : UInt64

/-- One round. -/
def round (s : St) : St :=
  let v0 := s.v0 + s.v1
  let v1 := rotl s.v1 13 ^^^ v0
  let v0 := rotl v0 32
  let v2 := s.v2 + s.v3
  let v3 := rotl s.v3 16 ^^^ v2
  let v0 := v0 + v3
  let v3 := rotl v3 21 ^^^ v0
  let v2 := v2 + v1
  let v1 := rotl v1 17 ^^^ v2
  let v2 := rotl v2 32
  ⟨v0, v1, v2, v3⟩

/-- One message word. -/
def absorb (s : St) (m : UInt64) : St :=
  let s := round { s with v3 := s.v3 ^^^ m }
  { s with v0 := s.v0 ^^^ m }

/-- Little endian value of up to 8 bytes. -/
def word : Bytes → UInt64
  | [] => 0
  | b :: r => b.toUInt64 ||| (word r <<< 8)

/-- All message words; the last one holds the remaining bytes and the length. -/
def absorbAll (len : UInt64) (s : St) : Bytes → St
  | a :: b :: c :: d :: e :: f :: g :: h :: r => absorbAll len (absorb s (word [a, b, c, d, e, f, g, h])) r
  | r => absorb s (word r ||| (len <<< 56))

/-- SipHash-1-3 of the bytes. -/
def hash (m : Bytes) : UInt64 :=
  let s := absorbAll (UInt64.ofNat m.length)
    ⟨0x736f6d6570736575, 0x646f72616e646f6d, 0x6c7967656e657261, 0x7465646279746573⟩ m
  let s := round (round (round { s with v2 := s.v2 ^^^ 0xff }))
  s.v0 ^^^ s.v1 ^^^ s.v2 ^^^ s.v3

/-- Agrees with CPython's `hash(b"hello world")` (SipHash-1-3) for zero keys. -/
example : hash (strBytes "hello world") = 12804282289674824842 := by decide +kernel

end Sip

namespace W

/-- Decimal digits. -/
def digits (n : Nat) : Bytes := strBytes (toString n)

mutual
/-- Compact JSON text as `serde_json::to_vec` prints it, for values without floats and without characters that are
escaped. -/
def text : Json → Bytes
  | .null => strBytes "null"
  | .bool b => strBytes (if b then "true" else "false")
  | .num (.posInt n) => digits n.val
  | .num (.negInt m) => strBytes "-" ++ digits (m.val + 1)
  | .num (.float f) => strBytes "float" ++ digits f.toBits
  | .str s => [34] ++ s ++ [34]
  | .arr a => [91] ++ textArr a true
  | .obj o => [123] ++ textObj o true
def textArr : JArr → Bool → Bytes
  | .nil, _ => [93]
  | .cons v r, first => (if first then [] else [44]) ++ text v ++ textArr r false
def textObj : JObj → Bool → Bytes
  | .nil, _ => [125]
  | .cons k v r, first => (if first then [] else [44]) ++ [34] ++ k ++ [34, 58] ++ text v ++ textObj r false
end

/-- `[[],null]` and `[[null]]`: different values with the same hash input. -/
def j1 : Json := .arr (.cons (.arr .nil) (.cons .null .nil))
def j2 : Json := .arr (.cons (.arr (.cons .null .nil)) .nil)

/-- The values used in the examples. -/
def values : List Json := [.null, n 0, n 1, n 2, n 3, n 5, n 7, n 8, j1, j2]

/-- A codec that can read back `values` only; they are not changed. -/
def codec : Codec := ⟨text, fun b => values.find? (fun v => text v == b)⟩

/-- The configuration of the examples. -/
def cfg (b : Build) : Cfg := ⟨Sip.hash, codec, b⟩

example : text j1 = strBytes "[[],null]" ∧ text j2 = strBytes "[[null]]" ∧ j1.stream = j2.stream := by decide +kernel

/-- All values used are read back unchanged. -/
theorem codec_values : ∀ v ∈ values, codec.dec (codec.enc v) = some v := by
  intro v hv
  simp only [values, List.mem_cons, List.not_mem_nil, or_false] at hv
  rcases hv with rfl | rfl | rfl | rfl | rfl | rfl | rfl | rfl | rfl | rfl <;> decide +kernel

end W
end IndraDB
