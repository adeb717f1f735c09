import Verif.Model.JsonFloat
import Verif.Spec.JsonText
/-
Which float a decimal number stands for.
-/
namespace IndraDB

/-- The number that digits stand for. -/
def digitsVal (b : Bytes) : Nat := b.foldl (fun v x => v * 10 + (x.toNat - 48)) 0

/-- All digits of the number, without the point. -/
def Decimal.digits (d : Decimal) : Nat := digitsVal (d.int ++ d.frac)

/-- The power of ten that belongs to the digits. -/
def Decimal.scale (d : Decimal) : Int :=
  (match d.exp with | none => 0 | some (neg, e) => if neg then - (digitsVal e : Int) else digitsVal e) - d.frac.length

/-- The magnitude of the number as a fraction. -/
def Decimal.above (d : Decimal) : Nat := d.digits * 10 ^ d.scale.toNat
def Decimal.below (d : Decimal) : Nat := 10 ^ (-d.scale).toNat

/-- How far the magnitude is from `u` units (`u * 2^-1074`), times the denominator. -/
def Decimal.far (d : Decimal) (u : Nat) : Nat := (((d.above * 2 ^ 1074 : Nat) : Int) - ((u * d.below : Nat) : Int)).natAbs

/-- `f` is the float that `d` stands for: it has the sign, and every other number with 53 bits is further away. -/
structure Decimal.Means (d : Decimal) (f : F64) : Prop where
  sign : d.neg = f.neg
  nearest : ∀ m k, m < 2 ^ 53 → m * 2 ^ k ≠ f.units → d.far f.units < d.far (m * 2 ^ k)

/-- Digits that are below 2^53 (all numbers of at most 15 digits are), with a power of ten of at most 22 (and fewer than 2^30 digits). -/
def Decimal.Short (d : Decimal) : Prop := d.digits < 2 ^ 53 ∧ d.scale.natAbs ≤ 22 ∧ d.frac.length < 2 ^ 30

end IndraDB
