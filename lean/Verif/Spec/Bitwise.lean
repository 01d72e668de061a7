import Verif.Spec.Cast
/-!
# Specification: bits of whole numbers, and elements stored as bytes
-/

namespace Spec

/-- Bit `i` of a whole number in two's complement, where a negative number has infinitely many leading ones. -/
def bitOf (x : Int) (i : Nat) : Bool := decide (x / 2 ^ i % 2 = 1)

/-- `z` combines the bits of `x` and `y` position by position. -/
def IsBitwise (f : Bool → Bool → Bool) (x y z : Int) : Prop := ∀ i, bitOf z i = f (bitOf x i) (bitOf y i)

/-- The number with the given digits to base 256, least significant first. -/
def bytesNat : List (BitVec 8) → Nat
  | [] => 0
  | b :: bs => b.toNat + 256 * bytesNat bs

/-- The integer, or for other dtypes the truth value, that bytes stand for. -/
def bytesElem (d : DType) (bs : List (BitVec 8)) : Elem :=
  match d.intRange with
  | some (_, hi) => .int (if (bytesNat bs : Int) ≤ hi then bytesNat bs else bytesNat bs - 256 ^ bs.length)
  | none => .bool (bytesNat bs != 0)

/-- Bools and integers. -/
def DType.Whole : DType → Prop
  | .bool | .i8 | .i16 | .i32 | .i64 | .u8 | .u16 | .u32 | .u64 => True
  | _ => False

instance : DecidablePred DType.Whole := fun d => by cases d <;> unfold DType.Whole <;> infer_instance

end Spec
