/-!
# Specification: equality of 64-bit floats given by their bit patterns
-/

namespace Spec

/-- The pattern is a NaN: exponent bits all one, fraction not zero. -/
def ieeeNaN (x : BitVec 64) : Bool := x.extractLsb' 52 11 == 0x7ff#11 && x.extractLsb' 0 52 != 0#52

/-- The pattern is `0.0` or `-0.0`. -/
def ieeeZero (x : BitVec 64) : Bool := x.extractLsb' 0 63 == 0#63

/-- `x == y` on floats: NaN equals nothing, the two zeros are equal, otherwise the patterns
agree. -/
def ieeeEq (x y : BitVec 64) : Bool :=
  !ieeeNaN x && !ieeeNaN y && (x == y || (ieeeZero x && ieeeZero y))

end Spec
