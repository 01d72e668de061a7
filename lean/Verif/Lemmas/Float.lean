import Verif.Model.Float
import Mathlib.Tactic.NormNum
/-!
# Lemmas: integers through `f64`
-/

namespace Rumpy

theorem natToF64_exact {x : Nat} (h : x ≤ 2 ^ 53) : natToF64 x = x := by
  unfold natToF64
  split
  · rfl
  · have : x = 2 ^ 53 := by omega
    subst this
    decide

theorem intToF64_exact {x : Int} (h : x.natAbs ≤ 2 ^ 53) : intToF64 x = x := by
  unfold intToF64
  split
  · rw [natToF64_exact (by omega)]; omega
  · rw [natToF64_exact (by omega)]; omega

theorem viaF64_exact {x : Int} (h : x.natAbs ≤ 2 ^ 53) : viaF64 x = x := by
  unfold viaF64 f64ToInt
  rw [intToF64_exact h]
  have : (2 : Nat) ^ 53 = 9007199254740992 := by norm_num
  have : (2 : Int) ^ 63 = 9223372036854775808 := by norm_num
  omega

end Rumpy
