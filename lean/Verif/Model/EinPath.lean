import Verif.Model.Einsum
/-!
# Model: `einsum_path` (src/ops/einsum.rs)
-/

namespace Rumpy

/-- `einsum_path`, src/ops/einsum.rs:879-902, without the text for people; `optimize` is not read.  `none` is the `ValueError`. -/
def einsumPath (s : List Char) (shapes : List (List Nat)) (_optimize : String) : Option (List (Nat × Nat)) :=
  (parseSubscript s).bind fun p => (validateSubscript p shapes).map fun _ =>
    if shapes.length < 2 then [] else (List.range (shapes.length - 1)).map fun _ => (0, 1)

end Rumpy
