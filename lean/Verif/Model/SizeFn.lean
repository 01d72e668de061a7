import Verif.Model.NestedList
/-!
# Model: `shape`, `ndim` and `size` of nested lists (src/python/ufuncs.rs)
-/

namespace Rumpy
open Spec

/-- `rumpy.shape` of what is no array, src/python/ufuncs.rs:268-271. -/
def shapeOfPy (x : PyData) : Option (List Nat) := (arrayOfPy none x).map fun r => r.2.shape

/-- `rumpy.ndim`, src/python/ufuncs.rs:240-242. -/
def ndimOfPy (x : PyData) : Option Nat := (arrayOfPy none x).map fun r => r.2.shape.length

/-- `rumpy.size`, src/python/ufuncs.rs:253-255; `size()` is the product of the shape (src/array/mod.rs:60-63). -/
def sizeOfPy (x : PyData) : Option Nat := (arrayOfPy none x).map fun r => sizeOf r.2.shape

end Rumpy
