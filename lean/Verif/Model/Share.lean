import Verif.Model.Alias
/-!
# Model: `shares_memory`, `may_share_memory` and the attribute `base`
-/

namespace Rumpy

/-- `shares_buffer_with`, src/array/mod.rs:114-116, and with it `shares_memory` and `may_share_memory`, src/python/ufuncs.rs:202-212. -/
def sharesMemory (a b : Handle) : Bool := decide (a.buf = b.buf)

/-- The attribute `base` of an array, src/python/pyarray/mod.rs:709-719; `none` is Python's `None`.  Nothing but the
Python objects holds a buffer at that time. -/
def Heap.base (h : Heap α) (a : Handle) : Option Handle :=
  if 0 < a.view.offset ∨ 1 < h.strong [] a.buf then some a else none

end Rumpy
