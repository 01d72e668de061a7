import Verif.Spec.Gufunc
import Verif.Model.Calendar
import Verif.Model.Rearrange
/-!
# Model: generalised ufuncs

Models src/ops/gufunc/{signature,dims,mod}.rs.  Strings are lists of characters; the code slices
by byte position but only at ASCII characters, so positions in characters describe the same
pieces.  The `HashMap` of dimension sizes is an association list read with `lookup`.
-/

namespace Rumpy
open Spec

/-- `str::trim`: white space removed at both ends. -/
def trim (s : List Char) : List Char :=
  ((s.dropWhile fun c => decide (IsSpace c)).reverse.dropWhile fun c => decide (IsSpace c)).reverse

/-- `CoreDims::parse`, src/ops/gufunc/signature.rs:38-60. -/
def parseCoreDims (s : List Char) : Option (List (List Char)) :=
  let s := trim s
  if s.head? ≠ some '(' ∨ s.getLast? ≠ some ')' then none
  else
    let inner := trim (s.drop 1).dropLast
    if inner.isEmpty then some []
    else
      let dims := (splitOn ',' inner).map trim
      if dims.any List.isEmpty then none else some dims

/-- Loop of `parse_core_dims_list`, src/ops/gufunc/signature.rs:117-150.  `acc` is the text since
`start`, last character first.  `depth` is an `i32` in the code. -/
def parseListLoop : List Char → Int → List Char → List (List (List Char)) →
    Option (Int × List (List (List Char)))
  | [], depth, _, res => some (depth, res)
  | c :: cs, depth, acc, res =>
    if c = '(' then parseListLoop cs (depth + 1) (c :: acc) res
    else if c = ')' then
      if depth - 1 = 0 then
        match parseCoreDims (c :: acc).reverse with
        | none => none
        | some d => parseListLoop cs (depth - 1) (c :: acc) (res ++ [d])
      else parseListLoop cs (depth - 1) (c :: acc) res
    else if c = ',' ∧ depth = 0 then parseListLoop cs depth [] res
    else parseListLoop cs depth (c :: acc) res

/-- `parse_core_dims_list`, src/ops/gufunc/signature.rs:117-150. -/
def parseCoreDimsList (s : List Char) : Option (List (List (List Char))) :=
  let s := trim s
  if s.isEmpty then some []
  else
    match parseListLoop s 0 [] [] with
    | some (0, res) => some res
    | _ => none

/-- `s.find("->")` and the two slices around it, src/ops/gufunc/signature.rs:81-83. -/
def splitArrow : List Char → Option (List Char × List Char)
  | [] => none
  | c :: cs =>
    if c = '-' ∧ cs.head? = some '>' then some ([], cs.drop 1)
    else (splitArrow cs).map fun p => (c :: p.1, p.2)

/-- `GufuncSignature::parse`, src/ops/gufunc/signature.rs:77-93. -/
def parseSignature (s : List Char) : Option GuSig := do
  let (a, b) ← splitArrow (trim s)
  let inputs ← parseCoreDimsList a
  let outputs ← parseCoreDimsList b
  if inputs.isEmpty then none else some ⟨inputs, outputs⟩

/-- Inner loop of `GufuncDims::resolve`, src/ops/gufunc/dims.rs:61-71: check and record the sizes
of the core dimensions of one operand. -/
def bindDims : List (List Char) → List Nat → List (List Char × Nat) → Option (List (List Char × Nat))
  | d :: ds, n :: ns, m =>
    match m.lookup d with
    | some e => if e ≠ n then none else bindDims ds ns m
    | none => bindDims ds ns (m ++ [(d, n)])
  | _, _, m => some m

/-- Outer loop of `GufuncDims::resolve`, src/ops/gufunc/dims.rs:45-72: loop shapes, numbers of
loop dimensions and core sizes. -/
def bindInputs : List (List (List Char)) → List (List Nat) → List (List Char × Nat) →
    Option (List (List Nat) × List Nat × List (List Char × Nat))
  | names :: sig, s :: shapes, m =>
    if s.length < names.length then none
    else
      let k := s.length - names.length
      match bindDims names (s.drop k) m with
      | none => none
      | some m' => (bindInputs sig shapes m').map fun r => (s.take k :: r.1, k :: r.2.1, r.2.2)
  | _, _, m => some ([], [], m)

/-- `broadcast_multi_shapes`, src/ops/gufunc/dims.rs:117-126. -/
def broadcastMultiShapes : List (List Nat) → Option (List Nat)
  | [] => some []
  | s :: ss => ss.foldlM broadcastShapes s

/-- `GufuncDims`, src/ops/gufunc/dims.rs:13-25, without the sizes by name. -/
structure GuDims where
  loopShape : List Nat
  inputLoopNdims : List Nat
  outputCoreShapes : List (List Nat)
deriving DecidableEq, Repr

/-- `GufuncDims::resolve`, src/ops/gufunc/dims.rs:35-97. -/
def resolveDims (sig : GuSig) (shapes : List (List Nat)) : Option GuDims :=
  if shapes.length ≠ sig.inputs.length then none
  else do
    let (loops, ndims, m) ← bindInputs sig.inputs shapes []
    let loop ← broadcastMultiShapes loops
    some ⟨loop, ndims, sig.outputs.map fun names => names.map fun d => (m.lookup d).getD 1⟩

/-- `GufuncDims::output_shape`, src/ops/gufunc/dims.rs:109-113. -/
def GuDims.outputShape (d : GuDims) (i : Nat) : List Nat := d.loopShape ++ d.outputCoreShapes.getD i []

/-- The core sub-arrays of the operands at one position of the loop,
src/ops/gufunc/mod.rs:68-72. -/
def inputCores (inputs : List (Held α)) (ndims : List Nat) (loopIdx : List Nat) : List (Held α) :=
  (inputs.zip ndims).map fun p => ⟨p.1.mem, p.1.view.gufuncSubarray loopIdx p.2⟩

/-- `gufunc_call`, src/ops/gufunc/mod.rs:36-89, for a signature with one result.  `kernel` gives the
stores (byte address, value) that `GufuncKernel::call` makes into the result buffer, whose elements
have `item` bytes.  The loop over positions is the index odometer; a loop of rank 0 has one position. -/
def gufuncCall (sig : GuSig) (kernel : List (Held α) → View → List (Int × β)) (inputs : List (Held α))
    (item : Nat) (zero : β) : Option (Arr β) := do
  let d ← resolveDims sig (inputs.map fun h => h.view.shape)
  let out := d.outputShape 0
  let v := View.fresh out item
  let stores := (odometerAll d.loopShape).flatMap fun l =>
    kernel (inputCores inputs d.inputLoopNdims l) (v.gufuncSubarray l d.loopShape.length)
  some ⟨out, writes (stores.map fun s => ((s.1 / (item : Int)).toNat, s.2)) (List.replicate (sizeOf out) zero)⟩

end Rumpy
