import Verif.Spec.Gufunc
import Verif.Spec.Einsum
import Verif.Model.Calendar
import Verif.Model.Create
import Verif.Model.Elementwise
import Verif.Model.Gufunc
import Verif.Model.Matmul
import Verif.Model.Reduce
import Verif.Model.Search
import Mathlib.Data.List.Sort
/-!
# Model: Einstein sums (src/ops/einsum.rs)

The operands have one dtype `d`, whose values are exact (reading and writing them through `f64` changes nothing).
`HashMap` from letters to lengths is an association list; the code does not depend on its order.
-/

namespace Rumpy
open Spec

/-- `ParsedSubscript`, src/ops/einsum.rs:28-35, without the flag `explicit_output`, which only the unit tests read. -/
structure EinSub where
  inputs : List (List Char)
  output : List Char
deriving DecidableEq

/-- `compute_implicit_output`, src/ops/einsum.rs:98-114: the counts are a `HashMap` there. -/
def implicitOutput (inputs : List (List Char)) : List Char :=
  (inputs.flatten.dedup.filter fun c => inputs.flatten.count c = 1).insertionSort (· ≤ ·)

/-- The inputs of the subscript, src/ops/einsum.rs:56-70. -/
def parseInputs (s : List Char) : Option (List (List Char)) :=
  let inputs := splitOn ',' s
  if inputs.all fun sub => sub.all Char.isLower then some inputs else none

/-- `parse_subscript`, src/ops/einsum.rs:42-91. -/
def parseSubscript (s : List Char) : Option EinSub :=
  let s := s.filter fun c => decide ¬ IsSpace c
  match splitArrow s with
  | some (l, r) =>
    if (splitArrow r).isSome then none
    else (parseInputs l).bind fun inputs =>
      if r.all fun c => c.isLower || c == '.' then some ⟨inputs, r⟩ else none
  | none => (parseInputs s).map fun inputs => ⟨inputs, implicitOutput inputs⟩

/-- The inner loop of `validate_subscript`, src/ops/einsum.rs:143-154. -/
def bindAxes : List Char → List Nat → List (Char × Nat) → Option (List (Char × Nat))
  | c :: cs, n :: ns, m =>
    if (m.lookup c).isSome then (if m.lookup c = some n then bindAxes cs ns m else none)
    else bindAxes cs ns (m ++ [(c, n)])
  | _, _, m => some m

/-- The outer loop of `validate_subscript`, src/ops/einsum.rs:132-155. -/
def bindOperands : List (List Char) → List (List Nat) → List (Char × Nat) → Option (List (Char × Nat))
  | sub :: subs, shape :: shapes, m =>
    if sub.length ≠ shape.length then none
    else (bindAxes sub shape m).bind fun m => bindOperands subs shapes m
  | _, _, m => some m

/-- `validate_subscript`, src/ops/einsum.rs:117-168. -/
def validateSubscript (p : EinSub) (shapes : List (List Nat)) : Option (List (Char × Nat)) :=
  if p.inputs.length ≠ shapes.length then none
  else (bindOperands p.inputs shapes []).bind fun m =>
    if p.output.all fun c => (m.lookup c).isSome then some m else none

/-- `dim_map[c]`. -/
def dimOf (m : List (Char × Nat)) (c : Char) : Nat := (m.lookup c).getD 0

/-- The contraction indices, src/ops/einsum.rs:209-216. -/
def contractions (p : EinSub) (m : List (Char × Nat)) : List Char :=
  ((m.map Prod.fst).filter fun c => decide (c ∉ p.output)).insertionSort (· ≤ ·)

/-- The loop that decodes a contraction position, src/ops/einsum.rs:434-439 and 716-723: last axis first; `none` is a
division by zero. -/
def decodeRev : List Nat → Nat → Option (List Nat × Nat)
  | [], r => some ([], r)
  | n :: s, r =>
    (decodeRev s r).bind fun x => if n = 0 then none else some (x.2 % n :: x.1, x.2 / n)

/-- Assignments `v[p] = x`, in order. -/
def setAll (v : List Nat) (ws : List (Nat × Nat)) : List Nat := ws.foldl (fun v w => v.set w.1 w.2) v

/-- The positions of a letter. -/
def positions (sub : List Char) (c : Char) : List Nat :=
  (List.range sub.length).filter fun i => decide (sub[i]? = some c)

/-- `sub.iter().position(|x| x == c)`. -/
def position? (sub : List Char) (c : Char) : Option Nat := (positions sub c).head?

/-- The assignments of the output coordinates, src/ops/einsum.rs:366-368 with 443-447, and 677-682 with 727-731 and 738-742. -/
def outWrites (sub out : List Char) (outIdx : List Nat) : List (Nat × Nat) :=
  (out.zip outIdx).filterMap fun ci => (position? sub ci.1).map fun p => (p, ci.2)

/-- The index of the operand without contraction, src/ops/einsum.rs:412-425: `insert` keeps the last value. -/
def copyIdx (sub out : List Char) (outIdx : List Nat) : List Nat :=
  sub.map fun c => ((out.zip outIdx).reverse.lookup c).getD 0

/-- The index of the operand with contraction, src/ops/einsum.rs:370-377 and 441-457. -/
def singleIdx (sub out contr : List Char) (outIdx cIdx : List Nat) : List Nat :=
  setAll (List.replicate sub.length 0) (outWrites sub out outIdx ++
    contr.flatMap fun c => (positions sub c).map fun p => (p, assign contr cIdx c))

/-- The check of repeated indices, src/ops/einsum.rs:459-476. -/
def repeatsAgree (sub : List Char) (idx : List Nat) : Bool :=
  (sub.zip idx).all fun ci => (sub.zip idx).lookup ci.1 == some ci.2

/-- `einsum_single`, src/ops/einsum.rs:355-492: the elements written. `none` is a division by zero. -/
def einsumSingle [Add α] [Zero α] (p : EinSub) (a : Held α) (m : List (Char × Nat)) : Option (List α) :=
  let sub := p.inputs.headD []
  let contr := contractions p m
  let dims := p.output.map (dimOf m)
  let shape := if dims.isEmpty then [1] else dims
  (List.range (sizeOf shape)).mapM fun flat =>
    let outIdx := unravelC (cIdxStrides shape) flat
    if contr.isEmpty then some (a.mem (a.view.addr (copyIdx sub p.output outIdx)))
    else
      (List.range (sizeOf (contr.map (dimOf m)))).foldlM (fun sum cFlat =>
        (decodeRev (contr.map (dimOf m)) cFlat).map fun c =>
          let idx := singleIdx sub p.output contr outIdx c.1
          if !decide sub.Nodup && !repeatsAgree sub idx then sum else sum + a.mem (a.view.addr idx)) 0

/-- `try_single_operand_optimized`, src/ops/einsum.rs:271-312, with `trace`, src/ops/mod.rs:177-180.
`none`: no fast path; `some none`: a panic. -/
def singleFast [Add α] [Zero α] (sub out : List Char) (a : Held α) : Option (Option (Held α)) :=
  let item := a.view.item
  if sub.Nodup ∧ out.Nodup ∧ (∀ c ∈ sub, c ∈ out) ∧ ∀ c ∈ out, c ∈ sub then
    some ((a.view.transposeAxes (out.map fun c => (position? sub c).getD 0)).map fun v => ⟨a.mem, v⟩)
  else if sub.length = 2 ∧ sub[0]? = sub[1]? ∧ out = [] then
    some (a.view.diagonal.map fun v => Held.of ⟨[], [reduceAll (· + ·) 0 a.mem v]⟩ item 0)
  else if sub.length = 2 ∧ sub[0]? = sub[1]? ∧ out.length = 1 ∧ out[0]? = sub[0]? then
    some (a.view.diagonal.map fun v => ⟨a.mem, v⟩)
  else if sub.length = 2 ∧ sub.Nodup ∧ out.length = 1 then
    some (some (Held.of (reduceAxis (· + ·) 0 a.mem a.view (if out[0]? = sub[0]? then 1 else 0) 0) item 0))
  else if sub ≠ [] ∧ sub.Nodup ∧ out = [] then
    some (some (Held.of ⟨[], [reduceAll (· + ·) 0 a.mem a.view]⟩ item 0))
  else none

@[inherit_doc singleFast]
def einsumSingleFast [Add α] [Zero α] (p : EinSub) (a : Held α) : Option (Option (Held α)) :=
  singleFast (p.inputs.headD []) p.output a

/-- `try_binary_optimized`, src/ops/einsum.rs:315-343.  `put` is what the stores of `outer` read as (C42). -/
def einsumPairFast [Add α] [Zero α] [Mul α] (put : α → α) (p : EinSub) (a b : Held α) : Option (Held α) :=
  let sa := p.inputs.getD 0 []
  let sb := p.inputs.getD 1 []
  let item := a.view.item
  if (∀ c ∈ sa, c ∉ sb) ∧ a.view.shape.length = 1 ∧ b.view.shape.length = 1 ∧ p.output.length = 2 then
    (outer put a b item 0).map fun r =>
      let h := Held.of r item 0
      if sa ++ sb = p.output then h else ⟨h.mem, h.view.transpose⟩
  else if sa = sb ∧ sa = p.output then
    (binaryOp true (· * ·) a.mem b.mem a.view b.view 0).map fun r => Held.of r item 0
  else none

/-- The index of an operand in `einsum_binary_elementwise`, src/ops/einsum.rs:676-688 and 725-745: the `k`-th contraction letter
of the operand gets the `k`-th coordinate. -/
def pairIdx (sub out contr : List Char) (outIdx cIdx : List Nat) : List Nat :=
  setAll (List.replicate sub.length 0) (outWrites sub out outIdx ++
    (contr.filterMap (position? sub)).zip cIdx)

/-- `einsum_binary_elementwise`, src/ops/einsum.rs:656-768. `none` is a division by zero. -/
def einsumElementwise [Add α] [Zero α] [Mul α] (p : EinSub) (a b : Held α) (m : List (Char × Nat)) : Option (List α) :=
  let sa := p.inputs.getD 0 []
  let sb := p.inputs.getD 1 []
  let contr := contractions p m
  let dims := p.output.map (dimOf m)
  let shape := if dims.isEmpty then [1] else dims
  let csize := sizeOf (contr.map (dimOf m))
  (List.range (sizeOf shape)).mapM fun flat =>
    let outIdx := unravelC (cIdxStrides shape) flat
    (List.range (if csize = 0 then 1 else csize)).foldlM (fun sum cFlat =>
      (decodeRev (contr.map (dimOf m)) cFlat).map fun c =>
        sum + a.mem (a.view.addr (pairIdx sa p.output contr outIdx c.1)) *
          b.mem (b.view.addr (pairIdx sb p.output contr outIdx c.1))) 0

/-- `transpose_axes` unless the permutation is the identity, src/ops/einsum.rs:610-614 and 618-622. `none` is a panic. -/
def permuted (h : Held α) (perm : List Nat) : Option (Held α) :=
  if perm = List.range perm.length then some h
  else (h.view.transposeAxes perm).map fun v => ⟨h.mem, v⟩

/-- `try_blas_contraction`, src/ops/einsum.rs:562-653.  `none`: the caller falls back; `some none`: a panic of
`transpose_axes`, whose axes must be as many as the array has. -/
def blasContraction [Add α] [Zero α] [Mul α] (d : DType) (a b : Held α) (sa sb out contr : List Char)
    (m : List (Char × Nat)) : Option (Option (Held α)) :=
  let aFree := sa.filter fun c => decide (c ∉ contr)
  let aContr := sa.filter fun c => decide (c ∈ contr)
  let bFree := sb.filter fun c => decide (c ∉ contr)
  let bContr := sb.filter fun c => decide (c ∈ contr)
  let prod := fun (l : List Char) => max (sizeOf (l.map (dimOf m))) 1
  if prod aContr ≠ prod bContr then none
  else
    (permuted a ((aFree ++ aContr).map fun c => (position? sa c).getD 0)).elim (some none) fun a' =>
    (a'.view.reshape [prod aFree, prod aContr]).bind fun va =>
    (permuted b ((bContr ++ bFree).map fun c => (position? sb c).getD 0)).elim (some none) fun b' =>
    (b'.view.reshape [prod bContr, prod bFree]).bind fun vb =>
    (matmul d ⟨a'.mem, va⟩ ⟨b'.mem, vb⟩).bind fun r =>
      let inter := aFree ++ bFree
      if inter = [] then some (some r)
      else
        (r.view.reshape (inter.map (dimOf m))).bind fun vr =>
          if inter = out then some (some ⟨r.mem, vr⟩)
          else (out.mapM (position? inter)).map fun perm =>
            (vr.transposeAxes perm).map fun v => ⟨r.mem, v⟩

/-- `copy_nonoverlapping` of the first `n` elements of an array, whatever its strides, src/ops/einsum.rs:545-552 and 864-871. -/
def rawCopy (h : Held α) (n : Nat) : List α := (List.range n).map fun (k : Nat) => h.mem (h.view.offset + k * h.view.item)

/-- `einsum_binary`, src/ops/einsum.rs:529-559, with `can_use_blas`, 502-518. `none` is a panic. -/
def einsumBinary [Add α] [Zero α] [Mul α] (d : DType) (p : EinSub) (a b : Held α) (m : List (Char × Nat)) : Option (List α) :=
  let sa := p.inputs.getD 0 []
  let sb := p.inputs.getD 1 []
  let contr := contractions p m
  if sa.Nodup ∧ sb.Nodup ∧ contr ≠ [] then
    match blasContraction d a b sa sb p.output contr m with
    | some r => r.map fun r => rawCopy r (sizeOf (p.output.map (dimOf m)))
    | none => einsumElementwise p a b m
  else einsumElementwise p a b m

/-- The allocation of the result and the early exit, src/ops/einsum.rs:195-207 and 249-254: a result without axes is
allocated with one element and reshaped. `none` is a panic. -/
def einsumFinish [Zero α] (item : Nat) (shape : List Nat) (data : Option (List α)) : Outcome (Held α) :=
  if sizeOf shape = 0 then .ok (Held.of ⟨shape, []⟩ item 0)
  else data.elim .panic fun ds => .ok (Held.of ⟨shape, ds⟩ item 0)

/-- `einsum`, src/ops/einsum.rs:178-255, of one operand. -/
def einsumOne [Add α] [Zero α] (d : DType) (s : List Char) (a : Held α) : Outcome (Held α) :=
  ((parseSubscript s).bind fun p => (validateSubscript p [a.view.shape]).map fun m => (p, m)).elim .error fun pm =>
    (einsumSingleFast pm.1 a).elim
      (einsumFinish (DType.itemsize d) (pm.1.output.map (dimOf pm.2)) (einsumSingle pm.1 a pm.2))
      fun r => r.elim .panic .ok

/-- `einsum`, src/ops/einsum.rs:178-255, of two operands. -/
def einsumTwo [Add α] [Zero α] [Mul α] (d : DType) (put : α → α) (s : List Char) (a b : Held α) : Outcome (Held α) :=
  ((parseSubscript s).bind fun p => (validateSubscript p [a.view.shape, b.view.shape]).map fun m => (p, m)).elim .error fun pm =>
    (einsumPairFast put pm.1 a b).elim
      (einsumFinish (DType.itemsize d) (pm.1.output.map (dimOf pm.2)) (einsumBinary d pm.1 a b pm.2)) .ok

/-- The letters kept after a step, src/ops/einsum.rs:793-808 and 829-843, before sorting. -/
def keptLetters (l r rest : List Char) : List Char := (l ++ r).dedup.filter fun c => decide (c ∈ rest)

/-- The text of a step, src/ops/einsum.rs:813-819 and 853-858. -/
def stepText (l r out : List Char) : List Char := l ++ [','] ++ r ++ ['-', '>'] ++ out

/-- The loop of `einsum_multi`, src/ops/einsum.rs:825-862, with the subscripts of the operands still to come.  `pair` is
`einsum` of two operands. -/
def einsumSteps (pair : List Char → Held α → Held α → Outcome (Held α)) (out : List Char) :
    List (List Char × Held α) → List Char → Held α → Outcome (List Char × Held α)
  | [], sub, cur => .ok (sub, cur)
  | (s, op) :: rest, sub, cur =>
    let next := if rest.isEmpty then out
      else (keptLetters sub s ((rest.map Prod.fst).flatten ++ out)).insertionSort (· ≤ ·)
    match pair (stepText sub s next) cur op with
    | .ok h => einsumSteps pair out rest next h
    | .error => .error
    | .panic => .panic

/-- `einsum_multi`, src/ops/einsum.rs:774-874, of at least three operands, with the copy of the last result. -/
def einsumMulti [Zero α] (pair : List Char → Held α → Held α → Outcome (Held α)) (item : Nat) (p : EinSub)
    (m : List (Char × Nat)) : List (Held α) → Outcome (Held α)
  | a :: b :: ops =>
    let s0 := p.inputs.getD 0 []
    let s1 := p.inputs.getD 1 []
    let rest := p.inputs.drop 2
    let kept := (keptLetters s0 s1 (rest.flatten ++ p.output)).insertionSort (· ≤ ·)
    let shape := p.output.map (dimOf m)
    if sizeOf shape = 0 then .ok (Held.of ⟨shape, []⟩ item 0)
    else
      match pair (stepText s0 s1 kept) a b with
      | .ok h =>
        match einsumSteps pair p.output (rest.zip ops) kept h with
        | .ok r => .ok (Held.of ⟨shape, rawCopy r.2 (sizeOf shape)⟩ item 0)
        | .error => .error
        | .panic => .panic
      | .error => .error
      | .panic => .panic
  | _ => .error

/-- `einsum`, src/ops/einsum.rs:178-255. -/
def einsum [Add α] [Zero α] [Mul α] (d : DType) (put : α → α) (s : List Char) : List (Held α) → Outcome (Held α)
  | [a] => einsumOne d s a
  | [a, b] => einsumTwo d put s a b
  | ops => ((parseSubscript s).bind fun p => (validateSubscript p (ops.map fun a => a.view.shape)).map fun m => (p, m)).elim .error
      fun pm => einsumMulti (einsumTwo d put) (DType.itemsize d) pm.1 pm.2 ops

end Rumpy
