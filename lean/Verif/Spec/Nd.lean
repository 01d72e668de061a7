/-!
# Specification: n-dimensional arrays

What a NumPy user means by an n-d array, without any notion of memory: a shape
and one value for every multi-index inside the shape.  Nothing here mentions
strides, offsets or the code.
-/

namespace Spec

/-- A multi-index lies inside a shape: one coordinate per axis, each smaller
than the length of its axis. -/
def InShape : List Nat → List Nat → Prop
  | [], [] => True
  | n :: s, i :: idx => i < n ∧ InShape s idx
  | _, _ => False

instance decInShape : (s idx : List Nat) → Decidable (InShape s idx)
  | [], [] => isTrue trivial
  | n :: s, i :: idx =>
    match Nat.decLt i n, decInShape s idx with
    | isTrue h, isTrue h' => isTrue ⟨h, h'⟩
    | isFalse h, _ => isFalse fun x => h x.1
    | _, isFalse h => isFalse fun x => h x.2
  | [], _ :: _ => isFalse id
  | _ :: _, [] => isFalse id

/-- Number of elements of a shape. -/
def size : List Nat → Nat
  | [] => 1
  | n :: s => n * size s

/-- All multi-indices of a shape in row-major order: the first axis varies
slowest. -/
def indices : List Nat → List (List Nat)
  | [] => [[]]
  | n :: s => (List.range n).flatMap fun i => (indices s).map fun idx => i :: idx

/-- Position of a multi-index in row-major order. -/
def rank : List Nat → List Nat → Nat
  | _ :: s, i :: idx => i * size s + rank s idx
  | _, _ => 0

/-- Position of a multi-index in column-major order: the first axis varies
fastest. -/
def rankF : List Nat → List Nat → Nat
  | n :: s, i :: idx => i + n * rankF s idx
  | _, _ => 0

/-- An n-d array as a user sees it. -/
structure Nd (α : Type u) where
  shape : List Nat
  get : List Nat → α

namespace Nd

/-- Two arrays are the same to a user: same shape, same value at each index of
the shape. -/
def Same (a b : Nd α) : Prop :=
  a.shape = b.shape ∧ ∀ idx, InShape a.shape idx → a.get idx = b.get idx

/-- The elements in row-major order. -/
def toList (a : Nd α) : List α := (indices a.shape).map a.get

end Nd

end Spec
