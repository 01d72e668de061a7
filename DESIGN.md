# Formal model of rumpy in Lean 4

This document says what is modelled, how each property is proved, and what the
proofs rest on. Property ids refer to `properties.jsonl`; the theorem names for
each are in `MANIFEST.json`.

## Layout of the development

| Directory | Content |
|---|---|
| `lean/Verif/Spec/` | Small specifications, written without looking at the code: what an n-d array is, NumPy's meaning of an operation, the calendar, sets, sums. |
| `lean/Verif/Model/` | The code, function by function. Every definition cites the Rust file and lines. |
| `lean/Verif/Lemmas/` | Helper lemmas. |
| `lean/Verif/Props/` | The property theorems, with non-vacuity examples beside them. |

## How Rust is represented

* `usize`/`isize` sizes, strides and offsets are `Nat`/`Int`. Nothing in memory
  is larger than the address space, so no honest array overflows them; where the
  code casts a negative number with `as usize`, the model keeps the negative
  `Int` (two's-complement addition gives the same address) and the in-bounds
  property is stated on the `Int`.
* Element integers are `BitVec w` (or `Int` where only the mathematical value
  matters and the code does not overflow).
* Floating point is treated in one of four ways; each theorem's file says which.
  (1) Statements that do not depend on the values of elements (layout,
  selection, ordering) are made for an arbitrary type with an arbitrary
  operation. (2) Sums and linear algebra are over an arbitrary commutative
  monoid, ring or field, so rounding is left out. (3) Percentiles, ranges,
  windows and special functions are over the rationals or the reals, so rounding
  is left out. (4) Element arithmetic, casts and comparisons use `Spec.Flt ℚ`
  (NaN, the infinities, and exact numbers) with one rounding to the binary format
  per operation, `roundBin`, which is proved to give a nearest number of the
  format (`Spec.IsRounding`). It breaks ties to even by definition; the
  specification does not say how ties are broken. The two zeros are one number there: where the sign of a zero matters
  (a division by zero) it is a parameter, and the theorem holds for both values.
  The functions on bit patterns (C84) keep signed zeros.
* A buffer is a function or list of cells; an array is a view (offset, shape,
  strides, flags) on it, exactly as in `RumpyArray`.
* A panic, an out-of-buffer access and a Python exception are explicit values
  (`none` or a constructor of an error type), never a default value.
* Loops become structural or fuel-free well-founded recursion; `for` over a
  range becomes a fold over `List.range`.

## Trusted base

* Lean's kernel (4.33.0). The accepted axioms are `propext`,
  `Classical.choice`, `Quot.sound`; no other axiom, no `sorry`, no
  `native_decide`, no `bv_decide`.
* The transcription from Rust to Lean, done by hand and cited line by line.
* The Rust standard library by its documentation: `sort_by` is a stable sort
  (modelled by `List.insertionSort`; `Rumpy.stableOrder_unique` shows that the
  stable order is unique); `select_nth_unstable_by` is any function meeting
  `Rumpy.SelectContract`; `HashSet` is set membership.
* `faer` and `rustfft` (third-party) enter as contracts, stated in Spec/Linalg
  and with `Exact`; `powf`, `exp` and the like are parameters.
* Not modelled: rounding where ways (1) to (3) above are used, the payload of a
  NaN, the algorithms of `faer` and `rustfft`, Python's object protocol and the
  PyO3 glue apart from the argument handling that the plan below names, the file
  system, hash-map iteration order, threads (apart from those that share a
  random generator, C74).

## Plan per property

| Id | Model | Proof |
|---|---|---|
| C01 | `StridedIter` as a state machine; odometer `increment_indices` | invariant by induction on steps; equality with the list of row-major indices mapped to offsets |
| C02 | C/F strides, `zeros` | injectivity and range of mixed-radix evaluation, by induction on the shape |
| C03 | `is_c_contiguous`, `is_f_contiguous` | induction on the shape; both directions |
| C04 | `slice_axis`, `extract_slice_indices` | index-map equation; counterexample for negative strides; `_partial` for non-negative strides |
| C05 | view operations as a transition system | invariant "all addresses in the buffer" over all operation sequences; counterexamples for unchecked indices |
| C06 | `transpose*`, `swapaxes`, `moveaxis`, `rollaxis` | index-map equations; `moveaxis` counterexample |
| C07 | `flip` | index-map equation, counterexample for reversed views |
| C08 | `reshape`, `resolve_reshape_shape` | row-major rank is preserved; counterexample for F-only layout |
| C09 | `broadcast_shapes`, `broadcast_to` | agreement with a pointwise right-aligned spec; laws from the spec |
| C10 | `squeeze*`, `expand_dims` | index-map equations, round trip |
| C11 | `concatenate`, `stack`, `split*` | on the spec array level; arithmetic of section sizes |
| C12 | `concatenate` with two dtypes | counterexample; `_partial` for equal dtypes |
| C13 | `normalize_index`, `normalize_slice`, `expand_ellipsis` | case analysis with `omega` against Python's rules; counterexamples |
| C14 | `select_by_mask`, `select_by_indices`, `take`, `compress`, `nonzero` | equality with filter/map specs |
| C15 | `dispatch_binary_typed` and loops | all paths equal the pointwise spec |
| C16 | `reduce`, `reduce_strided` | eight accumulators = fold for commutative monoids, for every length |
| C17 | `SumOfSquares` through `reduce` | counterexample from length 8 on; `_partial` below 8 |
| C18 | `dispatch_reduce_axis_typed` | three paths equal the lane spec |
| C19 | `argmax`, `argmin` | first-maximum spec; the faulty strided path is an error value |
| C20 | `cumulative`, `diff` | induction |
| C21 | `sort`, `argsort`, `lexsort` | permutation, sortedness, stability (Rust's stable sort is modelled by insertion sort: all stable sorts agree) |
| C22 | `partition_select` | loop invariant |
| C23 | `unique_all` | induction over runs |
| C24 | set merges | equality with set specs on sorted lists |
| C25 | `searchsorted`, `digitize` | binary-search invariant |
| C26 | `unravel_index`, `ravel_multi_index` | mixed radix |
| C27 | `packbits`, `unpackbits` | induction over chunks of 8 |
| C28 | `promote_dtype` | decision over the finite kinds, parameters by case analysis |
| C29 | `days_to_ymd`, `ymd_to_days` | against an independent next-day calendar |
| C30 | `convert_datetime64` | arithmetic; counterexamples before 1970 |
| C31 | formatter and parser | round trip over character lists |
| C32 | operator paths with NaT | counterexamples; partial |
| C33 | integer kernels on `BitVec` | counterexamples for floor division; modular laws |
| C34 | bitwise kernels on `BitVec` | bitwise extensionality; shift counterexample |
| C35 | PCG step on `ZMod (2^128)` | bijection, full period (Hull–Dobell style) |
| C36 | `next_f64` | bounds, fibre count |
| C37 | `bounded_uint64` | range and exact fibre count |
| C38 | Fisher–Yates | permutation, bijection with choice sequences |
| C39 | fixed-width strings | round trip |
| C40 | gufunc parsing and dimension resolution | against a spec of consistent assignments |
| C41 | einsum loops | sum over index assignments |
| C42 | matmul etc. | sums; exponentiation by squaring |
| C43 | roll, rot90, tile, repeat, pad | index maps, modular arithmetic |
| C44 | append, insert, delete | list edits |
| C45 | memory with aliasing and reference counts | invariant over operations |
| C46 | NPY writer and reader over bytes | round trip; counterexample for F-only arrays |
| C47 | convolve, polynomials | Mathlib `Polynomial` as spec |
| C48 | percentile, median over ℚ | order statistics |
| C49 | bincount, histogram | counting |
| C50 | triangles, diagonals | index sets |
| C51 | gcd, lcm | `Int.gcd`, `Int.lcm` |
| C52 | clip, where, choose, put | pointwise |
| C53 | arange, linspace, meshgrid, indices | over ℚ |
| C54 | char functions over `List Char` | against simple string specs |
| C55 | shifts | modular arithmetic |
| C56 | NaN-skipping reductions | floats as `Option` (NaN is `none`); the eight-way loop lemma with the non-NaN values as the accumulator monoid |
| C58 | `can_cast` | a decision table over the 14 numeric dtypes; the table is proved equal to inclusion of value sets (integers, binary floats as rationals) |
| C59 | dtype names and parsing | lookup table and decimal text |
| C60 | business days | dates as day numbers; counts as cardinalities of finite sets of days |
| C61 | comparison of dates | meaning of a stored value in nanoseconds |
| C62 | `choice` without replacement | `swap_remove` loop: drawn and remaining indices are a permutation of the range |
| C63 | Fourier transforms over a field with exact roots of unity; one lane is the planner's sum (`rustfft` by contract) | lanes are gathered and scattered along the axis; orthogonality of roots of unity; conjugate symmetry of real data |
| C64 | `gradient`, `trapezoid`, `interp` over a field; the stores of `gradient` at byte addresses | lanes cover the result exactly when the strides match; binary-search invariant |
| C57 | `copy`, `astype` to the same dtype | every copying path equals the denoted elements |
| C65 | printing: the recursion over axes with index prefixes; element texts as a parameter, and those of integers and finite floats | the recursion prints the `page` of the denoted array; a tokenizer reads the page back as the nested list, which determines shape and elements |
| C66 | applyAlongAxis, applyOverAxes, vectorizeCall, frompyfuncCall, vectorizeSig (Model/Functional); a Python function is a Lean function, exceptions are `none` | lanes by address arithmetic, flat index decoding by induction on the shape, the two argument lists merged by induction on positions, shapes against `IsBroadcastAll` |
| C67 | det, slogdet, inv, qr, svd, eigh, eig, cholesky, solve, tensorinv, tensorsolve (Model/Linalg); the library faer by the contracts of Spec/Linalg, in exact arithmetic | both read paths hand over the matrix the array shows; contracts combined with Mathlib's `Matrix.det`; results copied by exact covering stores; tensors by unfolding in row-major order |
| C68 | `vector_norm`, `matrix_norm`, `norm`, `cond`, `matrix_rank`, `pinv`, `lstsq` over an ordered field; singular values and thin SVD by contract; `sqrt` and `powf` as parameters | sums, greatest and least elements from the reduction theorems (C16, C18); from `A = U D Vᵀ`: stretch bounds (Bessel), rank of a diagonal, Penrose conditions, normal equations, minimality |
| C69 | `map_compare_op` with promotion, the comparison kernels for floats, integers and complex numbers, `compare_scalar`, the logical functions, `all`/`any`/`count_nonzero`, their axis versions and fallbacks, `isclose`, `allclose`, `array_equal`; floats are numbers of an ordered type, infinities and NaN | reduce to the element-wise theorem (C15) and to lanes (C18); kernels by cases against the extended line |
| C70 | `astype`: one element is read as a float and written again, exact values over ℚ with NaN and infinities; rounding to a binary format | refinement of the loops to an element-wise map, then a case analysis by target dtype against an independent statement of the conversion rules |
| C71 | extract, place, putmask, select, piecewise, resize, unstack, ediff1d (python/misc.rs) on views over memory, conditions byte by byte | loop invariants for the two value counters over the list of element addresses, compared with specifications on row-major lists; unstack from the slicing and squeezing theorems |
| C72 | Spec/Moments (elements over a tuple of axes, mean, central moment), Model/Moments (whole-array paths, mean and moment along an axis as the chain of binary operations in the code, axis parsing, the descending loop over axes, keepdims) | Induction over the sorted axes: leaving out the highest axis first leaves the positions of the others, and the elements over a tuple are a permutation of the lanes joined. Moments follow the five array operations of `moment_axis`. |
| C73 | Model/Builders: the iterators as state machines, the grid loops over ℚ with fuel, the diagonal loops as stores. | Induction on the number of calls (odometer), on the slices (open axes and their broadcast), on the rows (which cells have been stored so far). |
| C74 | Model/SharedRng: a transition system of threads with the interpreter lock, the generator's lock and its poison flag; a call is a tree of draws. | Inductive invariant over reachable states (who holds which lock, the state after the returned calls run serially); progress by cases on the holder; termination by a weight and the tree of the drawing call. |
| C75 | Model/TextFile (splitting, lines, the row loop, savetxt, text mode of fromfile/tofile, the choice of a number format), Spec/TextTable; printing and reading one float by contract | the loop equals a fold over the selected rows; splitting is inverse to joining; induction over lines and characters |
| C76 | Model/Distribution (inverse transforms, multinomial over any monad of draws, dirichlet, the Cholesky loop of multivariate_normal, the rejection loops of zipf and vonmises, choice with replacement), Spec/Distribution; rand_distr by contract, numbers are reals or an ordered field | inverting distribution functions; induction over categories with the distribution monad; loop invariant of the Cholesky factor and positive pivots; area of the accepted draws; the uncorrelated expectation is any linear functional |
| C77 | `cov` (vector and matrix paths through mean, subtraction, transpose, matmul and division), `corrcoef`, `average` with weights, over any field | entries equal the covariance of two rows by composing the theorems about means, broadcasting and matmul; semi-definiteness by writing the quadratic form as a sum of squares; correlation bounds by Cauchy-Schwarz over the reals; weighted means by the reduction theorems |
| C78 | the closures passed to `nan_reduce_axis`, its index loop, the float kernels along an axis, `nanmean`, `nanvar`, `nanargmin`, `nanargmax` over whole arrays, and the Python axis handling | each loop is folded into the list of numbers of a lane; positions by an invariant over the scan; several axes by the induction of C72, restated so that it does not need the reduction of one element to be that element |
| C79 | `unwrap`, `trim_zeros`, `angle`, `real_if_close` over an ordered field with floor (Model/Signal) | The loop of `unwrap` is a sequence of corrections, each a whole number of periods; lanes rewritten in place do not meet (`foldl_lanes`); the specification determines the result (`C79_unwrap_unique`), from which boundedness, recovery and agreement with NumPy follow |
| C80 | `array_impl`, `from_list` and its flattening and inference, `from_vec_with_shape`, `to_pylist`, `item` over a datatype of nested lists | a rectangular list flattens to its shape and row-major numbers, by induction on the shape; `tolist` is the nested list of the array; both round trips; every list keeps all its numbers in order |
| C81 | `round` and `clip` with their dispatch, exact rational floats, fixed-width integers, truncating and saturating casts of the bounds | nearest decimal by an integer within one half; truncation for integers; clip against rational bounds |
| C82 | `from_array_interface`, `dtype_from_typestr`, `__array_interface__` over byte memory | each copied element is the bytes at the described address; every NumPy typestr is parsed to its dtype; reads stay in the described array; round trip |
| C83 | `copyto` over one memory with three views; `ascontiguousarray`, `asfortranarray`, `require` over the heap | a loop of stores whose targets are distinct and not read later leaves exactly the intended values; the block copy likewise; layout from the contiguity theorems of C03 |
| C84 | `frexp`, `ldexp`, `modf`, `spacing`, `heaviside` on bit patterns (`Spec.BinFormat`, a separate statement of IEEE 754 interchange formats, proved to agree with `Spec.IsFloat`) and on exact values with rounding | magnitude of a pattern is strictly monotone with steps of one unit in the last place; the subnormal case of `frexp` by one exact scaling; fraction of a float is a float; array loops as in C51 |
| C85 | The complex kernels over Mathlib's ℂ (exact arithmetic, the sign of a zero as a Boolean), the ordering tests over a linear order with NaN, `nan_to_num` over `Flt ℚ`, `real`/`imag`/`conj` over any view. | The inverse functions by the algebra of `w · w' = 1` and the sign of real parts; the order by comparison with `toLex`; `nan_to_num` against the largest number of a format. |
| C86 | `emath` over exact real and complex numbers with NaN: the scans that decide for complex numbers, the conversion, the element-wise function, broadcasting in `logn` and `power`. | The scans by `hasValue_iff`; the values against equations with sin, cos, tanh, exp and a half-plane; `power` by comparing integer, real and complex powers. |
| C87 | `finfo`, `iinfo`, `promote_types`, `common_type`, `issubdtype`, `isdtype` over strings and lists of dtypes; decimal constants as rounded rationals. | Names by membership in the tables; `finfo` from one lemma about all binary formats; `common_type` by induction over the fold. |
| C88 | `parse_weekmask`, `BusDayCalendar::new`, the array loops of `isnat` and `is_busday`, the list forms of `busday_offset` and `busday_count`. | Texts of names by induction over the text: no name appears across the border of two others; loops by `writes_addrs`. |
| C89 | The window loops, `sinc` and both branches of `i0` over the real numbers (no rounding) | Trigonometric identities; symmetry by reversing the list; the polynomial of `i0` is compared with the power series: tail by a geometric bound, difference by Taylor shifts on 128 pieces whose coefficient bounds the kernel computes |
| C90 | The flat iterator as a state machine whose memory may change between calls, `resize`, `repeat`, `view`, `tobytes` of pyarray/mod.rs (Model/Methods) | Induction on the calls; stores at distinct positions; the bytes of a contiguous array are a block, so equal blocks give equal bytes |
| C91 | `zeros`, the strides, `reshape`, `resize` and `repeat` in 64-bit arithmetic, with or without overflow checks (Model/Alloc); elsewhere `usize` is unbounded | The product is the true product modulo 2^64; if strides wrap, the innermost axis where they do already reaches beyond 2^63 bytes, so the array is inside its buffer exactly when nothing wrapped |
| C92 | Model/Stack: the functions of src/python/shape.rs that add axes, stack, split and broadcast, over the views and `concatenate` of C08-C11; `reshape` with its casts and products in 64-bit arithmetic | reshape moves an element to the same place in both reading orders when only axes of length 1 are added; the rest by the theorems on concatenate, split, broadcast_to and expand_dims; the product of lengths is exact below 2^63 |
| C93 | Model/FloatOps: the float, half and bool kernels of src/ops/kernels/arithmetic.rs and math.rs and the mixed-dtype path of src/ops/ufunc.rs; floats are exact values with one rounding per operation, `nextafter` works on bit patterns, `logaddexp` on real numbers | Lemmas/DoubleRound: rounding to a format with at least `2p+2` bits first never lands on a halfway point of the narrow one unless the exact result is one, for sums, products and quotients of narrow numbers; exactness of remainders by divisibility; neighbours by the order of bit patterns |
| C94 | Model/CharCase: the case functions and predicates of src/ops/char.rs on string arrays, with the loops over chunks of 8 code points; Rust's Unicode tables are a parameter, constrained only on ASCII | the stores cover every unit once; on characters with one-to-one mappings every element is the text of the str method, by position; the loops of title and istitle by induction |
| C95 | Spec/Ufunc: NumPy's result dtype per function, exact values, answers of tests. Model/Ufunc: `map_unary_op`, the dispatch groups, the float, half, integer and predicate kernels and the trait fallback, with the libm functions as parameters | refinement of the loops to elementwise maps; `isFloat_whole` for exactness in half precision; C93's double-rounding theorem for square and reciprocal; case analysis over dtypes and functions for result types |
| C96 | `map_binary_op_inplace` with its conversions for division, `scalar_op`, `rscalar_op` and `apply_binary_ufunc` on bools, integers and floats, over the element operations of C33 and C93 (Model/Arith) | one pass over broadcast operands by C15, operands converted by C70; a table of all dtype pairs by the kernel; floats by the double-rounding lemma of C93 |
| C97 | bitwise loops over buffers of bytes; an element read outside its buffer is `none` | bits of two's complement numbers; broadcasting; the last element of the smaller operand |
| C98 | Model/Archive: `savez`, `load` over a file system from paths to bytes; the `zip` crate enters by contract (entries come back, a repeated name is refused, a dropped writer is finished) | invariant of the writing loop (entries so far), `dict` as an association list with last value winning; round trip from C46 |
| C99 | Model/Block: `process_block` over nested lists, with `concatenate` of C11 | induction on the depth; refinement of the recursive specification Spec/Block |
| C100 | `Spec/Args` (`PyArg`, `IsPadWidth`, `IsReps`, `IsDotAxes`), `Model/Args` (argument parsing of `pad`, `tile`, `tensordot`, `take`) | agreement of accepted arguments with the specification, for all nestings; refusals and wrong acceptances as counterexamples |
| C101 | `Model/Choose` (`where_select` outside the kernels, `where` with Python numbers, `choose` over byte buffers) | element-wise conversion for all real dtype pairs and layouts; bytes of the selected elements for choices of one dtype; counterexamples and reads outside the buffer |
| C102 | Model/Totals: reduction kernels of every number dtype over the loops of Model/Reduce, with the result stored and read through float64; means | An inductive relation `Folded` (results of adding elements one by one, joining partial results and reordering) covers all loops; integer totals by congruence, float sums by an error bound by induction over `Folded`, extremes by an order argument |
| C103 | Model/Sequence: Python's iteration, `in`, `bool`, `float`, `int` of an array over `__getitem__`, `__float__`, `__int__`; what Python does for a class without `__iter__`, `__len__`, `__contains__` and `__bool__` enters by its contract | Induction over the number of steps; the rows by C13 |
| C104 | `map_compare_op` with the real conversions (`promote_dtype`, `astype`) and the kernel of every dtype, `compare_scalar`, `comparison_op_dispatch` | the conversion to the common dtype is exact when the dtype fits, otherwise rounding to a double; rounding is monotone, so strict operators are never wrongly true; dates through C30 |
| C105 | `float_power` with its operand parsing, promotion, conversion and both loops; `powf` and `powc` are parameters (Model/FloatPower) | the contiguous copy and the generic loop equal the element-wise map; conversion to the common dtype and then to double is one rounding, by the promotion table |
| C106 | Model/Sampling: the array form of every sampling function (set up a sampler or panic, draw in a loop, store in float64 or int64), the scalar form as Python calls it, `permutation` of an array. The samplers of rand_distr by contract; `Normal` and `Exp` written out. | The loop is the scalar call repeated (Spec/Sampling `InARow`), by induction; the loop splits; the store of an int64 sample and its reading as f64 give the same integer. Counterexamples where the two forms compute differently. |
| C107 | Model/Truth: `is_truthy` of every dtype, `get_element(..) != 0.0`, and the functions of C14 and C69 with the test that the code uses for each dtype. | The tests are compared with "not zero" dtype by dtype; a list of indices in row-major order (Spec/Truth `Lists`) is what all functions describe. Counterexamples for `nonzero` of complex arrays and for NaT. |
| C108 | `argmax` and `argmin` with their dtype tables, starting values and the two ways to read an element, over `Elem`; the loops are those of C19 | A scan over floats that are not NaN is mapped to a scan over their places on the line, where the C19 lemmas apply; per dtype the value compared stands where the element stands |
| C109 | One table `readAxis` of how each of 36 functions and methods turns its axis argument (omitted, None, an integer) into an axis, the whole array, nothing, an exception or a panic, with the cast to `usize` modulo 2^64; `expand_dims`, `stack` and `rot90` apart | An arithmetic lemma: the cast is below the number of axes exactly when the integer means an axis; then cases on the function |
| C110 | The readers of indices and values of `put` as function and as method (`putIndices`, `putValues`, `methodIndices`, `methodValues`) for numbers, tuples, lists, arrays of every dtype and the array itself, on top of `put` of C52 | C52 gives the list of assignments; an induction says which assignment counts at a position; conversion by the theorems of C70 about f64 |
| C111 | `searchElems` (conversion of both operands to the common dtype, then the search of C25), `searchFn`, `searchMethod` (number first, through `__float__` for one-element arrays), in Model/SearchElem | elements that the common dtype holds, or integers up to 2^53, keep their place (`cast_kept`), so the search among elements is the search of C25 among places (`search_core`, `searchsorted_congr`); numbers as float64 arrays of one element; partial: larger integers, NaN and complex numbers fail (counterexamples) |
| C112 | `condFn`, `condMethod`, `compressOf` in Model/CompressArg, on top of `compressFlat`, `compressAxis` (C14) and the truth of elements (C107) | the condition read from an array of any layout is true exactly at the row-major places of its true elements (`places`), then C14; the method is partial: complex conditions keep nothing |
| C113 | `dotElem` in Model/DotElem: the loop over doubles for two vectors, `scalar_op` for arrays without axes (C96); `matmul` for the other ranks is a parameter (C42) | integers: the doubles of the loop stay exact while the magnitudes of the products sum to at most 2^53 (`dot_exact`, induction); floats: `Adds`, each product and sum rounded once; scalars from C96; partial: dtype of the result, overflow, complex (counterexamples) |
| C114 | `operandType`, `resultLoop`, `resultTypeOf` in Model/ResultType over `Spec.Operand`; arithmetic as in C96 | the loop is the fold of `promote` over the operands' dtypes (induction), values by C28, agreement with `arith` for every operation but division; partial: 64-bit integers; counterexamples for Python numbers and integers beyond int64 |
| C115 | `parseShapeArg`, `parseNewShape`, `parseReshapeArgs`, `reshapeMethod`, `reshapeFunction` in Model/ShapeArg over `Spec.PyArg`; the views as in C08 and C92 | each parser returns exactly what the arguments write (`PyArg.Writes`, `ArgsWrite`); success of the method iff some shape resolves the lengths (`IsResolved`); method and function compared through `IsResolved`; counterexample for lengths below -1 in the function |
| C116 | `insertValues`, `insertFn` in Model/InsertArg over `Spec.InsertArg`, with `insertArr` of C44; values of another dtype are a parameter (their bytes are C12) | the values become a fresh vector of converted elements (conversion through a double as in C110), then C44; arrays of the same dtype unchanged; refusals by induction on the list |
| C117 | `sharesMemory`, `Heap.base` in Model/Share over the heap of C45 | the history theorem of C45 ties every handle to NumPy's array; equal buffers are equal allocations; counting the variables that hold a buffer for `base` |
| C118 | `formatTimedelta`, `formatDuration` in Model/Duration; an independent reader `Spec.durationOf` | the number has no space, so the reader splits where the text was joined; digits are read back by induction; the ten unit names by cases |
| C119 | `einsumPath` in Model/EinPath over the parser and the check of C41; the text for people is not modelled | induction on the number of operands: a step (0, 1) leaves one operand fewer with the same arguments; acceptance from C41 |
| C120 | `deg2rad`, `rad2deg`, `radians`, `degrees` in Model/Angle over `astype` (C70) and the product with a number (C96) | the converted array is typed and has the rounded elements; the product from C96; the factors are computed by the kernel |
| C121 | `pyHistogram2d`, `pyHistogramdd` in Model/HistArg over the histograms of C49 | the parsers accept exactly the arguments with a meaning (Spec/HistArg); the counts from C49 |
| C122 | `numberFn`, `ofNumber` in Model/NumberFn beside the array functions of C95 | case by case on the function; integers through C95 and the exactness of doubles up to 2^53 |
| C123 | `shapeOfPy`, `ndimOfPy`, `sizeOfPy` in Model/SizeFn over `array` of nested lists (C80) | rectangular lists through C80 for both ways of reading numbers; the count of numbers through `C80_array_keeps_all` |
| C124 | `diffVia`, `diffTyped`, `diffElems` in Model/DiffElem over `diff` (C20) | C20 gives the neighbours at each position; each of the two subtractions is shown to be the correctly rounded one, or exact for integers up to 2^52 |

## Disagreements between the code and the properties

Each entry is proved in Lean as a counterexample theorem unless marked
"(read only)".

- Slicing an axis that is already reversed. `slice_axis` moves the data pointer by
  `start * |stride|`, so `a[::-1][1:]` reads the wrong elements, partly before or
  after the buffer. `Props.C04_slice_reversed_counterexample`.
- Flipping twice. `flip(flip(a))` addresses memory past the buffer for the same
  reason. `Props.C07_flip_twice_counterexample`, `Props.C05_flip_counterexample`.
- `transpose` accepts repeated axes and then addresses memory outside the buffer.
  `Props.C05_transpose_repeated_axis_counterexample`.
- `moveaxis` with several axes inserts destinations in the order given, not in
  increasing order. `Props.C06_moveaxis_counterexample`.
- `reshape` of an array that is Fortran- but not C-contiguous keeps Fortran order,
  so the row-major element sequence changes. `Props.C08_reshape_fortran_counterexample`.
- `squeeze` of a shape of all ones gives `(1,)`, not `()`.
  `Props.C10_squeeze_all_ones_counterexample`.
- An out-of-range integer index is not an error: `a[10]` on three elements, or
  `a[7, :]` on two rows, gives a view outside the buffer (only `a[i, j]` with all
  axes given is checked). `Props.C13_getint_out_of_range_counterexample`,
  `Props.C13_tuple_out_of_range_counterexample`.
- In a tuple index, a negative-step slice whose start is past the end starts one
  past the end, and `::-1` on an empty axis gives one element.
  `Props.C13_backward_start_counterexample`, `Props.C13_backward_empty_counterexample`.
- `concatenate` (and everything built on it) uses the first array's dtype and copies
  the other arrays' bytes under it. `Props.C12_mixed_dtype_counterexample`,
  `Props.C12_mixed_itemsize_counterexample`.
- `a[idx]` with a 2-d index array gives a 1-d selection; with empty rows it stores
  outside the empty result. `take` of a view `v[None, :]` along axis 0 copies one
  element; `take` from an empty array stores outside the result; `take` without an
  axis uses axis 0. `argwhere` of a 0-d array has the wrong shape. See the
  `Props.C14_*_counterexample` theorems.
- `compress` ignores a True beyond the end of the axis (NumPy: error) (read only).
- `digitize` with decreasing bins exchanges the two sides.
  `Props.C25_digitize_decreasing_counterexample`.
- `unravel_index` for a 0-d shape, and `ravel_multi_index` with clip or wrap on a
  zero-length axis, panic. `Props.C26_*_counterexample`.
- The Python wrapper of `unravel_index` reads a non-contiguous index array as if it
  were contiguous (read only).
- `put` with an empty list of values panics; `put_along_axis` leaves the stores made
  before the bad index. `Props.C52_put_no_values_counterexample`,
  `Props.C52_put_along_axis_error_counterexample`.
- C52: unless all operands are contiguous after broadcasting, `where` tests only the first byte of
  each condition element, so the float `1.0` or the int16 `256` count as false (`-0.0` counts as true
  on the contiguous path). `Props.C52_where_strided_counterexample`,
  `Props.C52_where_float_counterexample`.
- C16: the value of a full integer reduction is carried as `f64`, so results beyond 2^53 are rounded.
  `Props.C16_value_i64_counterexample`.
- C17: `SumOfSquares` squares the partial sums again when the eight accumulators are combined (any
  array of eight or more elements), gives 0 for strided n-d arrays, wraps in small integer types, and
  squares complex numbers instead of taking the modulus. `Props.C17_*_counterexample`.
- C18: reducing a 1-d array along its axis gives shape `(1,)`; for bool and datetime an empty axis gives
  zeros instead of the identity. `Props.C18_shape_counterexample`, `Props.C18_fallback_counterexample`.
- C56: `nanmax([-inf])` is NaN (likewise `nanmin([inf])`). `Props.C56_nanmax_counterexample`. Along an
  axis an all-NaN lane gives `-inf` instead of NaN (read only).
- Complex `max` starts from `-inf`, whose modulus is infinite, so it always returns `-inf` (read only).
- C19: along an axis, `argmax`/`argmin` of a typed array that is not C-contiguous dereference one byte of an
  element as an address, unless the axis stride is the item size. `Props.C19_axis_fault_iff` gives the exact
  condition, `Props.C19_axis_fault_counterexample` an instance. With a NaN the flat result depends on the
  layout. `Props.C19_nan_counterexample`.
- C20: `diff` of anything but a 1-d contiguous array goes through `f64`, so unsigned differences saturate at 0
  and large values are rounded; orders above one leave the wrong shape when another axis is empty;
  `cumulative_sum(include_initial=True)` along a leading axis stores outside an empty result.
  `Props.C20_*_counterexample`.
- C21: sorting goes through `f64`, so int64 values beyond 2^53 are changed by `sort`, not only misplaced.
  `Props.C21_sort_counterexample`. With `axis=None`, `sort` and `argsort` panic when the array cannot be
  reshaped to one dimension and use column-major order for Fortran-contiguous arrays.
  `Props.C21_flat_panics_iff`, `Props.C21_flat_counterexample`.
- C22: the `partition` method also stores elements through `f64`. `Props.C22_method_counterexample`.
- C23: `unique` treats values closer than EPSILON as equal and never merges equal infinities; integers beyond
  2^53 collapse. `Props.C23_unique_counterexample`, `Props.C23_unique_i64_counterexample`. For an empty array
  the inverse has shape `(0,)` whatever the input shape (read only).
- C24: set operations compare through `f64` (`Props.C24_i64_counterexample`); `isin` compares bit patterns, so
  `-0.0` is not found among `0.0` and NaN is found among NaN (`Props.C24_isin_counterexample`); `in1d` keeps the
  shape of a non-contiguous array and uses column-major order for a Fortran-contiguous one
  (`Props.C24_in1d_strided_partial`, `Props.C24_in1d_counterexample`).
- C28: promotion of dates, durations and strings takes the first operand's dtype in some cases, so it depends
  on the order (`Props.C28_asymmetric_iff` gives the exact condition); two strings take the first length; a
  duration with int64 loses its unit. `result_type` folds from the left, so three operands can give different
  answers in different orders. `Props.C28_counterexample`, `Props.C28_result_type_counterexample`.
- C58: integers to complex are always called safe, also int64 to complex64; `equiv` only compares item sizes.
  `Props.C58_unsafe_iff`, `Props.C58_equiv_counterexample`.
- C59: the name and type string of a string dtype do not contain its length; big-endian dates are read as
  little-endian. `Props.C59_counterexample`, `Props.C59_byteorder_counterexample`.
- C29: `ymd_to_days`/`days_to_ymd` use floor division for eras by hand and are right for all day numbers except
  the last 719468 ones, where the addition wraps. `Props.C29_date_iff_partial`, `Props.C29_counterexample`.
- C30: conversion to a longer unit truncates towards zero, so times before 1970 round up
  (`Props.C30_coarser_iff`, `Props.C30_counterexample`); conversion to a shorter unit wraps silently
  (`Props.C30_overflow_counterexample`).
- C31: fractional seconds are parsed through a double and truncated, so 11549 of the 10^6 microsecond texts
  come back one tick early; negative years are parsed as NaT; months of years before 0 are
  printed with a negative month number (`0000--4`) and read back wrong.
  `Props.C31_counterexample`, `Props.C31_negative_years`, `Props.C31_month_counterexample`. Decimal fractions are
  modelled exactly: `ratToF64` is the nearest double of a rational, checked against the error bound it needs.
- C32: on the fast path NaT is an ordinary number (`Props.C32_nat_iff`), and operands of different units are
  added without conversion (`Props.C32_units_iff`); the difference of two dates in different units is a date
  (`Props.C32_units_counterexample`).
- C60: `busday_count` gives 0 when the second date comes first; `busday_offset` never returns for a calendar
  without business days; an offset of 0 stays on a holiday. `Props.C60_*_counterexample`.
- C61: dates are compared in the first operand's unit after truncation, so `==` depends on the order of the
  operands; NaT equals NaT. `Props.C61_counterexample`.
- C33: for signed integers `//` truncates and `%` has the sign of the dividend; when an array of at least 32768
  elements is passed as the output the other element functions are used, and `//` is Euclidean division. The
  smallest number divided by -1 panics. A negative exponent gives 0 and exponents are taken modulo 2^32. Operands
  of different dtypes go through float64 and saturate. `Props.C33_counterexample`, `Props.C33_pow_counterexample`,
  `Props.C33_mixed_counterexample`. Read only: a Python scalar is converted to the array's dtype first, so
  `a + 0.5` on integers adds 0.
- C34: shift amounts are taken modulo the width (`Props.C34_shift_modulo`, `Props.C34_shift_counterexample`);
  for operands of different dtypes the narrower one is read with the width of the result, so it also reads the
  following element or past the end (`Props.C34_mixed_read_iff`, `Props.C34_mixed_counterexample`).
- C36: `uniform(low, high)` is only read: `low + u*(high-low)` is rounded and can give `high` itself.
- C37: the bounds are not compared (`integers(5, 5)` returns 5, `integers(5, 3)` draws from the whole 64-bit range)
  and the values pass through float64, so `integers(2^53+1, 2^53+2)` always returns `2^53`.
  `Props.C37_counterexample`.
- C38: python `shuffle` treats the memory of the array as consecutive float64 words. For a view with gaps it moves
  elements that are not in the view (`Props.C38_counterexample`); for a 0-dimensional array it panics; for other
  dtypes it moves parts of elements and, for item sizes below 8, reads and writes past the end (read only).
  `permutation` flattens and returns float64 (read only).
- C51: the gcd with the smallest signed value can be negative (`Props.C51_counterexample`); the array functions
  ignore strides, broadcasting and the dtype of the second operand, and read past its end
  (`Props.C51_array_counterexample`).
- C43: `repeat`, `tile`, `pad` and `roll` along an axis move elements through `f64`, so integers beyond 2^53 change
  (`Props.C43_repeat_wide_counterexample`); `repeat(a, 0, axis)` has shape `[0]`
  (`Props.C43_repeat_zero_counterexample`); `roll` copies the array when the axis does not exist
  (`Props.C43_roll_axis_counterexample`) and without an axis rolls a Fortran-contiguous array in memory order
  (`Props.C43_roll_fortran_counterexample`); `tile` with only ones keeps the shape although more repetitions than
  axes were given (`Props.C43_tile_ones_counterexample`); `pad(mode="edge")` of an empty axis reads outside the
  array (`Props.C43_pad_edge_counterexample`); `rot90` of a reversed view reads the wrong memory
  (`Props.C43_rot90_counterexample`). Read only: python `pad` reads a pair of pairs as one (before, after).
- C44: without an axis, `append`, `insert` and `delete` flatten Fortran-contiguous arrays in memory order
  (`Props.C44_append_fortran_counterexample`); negative positions of `insert` are one too large
  (`Props.C44_insert_negative_counterexample`); positions out of range are clamped instead of rejected
  (`Props.C44_insert_range_counterexample`, `Props.C44_delete_range_counterexample`); inserted values are not
  broadcast (`Props.C44_insert_scalar_counterexample`).
- C55: `fftshift` and `ifftshift` reject arrays with more than two axes (`Props.C55_axes_counterexample`).
- C63: `irfft` of one frequency panics (`Props.C63_irfft_panic_iff`). When the output length is odd, `irfftn` and
  `hfft` leave the last negative frequency at zero, so they do not undo `rfftn` and `ihfft`
  (`Props.C63_irfftn_odd_counterexample`, `Props.C63_hfft_odd_counterexample`). Empty arrays panic in `rfftn` and
  `irfftn` (in the model, read from the code). Floating point rounding and the algorithm of `rustfft` are not
  modelled: `Exact` says that a plan computes the defining sum.
- C50: `diagonal` of an array with more than two axes loses the other axes (`Props.C50_diagonal_counterexample`).
  `diag` stores 8-byte floats whatever the dtype is: int64 results hold bit patterns
  (`Props.C50_diag_counterexample`) and item sizes below 8 are written past the end of the buffer
  (`Props.C50_diag_in_bounds_iff`).
- C48: percentiles and axis medians of an empty array or axis are 0, not NaN
  (`Props.C48_percentile_counterexample`, `Props.C48_median_counterexample`).
- C49: `histogram` of constant data has equal edges and counts everything in the first, empty bin
  (`Props.C49_histogram_counterexample`); without bins it panics (`Props.C49_histogram_no_bins_counterexample`);
  `histogramdd` counts NaN in the first bin (`Props.C49_histogramdd_counterexample`); `bincount` truncates fractions
  instead of refusing them (`Props.C49_bincount_counterexample`).
- C53: `arange` without a dtype is int64, so `arange(0, 1, 0.25)` is all zeros
  (`Props.C53_arange_default_dtype_counterexample`); a zero step panics or gives an empty array
  (`Props.C53_arange_zero_step_counterexample`); `meshgrid` refuses vectors that are not contiguous
  (`Props.C53_meshgrid_counterexample`).
- C40: the signature parser accepts malformed text: `(m)(n)->()`, `(n)->)(`, `(n)->junk`. A dimension that only a
  result names has length 1 instead of being refused. `Props.C40_parse_counterexample`, `Props.C40_resolve_shape`.
- C40: an operand with fewer loop axes than the result (but some) has them aligned from the left, and negative loop
  offsets are clamped to 0. So a stacked `matmul` or `inner` reads the wrong matrices, for example with a reversed
  stack. `Props.C40_call_counterexample`, `Props.C40_call_stride_counterexample`.
- C42: `matmul` of float16, int8, int16 or any unsigned dtype is all zeros. `Props.C42_matmul_zeros_counterexample`.
  Operands of two dtypes are both read as the result dtype. `Props.C42_matmul_mixed_counterexample`. A product with a
  vector loses every axis of length 1. `Props.C42_matmul_squeeze_counterexample`.
- C42: `inner` and `outer` store float64 bits whatever the result dtype: int64 results are wrong, and results with
  elements below 8 bytes are written past the end. `Props.C42_inner_dtype_counterexample`,
  `Props.C42_inner_in_bounds_iff`, `Props.C42_outer_in_bounds_iff`. `inner` of two matrices has the wrong shape.
  `Props.C42_inner_shape_counterexample`. `outer` refuses non-contiguous operands and flattens transposed ones column by
  column. `Props.C42_outer_accepts_iff`, `Props.C42_outer_fortran_counterexample`.
- C42: `dot` of vectors has the dtype of the first operand. `Props.C42_dot_dtype_counterexample`. `dot` of arrays above
  rank 2 is `matmul` (read only).
- C42: `kron` of a vector and a matrix that are not contiguous float64 panics. `Props.C42_kron_counterexample`.
  `matrix_power` of an integer matrix multiplies a float64 identity with the bytes of the integers.
  `Props.C42_matrix_power_counterexample`. `tensordot` of two vectors with no axes summed is wrong, and most other axes
  are refused. `Props.C42_tensordot_counterexample`, `Props.C42_tensordot_refused`.
- C47: with a second operand longer than the first, `convolve` and `correlate` take the wrong window in the modes
  `same` and `valid` (`Props.C47_window_counterexample`). Two empty vectors make `convolve` panic in mode `full`, and
  empty operands are not refused (`Props.C47_empty_counterexample`). `polyint` uses the integration constants in
  reverse order (`Props.C47_polyint_constants_counterexample`). `polyfit` multiplies rows by the square root of the
  weight, NumPy by the weight (`Props.C47_polyfit_weights_counterexample`). `roots` gives no roots for a quadratic with
  complex roots and drops leading coefficients below 1e-15 (`Props.C47_roots_complex_counterexample`,
  `Props.C47_roots_small_counterexample`). Complex inputs to these functions are read as 0 (read only).
- C64: `gradient` stores each lane at the offset the lane has in its input. Unless the strides of the other axes are
  those of a fresh float64 array, results are stored over each other or outside the result
  (`Props.C64_gradient_float32_counterexample`, `Props.C64_gradient_transposed_counterexample`,
  `Props.C64_gradient_store_counterexample`). Every axis must be at least 2 long, also those that are not
  differentiated (`Props.C64_gradient_short_counterexample`). With unequal coordinates the inner slopes are first-order
  (`Props.C64_gradient_coords_counterexample`). `trapezoid` silently ignores coordinates of another shape
  (`Props.C64_trapezoid_coords_counterexample`); `interp` treats the first and last point as outside when `left` or
  `right` are given (`Props.C64_interp_ends_counterexample`) and gives zeros without points
  (`Props.C64_interp_empty_counterexample`).
- C46: an array that is in column-major order only is marked `fortran_order: True`, but its data are written in
  row-major order, so it comes back with its elements permuted (`Props.C46_column_major_mixed`,
  `Props.C46_column_major_counterexample`). Text dtypes are written without their length and come back as strings of
  length 0 (`Props.C46_text_counterexample`). The header has no final newline when it needs no padding
  (`Props.C46_newline_counterexample`). On reading, the number of bytes wraps around, so a header can describe an array
  much larger than its buffer (`Props.C46_overflow_counterexample`); dimensions that are not numbers are dropped and
  versions above 3 are accepted (`Props.C46_wrong_header_counterexample`). `frombuffer` ignores left-over bytes and
  offsets past the end (`Props.C46_frombuffer_counterexample`). `String::from_utf8` enters by contract: ASCII bytes
  are read as the same characters.
- C41: an output in another order than "letters of the first operand, then of the second" gets the elements in the
  untransposed order (`Props.C41_output_order_counterexample`), also when the last of several steps is a transposed outer
  product (`Props.C41_last_step_counterexample`). Summed letters must be in the same order in both operands
  (`Props.C41_summed_order_counterexample`) and in both (`Props.C41_lone_summed_counterexample`). A letter that both
  operands and the output have, beside a summed letter, can make the call panic (`Props.C41_batch_counterexample`), and so
  does an empty sum of products (`Props.C41_empty_sum_counterexample`). Letters that repeat in an operand
  (`Props.C41_repeated_counterexample`, `Props.C41_one_repeated_counterexample`) or in the output
  (`Props.C41_repeated_output_counterexample`) give wrong elements. A column-major operand with two letters of a kind is
  paired in storage order (`Props.C41_column_major_counterexample`). Complex operands of the general loops are read as 0
  (read only). `einsum_path` is C119.
- C39: a NUL character inside a string ends it when it is read (`Props.C39_embedded_nul_counterexample`). The width of a
  nested list is that of its first innermost row, so longer strings elsewhere are cut
  (`Props.C39_nested_cut_counterexample`). A ragged list becomes a flat array (`Props.C39_ragged_counterexample`). An
  element of width 0 has the truth value of the memory behind it (`Props.C39_truth_width_counterexample`). Rust's order
  of strings is that of their UTF-8 bytes; that it is the order of the code points is proved (`compareText_spec`).
- C54: `startswith` does not stop at the width of the element, so a longer prefix is compared with the next element or
  with memory behind the array (`Props.C54_startswith_counterexample`). `replace` of an empty string does nothing
  (`Props.C54_replace_empty_counterexample`). `strip` keeps U+001C to U+001F (`Props.C54_strip_counterexample`) and
  ignores its argument (`Props.C54_strip_chars_counterexample`); the search functions ignore `start` and `end`
  (`Props.C54_start_counterexample`). `center` puts the odd character on the right also for odd widths
  (`Props.C54_center_counterexample`). `add`, `multiply`, `center`, `ljust`, `rjust`, `zfill`, `expandtabs` and the
  comparisons read an array that is not contiguous as if it were (`Props.C54_strided_counterexample`). Rust's
  White_Space table above ASCII is written out in `whiteSpace` (trusted).
- C45: buffers are numbered and arrays are (buffer, view) pairs (`Heap`, `Handle`); the specification is a world of rows of
  cells (`Spec.World`). Reading and writing single elements goes through `f64` in the code, so int64 values above 2^53
  change; the model stores the value itself. Assignment between overlapping views reads elements already overwritten
  (`Props.C45_overlap_counterexample`). `array(a)` and rounding of integers share memory with `a`
  (`Props.C45_array_shares_counterexample`). `sort` and `resize` of a view replace the array in the object and leave the
  base alone (`Props.C45_sort_view_counterexample`). `a[0] = row` is an error (`Props.C45_assign_row_counterexample`).
  `a[5, :] = x` out of range writes outside the array (`Props.C45_setitem_outside_counterexample`). The reuse of a
  temporary's memory never takes place, because the buffer is always held more than once at the test
  (`Props.C45_elision_never`). Read only: there are no in-place operators, so `a += b` rebinds the name.
- C65: numbers are printed with eight digits after the point, so small ones all print as `0.`
  (`Props.C65_float_counterexample`); empty arrays print as `[]` whatever their shape
  (`Props.C65_empty_counterexample`); quotes inside strings are not escaped, so different arrays print the same
  (`Props.C65_string_counterexample`). Read only: between the outermost blocks of arrays with four or more axes NumPy puts
  more blank lines, breaks lines at 75 characters, and pads strings differently.
- C66: `apply_along_axis` puts the axes of array results at the end instead of in the place of the axis (identity along axis 0 transposes), stores all results in the dtype of the input (means of integers are truncated) and returns an array of the outer shape without calling the function when there is no lane (NumPy refuses). `frompyfunc` of a 0-d array has shape `(1,)`. `vectorize` with a signature takes the loop axes of the first operand and does not broadcast, and divides by zero when one of them is empty. `vectorize` always gives float64 when no `otypes` are given, and ignores `excluded` (read only).
- C67: `slogdet` of an empty matrix is `(1, -inf)` instead of `(1, 0)` (`Props.C67_slogdet_empty_counterexample`). `inv` and `solve` do not refuse a singular matrix (`Props.C67_inv_singular_counterexample`, `Props.C67_solve_accepts`). `solve` stores float64 bits into an array of the dtype of `A`: integers come out as bit patterns (`Props.C67_solve_int_counterexample`) and float32 makes it write past the end of its result (`Props.C67_solve_float32_counterexample`). `tensorinv` of a column-major array is wrong (`Props.C67_tensorinv_fortran_counterexample`), and its default `ind` is half the number of axes instead of 2 (`Props.C67_tensorinv_default_counterexample`). `tensorsolve` with `axes` refuses almost every array (`Props.C67_tensorsolve_axes_counterexample`). Read only: `svd` ignores `full_matrices`; stacks of matrices are refused.
- C68: the 2-norm and Frobenius norm go through `sum_of_squares`, so they inherit the errors of C17 for eight or more elements and for strided n-d arrays. The norm of an empty array is 0 for every order, where NumPy refuses inf and -inf. A 1-D norm with an order that is not a number, such as "nuc", silently gives the 2-norm. `cond` with order -2 of a singular matrix is infinite instead of 0, and orders other than 2 and -2 are refused.
- C69: an integer array is compared with floats and with Python numbers through float64, so `2^53 + 1 == 2^53` (`Props.C69_compare_mixed_counterexample`, `Props.C69_compare_scalar_counterexample`, which also shows the shape `(1,)` for a 0-d array). Complex numbers are ordered by magnitude, NumPy orders them by real part first (`Props.C69_complex_order_counterexample`). Strings compare as `0.0`, so string arrays are equal whatever they hold (`Props.C69_compare_string_counterexample`), and complex arrays are always close (`Props.C69_close_counterexample`). `all` of int8, datetime64 and timedelta64 along an empty axis is False (`Props.C69_axis_counterexample`); along the axis of a 1-d array the result has shape `(1,)`. Read only: `numpy.all` and `numpy.any` return the floats 1.0 and 0.0.
- C70: `astype` (src/array/mod.rs:354-427) reads every element as an `f64` and writes it with a Rust cast. Integers that do not fit are clamped instead of wrapped (`300` to uint8 is 255). 64-bit integers are rounded on the way (`2^63 - 1` to uint64 is `2^63`) and rounded twice on the way to float32. Complex numbers and strings cannot be read as `f64`, so converting complex64 to complex128, complex to real, or one string width to another gives zeros or empty strings. NaT becomes `-2^63` as a float and NaN becomes the epoch as a date. (`C70_narrow_counterexample`, `C70_wide_counterexample`, `C70_complex_counterexample`, `C70_text_counterexample`.)
- C71: conditions of another dtype than bool are read one byte per element (on the fast path even at consecutive bytes), so the int64 condition [0, 1] selects nothing (`C71_extract_counterexample`). extract turns the elements of complex arrays into zero. On contiguous arrays of complex, float16, datetime or string dtype place and putmask silently do nothing (`C71_place_untyped_counterexample`). putmask with values that are a reversed view of the array reads elements it has already replaced (`C71_putmask_overlap_counterexample`). select does not broadcast: a choice of another shape panics (`C71_select_broadcast_counterexample`). Where two conditions of piecewise are true the first one counts, NumPy uses the last one (`C71_piecewise_counterexample`). unstack along a reversed axis returns views outside the array (`C71_unstack_counterexample`).
- C72: a tuple naming every axis gives shape `(1,)`, not `()` (`C72_all_axes_counterexample`). A repeated axis is not refused: `(0, 0)` reduces two axes and `(1, -1)` on a matrix panics (`C72_repeated_counterexample`). `var(axis=0)` of a vector returns as many elements as the vector has (`C72_var_vector_counterexample`). `var` over two axes is the variance of the variances (`C72_var_axes_counterexample`). The mean of int8 along an axis wraps (`C72_mean_int_counterexample`). `keepdims` on a vector gives two axes (`C72_keepdims_vector_counterexample`), and on an integer array without an axis truncates the mean (`C72_keepdims_mean_counterexample`).
- C73: `ix_` panics on a strided vector (`C73_ix_counterexample`); read only: it does not turn a boolean vector into positions. A fractional grid step is truncated to an integer, so `mgrid[0:1:0.25]` is empty (`C73_points_counterexample`), a zero step is an empty range and a negative imaginary count is zero points. `fill_diagonal` reads strided values as if contiguous (`C73_fill_values_counterexample`), accepts unequal lengths above two axes and panics on empty values (`C73_fill_shape_counterexample`). `unravel_index` reads a reversed index array past its end (`C73_unravel_array_counterexample`). `mask_indices` reads past the end for a mask that is a vector (`C73_mask_indices_counterexample`). `ndenumerate` gives every element as a float.
- C74: every method takes the generator's lock before it turns `size` into a shape. If that runs a Python `__index__` and the interpreter switches threads, a second thread that calls the same generator blocks with the interpreter lock held, and both wait for ever (`C74_deadlock_counterexample`). Parameters that `rand_distr` refuses, such as `exponential(-1, size=3)`, panic with the lock held; the lock is poisoned and every later call on that generator panics, where NumPy raises ValueError and goes on (`C74_poison_counterexample`, `C74_poisoned`). Not modelled: a `size` whose `__index__` calls the same generator (it deadlocks by itself), builds of Python without the interpreter lock.
- C75: `loadtxt` gives a file with one row the shape `[1, m]` and an empty file `[0, 0]`, where NumPy gives `[m]` and `[0]` (`C75_shape_counterexample`). A comment after numbers makes it refuse the file (`C75_inline_comment_counterexample`). A column in `usecols` that a row does not have is dropped silently (`C75_usecols_counterexample`). `savetxt` accepts arrays with more than two axes and flattens them. `fromfile` with a separator skips what is not a number (`C75_separated_counterexample`). Formats with a width, or without a precision, are ignored (`C75_format_counterexample`); `%.ng` prints `n` decimals, not `n` significant digits (not proved: printing is not modelled).
- C76: The acceptance test of `vonmises` subtracts the second draw where the algorithm of Best and Fisher subtracts its logarithm (`c.ln() - c + 1.0 - u2`), so the second test never accepts anything new (`C76_vonmises_accepts`), the samples do not have the von Mises law (`C76_vonmises_law_counterexample`; the right test has it, `C76_vonmises_best_fisher`), and for kappa of two or more no angle a quarter turn or more from mu is ever returned (`C76_vonmises_support`). The angle is also not wrapped to `[-π, π]` (`C76_vonmises_wrap_counterexample`). A draw of zero gives an infinite value in `laplace` and `logistic` (`C76_infinite_counterexample`). `multinomial` panics for probabilities that sum to more than one and for none, and has a first axis of length one without a size (`C76_multinomial_counterexample`). `multivariate_normal` gives NaN for a semi-definite covariance (`C76_semidefinite_counterexample`). Seen but not modelled: `geometric` uses the distribution that starts at zero, NumPy's starts at one.
- C77: `np.corrcoef` gives 1 for a constant row with itself where NumPy gives NaN, and `[[1]]` for any vector (`C77_corrcoef_counterexample`). `np.cov` of a vector has shape `[1]` where NumPy's has no axes (`C77_cov_vector_partial`). Both panic on arrays without axes and with three axes. `np.average` with weights of another shape divides by the sum of the weights before broadcasting; along an axis, weights for that axis are laid along the last axis, or the call panics (`C77_average_counterexample`). Weights whose sum is zero give NaN where NumPy raises `ZeroDivisionError`.
- C78: over several axes `nanmean` takes means of means and `nanvar` variances of variances, so the values are wrong when the lanes hold different counts of NaN, and for `nanvar` always (`C78_mean_axes_counterexample`). Along an axis the kernels for float32 and float64 give the initial infinity for a lane of NaN (`C78_max_counterexample`), `nanargmax` gives position 0 for a lane of NaN and refuses an array whose numbers are all minus infinity (`C78_arg_counterexample`), and empty axes give zeros (`C78_empty_counterexample`). Integer arrays are summed through float64, as everywhere in the fallback paths.
- C79: at a positive jump that is an odd multiple of half a period beyond the discontinuity, `unwrap` moves down by half a period where NumPy moves up (`C79_unwrap_counterexample`). `trim_zeros` of a reversed view slices with the absolute value of the stride and so reads outside the array, and it takes imaginary numbers for zeros, although its comment says that both parts are tested (`C79_trim_zeros_counterexample`). `angle` of NaN is 0 (`C79_angle_counterexample`). `real_if_close` takes a number with a NaN imaginary part for real, and multiplies tolerances of at most one by the machine epsilon too (`C79_real_if_close_counterexample`).
- C80: the dtype comes from the first number: `[1, 2.5]` becomes the integers `[1, 2]` and `[True, 7]` becomes truth values. Lists that are not rectangular are accepted: `[[1,2],[3,4,5],[6]]` becomes a 3×2 array, `[[1,2],[3]]` a one-dimensional one. A single number and lists of complex numbers are refused. Tuples become floats. With `dtype=uint8`, 300 becomes 44, but 255 when a float is in the list; `uint64` numbers from `2^63` on are rounded. `tolist` gives negative numbers for large `uint64`, floats for truth values and 0.0 for every complex number; `item` is always a float, and 0.0 for a complex number (`C80_*_counterexample`).
- C81: halves go away from zero (`round(0.5)` is 1, `round(2.5)` is 3). Integers rounded to tens are cut towards zero (17 becomes 10), except `int8`; the power of ten wraps around in the dtype (`uint8` to thousands uses 232) and may become zero, which panics. Fractional bounds of `clip` are cut, so that elements stay outside them; bounds go through `f64`; bounds outside the dtype are replaced. `round` and `clip` of a complex array give zeros (`C81_*_counterexample`).
- C82: big-endian arrays are accepted but their bytes are not exchanged (1 becomes 256). With `dtype=` the bytes of the other array are read as if they had that dtype, also past its end. Arrays of strings are offered as `<U0` / `|S0`. A size that is no number counts as 8, and a typestr shorter than two characters panics (`C82_*_counterexample`).
- C83: `copyto` reads elements it has already overwritten when the arrays share memory (`copyto(a, a[::-1])`), and is undefined behaviour for overlapping contiguous arrays. Unless both arrays are contiguous and of one dtype, values pass through float64: large integers change and complex numbers become zero. `casting` is ignored. `ascontiguousarray` leaves 0-d arrays 0-d; `asfortranarray` always copies; `require` ignores 'O', 'W', 'A', 'E' and accepts 'C' with 'F' (`C83_*_counterexample`).
- C84: `spacing(-1.0)` is 2^-53, where NumPy has -2^-52 (the spacing of 1 negated), and `spacing(-inf)` is inf, where NumPy has NaN. `modf(inf)` is (NaN, inf), where NumPy has (0, inf). `ldexp` multiplies by `2^i` computed first: `ldexp(0, 2000)` is NaN, `ldexp(2^-1074, 1074)` is inf although the answer is 1, `ldexp(2^1000, -1080)` is 0; an `int64` exponent is cut to 32 bits. `heaviside(nan, h)` is 1. All five read the data pointer as if the elements lay one after the other, so strided views give wrong values, and `ldexp` and `heaviside` do not broadcast but read past the end of the shorter array (`C84_*_counterexample`). Trusted: `powi` is exact for exponents up to the bias, and multiplying a subnormal number by 2^52 (2^23) is exact.
- C85: `arccosh` of a number with negative real part returns the negative of the principal value (`C85_arccosh_counterexample`: -2). `0 ** 0` for operands of two complex dtypes is NaN (`C85_pow_counterexample`). Sorting and the reductions of complex arrays go by magnitude, and `max` of any complex array is minus infinity (`C85_order_counterexample`). `abs` of a complex array stays complex (`C85_abs` proves the value), `isreal` and `iscomplex` keep the dtype of the input, and `real` and `imag` return copies where NumPy returns views. Not modelled: rounding, overflow and infinities inside the complex kernels; the operations of the `num_complex` crate (`ln`, `exp`, `sin`, …) enter as Mathlib's functions; the unary formulas in complex128.rs are not reachable because the kernels answer first.
- C86: `emath.arctanh` of an array that contains 1 or -1 is complex (`C86_arctanh_counterexample`); NumPy's is real and infinite there. Negative 8-bit and 16-bit integers give complex128 instead of complex64 (`C86_dtype_counterexample`). `emath.power` of negative numbers with integer exponents is real where NumPy's is complex with zero imaginary part; the values are equal, and the theorem states the code's rule. `logn` and `power` convert complex64 to complex128 with `astype`, which gives zeros (C70). Not modelled: rounding; a zero base in the complex branch of `power` (`powc` of num_complex); the logarithm of zero. In C85, `sqrt` is the function `numpy_sqrt` that the inverse functions use; the ufunc `sqrt` calls `num_complex`, which enters by contract.
- C87: `iinfo` takes `bool` (`C87_iinfo_counterexample`); `finfo` of float16 gives decimal roundings (`eps` 0.000977, so that 1 + eps is not a float16; `C87_finfo16_counterexample`), of float32 a smallest number of 1.4e-45 that is not 2^-149 (`C87_finfo32_counterexample`), and complex dtypes are refused (NumPy describes their parts). `issubdtype` says that unsigned dtypes are not `integer`, that nothing is `inexact`, and that a dtype given by name is not below itself (`C87_issubdtype_counterexample`); `isdtype` counts `bool` as `integral` (`C87_isdtype_counterexample`); `common_type` of complex64 and float64 is complex64, of float16 alone float64, and `bool` is not refused (`C87_common_type_counterexample`). Not modelled: how Python objects become names (`parse_dtype_arg`, `extract_dtype_from_operand`); dates under `signedinteger`.
- C88: weekmasks of names without Monday and Tuesday are refused and texts that merely contain a name are accepted (`C88_weekmask_counterexample`); `is_busday` of an array reads every unit as days (`C88_is_busday_array_counterexample`); `busday_offset` and `busday_count` cut lists to the shorter instead of broadcasting (`C88_lists_counterexample`). Rust's `to_lowercase` enters by contract for the letters of the names.
- C89: `i0` is a polynomial of about seven digits (`C89_i0_counterexample`: wrong by more than `2^-26` at 1); `C89_i0_partial` and `C89_kaiser_partial` bound the error below 3.75 by `1.6e-7` and `3.3e-7`. The accuracy of the branch for larger arguments is not proved. `sinc` and `i0` of a non-contiguous float array read the wrong elements (`C89_arrays_counterexample`).
- C90: `resize` and the method `repeat` pass the elements through `f64` (`C90_resize_wide_counterexample`). `view` refuses every array that is not C-contiguous and every 0-d array, also for a dtype of the same size, which NumPy allows (`C90_view_counterexample`). `resize` with negative lengths is treated under C91.
- C91: release builds do not check for overflow (Cargo.toml sets no profile), so `zeros(2**61)` is an array of `2^61` floats with an empty buffer (`C91_zeros_counterexample`; `C91_release_iff` says exactly when this happens). `a.resize(2**61)` and `a.repeat(2**61)` store elements into an empty buffer (`C91_store_counterexample`). A single float can be reshaped to `(274177, 67280421310721)` (`C91_reshape_counterexample`). `a.resize(-1, 0)` gives a length of `2^64 - 1` (`C91_resize_negative_counterexample`). With overflow checks all of this is safe (`C91_zeros_partial`, `C91_store_checked`, `C91_reshape_partial`).
- C92: `atleast_2d`, `atleast_3d`, `vstack`, `column_stack` and `dstack` leave an array that does not lie in one piece without the new axes: `vstack([a[::2], a[::2]])` is one vector of twice the length, `column_stack` and `dstack` raise (`C92_atleast_counterexample`, `C92_stack_counterexample`). Single values are refused by all four (`C92_stack_scalar_counterexample`). In a release build `reshape(a, (-2, -3))` of six elements returns an array with 2^64 - 2 rows (`C92_reshape_counterexample`).
- C93: `remainder` and `divmod` use the remainder with the sign of the dividend (`C93_remainder_counterexample`: `-7.0 % 3.0` is `-1`, and `divmod` does not satisfy `q*b + r = a`); `floor_divide` takes the floor of the rounded quotient (`C93_floor_divide_counterexample`: `1.0 // 0.1` is 10, NumPy gives 9). Dividing arrays of different dtypes by zero gives NaN instead of an infinity (`C93_divide_counterexample`). `rint` rounds halves away from zero (`C93_rint_counterexample`). `logaddexp` loses a NaN beside an infinity (`C93_logaddexp_counterexample`). `nextafter` moves negative numbers the wrong way and has no neighbour of zero below (`C93_nextafter_counterexample`); on arrays of different dtypes `nextafter(0, -1)` is the smallest positive number (`C93_nextafter_mixed_counterexample`). `%` and `**` of bool arrays are logical operations (`C93_bool_counterexample`). The two zeros are one value in this model.
- C94: characters with a longer upper case stay (`C94_upper_counterexample`: `ß`); the final sigma and characters with a title case of their own differ (`C94_lower_counterexample`); beyond ASCII, digits are not recognised, Roman numbers count as letters and Chinese numbers are not numeric, and the separators U+001C to U+001F are no space (`C94_kinds_counterexample`). The Unicode tables enter as a parameter; the facts about single characters in the counterexamples are those of the Unicode character database as far as the sample database `someUnicode` records them.
- C95: `exp2`, `expm1`, `log1p`, `cbrt`, `rint`, `arcsinh`, `arccosh` and `arctanh` of an integer array keep the integer dtype and drop the fraction (`C95_integer_counterexample`): `log1p(array([1]))` is `[0]`. They are missing from `is_transcendental`. Tests of a bool array return the array itself: `isfinite([False])` is `[False]`, `isnan([True])` is `[True]` (`C95_bool_counterexample`). Negation of a bool array is the logical not where NumPy raises, and `square` keeps bool where NumPy gives int8. `isreal` and `iscomplex` return the dtype of the array, `abs` of a complex array is complex, `sqrt` of dates is computed and `isnan` of dates returns dates (`C95_type_counterexample`). `sign(nan)` is 0 for a Python number and NaN in an array (`C95_scalar_counterexample`). In a build with overflow checks `abs` of the least integer panics (`C95_abs_panics`).
- C96: an array and a Python number: the number is converted to the dtype of the array first, so `int64 [1, 2] + 1.5` is `[2, 3]`, `int64 [5] / 2.5` divides by 2, `uint8 [1] + 300` is 0, `int64 [0] + (2**53 + 1)` is `2**53` and `[True] + 2` is `[True]`; an array of rank 0 becomes an array of shape `[1]`; a complex number is refused by a float array. The function `add(array, 1)` makes the number a float64 array instead, so integer and float32 arrays become float64. Two bools: `/` gives a bool, `-` is accepted; a bool divided by an 8- or 16-bit integer gives float16 or float32. Division by zero of two different float dtypes is NaN. A sum of two integer dtypes that does not fit saturates.
- C97: two arrays of different dtypes are both read with the size of the result dtype (`map_binary_bitwise_trait`), so a smaller operand is read across its neighbours and past the end of its buffer. `C97_outside_buffer` proves this for every new array; `C97_scalar_outside_buffer` proves it for every bool array and every integer array below 64 bits with any Python integer, as in `mask & 1`. A `uint64` array cannot be combined with a Python integer (`C97_scalar_uint64`). A Python integer goes through `f64` and gives an array without dimensions one (`C97_scalar_counterexample`). Empty floats, dates and text are accepted (`C97_error_counterexample`). Shift amounts are taken modulo the width and shifts of bools return the left operand (`C97_shift_counterexample`).
- C98: the name of a loaded array loses every `.npy` at its end, not one: an array saved under `x.npy` is found under `x`, and next to an array saved under `x` one of the two is lost (`C98_name_counterexample`). `savez` does not add `.npz` to the path and `load` goes by the path, so an archive saved under any other path cannot be loaded (`C98_extension_counterexample`). `savez` creates the file before it looks at the names, so a save that fails over a repeated name has destroyed the earlier file (`C98_failed_save_counterexample`).
- C99: `block` takes the depth of a list for the axis. That is NumPy's axis only where arrays have as many axes as there are lists around them. A list of matrices is stacked downwards (`C99_row_counterexample`), vectors in lists of lists become one vector (`C99_vectors_counterexample`), and arrays at different depths are accepted (`C99_depth_counterexample`).
- C100: `pad` of an array with two axes refuses a pair for each axis, `((1, 2), (3, 4))`, since a tuple of two is taken as one pair; it refuses every list; it accepts `(1, 2, 3)` for three axes and passes over what follows a pair. `tensordot` refuses `axes=(1, 0)` and axes in a list. `take` accepts float indices (1.9 picks element 1), complex indices (element 0) and the largest `uint64` (the last element), and refuses negative axes.
- C101: `where` with operands of two dtypes goes through `f64`, so integers above 2^53 change and complex numbers become zero; with a Python number the result is always `float64`, for `int64` and `float32` arrays too. `choose` takes dtype and element size from the first choice: other choices are reinterpreted bit by bit, and a choice with smaller elements is read outside its buffer. `choose` accepts float indices and does not broadcast.
- C102: integer arrays are summed in their own dtype (int8 100 + 100 is −56); the sum of a bool array is 1 as soon as one element is true; the sum, product, maximum and minimum of every complex array without an axis are 0.0; the maximum and minimum ignore NaN and do not refuse an empty array (they give the smallest or largest number of the dtype, or an infinity); the mean along an axis divides by the length converted to the dtype of the array, so it is wrong for int8 axes longer than 127.
- C103: an iteration over an array never ends, since an index past the end is not an `IndexError` (`Props.C103_never_ends_counterexample`); the items from the length on lie outside the buffer (`C103_past_the_end_counterexample`), and in a reversed array already the second one (`C103_reversed_counterexample`). Every array is true (`C103_truth_counterexample`), and every number is `in` every array of one or more dimensions, even an empty one (`C103_contains_counterexample`). `int(a)` goes through a float64 and turns NaN into 0 (`C103_int_counterexample`). `len(a)` is a `TypeError` (read only).
- C104: 64-bit integers meet floats, other 64-bit integers and Python numbers as doubles, so close large values are equal (`Props.C104_order_counterexample`). A 0-d array compared with a number has the shape `(1,)`, and comparison with a large Python integer or with `None` raises (`Props.C104_number_counterexample`). Dates and durations are converted to the unit of the left operand, so `day == hour` depends on the order of the operands, and NaT equals NaT (`Props.C104_dates_counterexample`). Complex arrays of different precision and strings are compared as zeros (`Props.C104_complex_counterexample`).
- C105: `float_power` refuses two arrays of bools (NumPy gives float64), loses a complex64 operand when the other one is complex128 (the conversion of complex64 to complex128 reads a real number from it, finds none and stores zero), refuses complex Python numbers, and gives shape `(1,)` for two numbers.
- C106: `exponential(scale)` multiplies by `scale` in the scalar form and by `1/(1/scale)` in the array form, so with `scale = 49` the two differ in the last bit; with a negative scale the scalar form gives negative numbers where the array form panics (`C106_exponential_counterexample`, `C106_negative_counterexample`). `normal` with an infinite scale panics only in the array form (`C106_infinite_counterexample`). `permutation` of a matrix gives all its elements in one dimension, as doubles, instead of permuting the rows and keeping the dtype (`C106_permutation_counterexample`).
- C107: `nonzero` reads every element as f64, and complex elements read as 0, so `nonzero` of every complex array is empty while `count_nonzero` counts the elements (`C107_complex_counterexample`). NaT is false for `count_nonzero`, `argwhere`, `flatnonzero`, `all` and `any`, but true for `nonzero` and for `all` and `any` along an axis (`C107_nat_counterexample`).
- C108: `argmax` and `argmin` of an array without elements are 0 (NumPy: ValueError). Complex numbers and strings are all read as 0, so the answer is always 0 (`C108_unordered`, `C108_complex_counterexample`). Dates and durations are compared through f64, so two nanosecond times that differ by one nanosecond count as equal, and NaT counts as the smallest time (`C108_dates_counterexample`). `argmax([nan, 1])` is 0 for float64 and 1 for float16 (`C108_nan_counterexample`).
- C109: with an axis out of range `sort`, `argsort`, `partition`, `argpartition`, `diff` and the methods `sort` and `argsort` panic, `packbits` and `unpackbits` work on the flattened array and `roll` returns the array unchanged (NumPy: AxisError in all); `unwrap` and `trapezoid` of an array without axes accept every axis.
- C109: percentile, quantile, nanpercentile, nanquantile, compress, concatenate, stack, split, array_split and the methods cumsum, cumprod, ptp and repeat refuse every negative axis (NumPy: counted from the end).
- C109: `a.argsort()` of a matrix works on the flattened array while `argsort(a)` works along the last axis (NumPy: both along the last axis); `cumulative_sum` and `cumulative_prod` need an axis also for a vector.
- C110: integers beyond 2^53 are stored rounded and complex values as 0 (`C110_values_counterexample`). Arrays of float indices are cut off and strings mean position 0 (`C110_index_counterexample`; NumPy: TypeError). The method refuses a number or a tuple, the function the array itself, because it is already borrowed (`C110_refused_counterexample`; NumPy accepts them). Nothing is stored into an array of strings and no error is reported (`C110_text_counterexample`).
- C111: the function `searchsorted` answers an array of shape (1,) for a number, NumPy an integer; the method answers an integer for a one-element array, NumPy an array. Any side other than "right" means "left", NumPy raises ValueError. Integers beyond 2^53 are rounded when they meet a Python number (also with one-element int64 arrays given to the method): `np.array([2**53]).searchsorted(2**53+1)` is 1 in NumPy and 0 here. NaN compares equal to everything, so it is found at the front; complex numbers are ordered by magnitude, not lexicographically.
- C112: the method `compress` reads its condition as f64, so a complex condition keeps nothing, and takes no tuples; neither takes a list of integers. A true entry beyond the length is ignored (NumPy: IndexError). A condition with several axes is read in row-major order (NumPy: ValueError).
- C113: `dot` of two vectors stores the sum in the dtype of the first: `dot(int64 [1], float64 [0.5])` is 0 (NumPy 0.5). Integer sums saturate (NumPy wraps) and are rounded beyond 2^53. The inner product of complex vectors is always 0. A 0-d operand is converted to the dtype of the array, so 0.5 times an int64 array is 0.
- C114: `result_type(a, 1.0)` of a float32 array is float64, but `a + 1.0` is float32; `result_type(a, 1)` of a uint8 array is int64, but `a + 1` is uint8 (NumPy gives the dtype of the array in both). An integer of 2^63 or more counts as float64, also beside a uint64 array that could hold it.
- C115: the function `reshape` takes lengths below -1 for huge lengths (`reshape(a, (-2, -3))` of 6 elements gives a view of 2^64-2 by 2^64-3); the method refuses them.
- C116: an array of exactly one element passes through a double: `insert(a, 0, array([2**53 + 1]))` puts in 2^53 and a complex element becomes 0, although two such elements are put in as they are.
- C117: `shares_memory(a[:2], a[2:])` is true although the views have no element in common (NumPy: false; only `may_share_memory` may say so), and so it is for an empty array and itself; `a.base` is not `None` for an array that owns its memory once a view of it exists, and is `None` for a view at the start of an array whose variable was deleted.
- C118: the numbers 1 and -1 are printed with the singular (`1 day`), where NumPy prints `1 days`.
- C119: the path is the same for every `optimize`, so "optimal" is not the cheapest order (`C119_optimal_counterexample`); for one operand it is empty, where NumPy gives `(0,)`.
- C120: a complex array is read as 0.0, where NumPy refuses it; an array of rank 0 becomes a vector (`C120_counterexample`); float16 and short integers give float64, where NumPy gives float16 or float32.
- C121: `histogramdd` takes a list of one number for every dimension and limits for too many dimensions, which NumPy refuses, and panics on limits for too few (`C121_counterexample`).
- C122: `sign(nan)` is 0 for a number and NaN for an array; a Python integer passes through a double, so `abs(2**53 + 1)` is 2^53; `isnan` of an array of bools passes them through (`C122_counterexample`).
- C123: `shape`, `ndim` and `size` of a plain number are refused, where NumPy gives `()`, 0 and 1; a ragged list is flattened, where NumPy refuses it (`C123_counterexample`).
- C124: the differences of a complex array that is not a contiguous vector are all zero; those of int8 saturate instead of wrapping; a step down in an unsigned matrix gives 0 where a vector wraps (`C124_counterexample`).
