{"id": "C01", "title": "Every element is visited once, in row-major order", "statement": "Whenever rumpy walks over an array (element-wise functions, copies, reductions, printing), it visits each multi-index of the array exactly once, in row-major order, whatever the memory layout of the array.", "quantifier": "all shapes (any number of axes, any lengths, including length 0) and all stride vectors, including negative and zero strides", "why_tests_cant": "The walk is an incremental odometer with back-strides; tests fix a handful of shapes and strides, while an off-by-one may show only for a particular combination of axis lengths.", "anchors": ["src/array/iter.rs: StridedIter::new, StridedIter::advance, StridedIter::next, AxisOffsetIter::new", "src/array/mod.rs: increment_indices, byte_offset_for"]}
{"id": "C02", "title": "A fresh array gives every index its own storage", "statement": "For an array made by zeros/ones/full/empty/arange or by any function that allocates its result, two different multi-indices never share a byte, every element lies wholly inside the allocation, and together the elements use the whole allocation.", "quantifier": "all shapes and all item sizes", "why_tests_cant": "An overlap or an overrun for one shape is memory corruption; only a proof over all shapes rules it out.", "anchors": ["src/array/mod.rs: compute_c_strides, compute_f_strides", "src/array/constructors.rs: zeros", "src/array/buffer.rs: ArrayBuffer"]}
{"id": "C03", "title": "The contiguity flags tell the truth", "statement": "If an array reports that it is C-contiguous (F-contiguous), then its i-th element in row-major (column-major) order is stored i items after its first element, so block copies and flat loops over the raw memory read exactly the array's elements in that order.", "quantifier": "all shapes, all strides, all item sizes, including size-1 and length-0 axes", "why_tests_cant": "Every fast path trusts this flag; a wrong answer for one odd shape reads foreign memory or scrambles data.", "anchors": ["src/array/mod.rs: is_c_contiguous, is_f_contiguous", "src/array/views.rs: view_with"]}
{"id": "C04", "title": "Slicing selects exactly the elements Python slicing names", "statement": "a[start:stop:step] along any axis has the length Python's slice rules give and its k-th entry is the entry start+k*step of the sliced array, for any array, including one that is itself a view.", "quantifier": "all arrays and views, all axes, all start/stop/step with step nonzero", "why_tests_cant": "The start offset is computed with the absolute value of the stride, so the answer depends on the history of the view; tests slice mostly fresh arrays.", "anchors": ["src/array/views.rs: slice_axis", "src/python/pyarray/dunder_item.rs: __getitem__", "src/python/pyarray/mod.rs: extract_slice_indices, normalize_slice"]}
{"id": "C05", "title": "Views never reach outside their memory", "statement": "Any sequence of view operations (slicing, indexing, transposing, flipping, broadcasting, reshaping, squeezing, adding axes) applied to a freshly created array yields an array all of whose elements lie inside the original allocation; an index that is out of range raises IndexError.", "quantifier": "all finite sequences of view operations with arbitrary arguments on arrays of any shape", "why_tests_cant": "Safety must hold for every history of views, an infinite set; a single bad offset is undefined behaviour.", "anchors": ["src/array/views.rs: view_with, slice_axis, transpose_axes, broadcast_to, reshape, squeeze, expand_dims", "src/python/pyarray/mod.rs: normalize_index"]}
{"id": "C06", "title": "Transposition and axis moves permute axes", "statement": "transpose, transpose with an axis list, swapaxes, moveaxis and rollaxis return an array whose element at the permuted index is the element of the original at the original index; transpose applied twice gives back the original; moveaxis puts the source axes at the requested destinations and keeps the order of the others.", "quantifier": "all arrays, all axis permutations, all source/destination lists", "why_tests_cant": "The number of permutations and source/destination lists is unbounded; tests use a few three-axis examples.", "anchors": ["src/array/views.rs: transpose, transpose_axes", "src/ops/mod.rs: swapaxes", "src/python/shape.rs: moveaxis, rollaxis, matrix_transpose"]}
{"id": "C07", "title": "flip reverses an axis and is its own inverse", "statement": "flip(a, axis)[.., i, ..] = a[.., n-1-i, ..] for every array or view, so flipping twice gives back the same elements.", "quantifier": "all arrays and views, all axes", "why_tests_cant": "flip is built on the slicing offset rule, whose correctness depends on the sign of the current stride.", "anchors": ["src/array/views.rs: flip", "src/python/shape.rs: flip, fliplr, flipud"]}
{"id": "C08", "title": "reshape and ravel keep the row-major order of elements", "statement": "reshape(a, shape), ravel(a) and a.flatten() list the same elements in the same row-major order as a; reshape fails exactly when the number of elements differs; a single -1 is replaced by the only size that fits, and requests with no solution or two -1 are rejected.", "quantifier": "all arrays and views of any layout, all requested shapes", "why_tests_cant": "Whether the result is right depends on the layout of the view, and layouts are unbounded; tests reshape mostly fresh C-ordered arrays.", "anchors": ["src/array/views.rs: reshape", "src/python/pyarray/mod.rs: resolve_reshape_shape, reshape, ravel, flatten", "src/python/shape.rs: reshape"]}
{"id": "C09", "title": "Broadcast shapes follow the broadcasting rule", "statement": "broadcast_shapes(s, t) is the right-aligned axis-wise combination (equal, or one of them 1), fails exactly when some aligned pair is incompatible, does not depend on the order or grouping of the operands, and leaves a shape unchanged against itself; broadcast_to(a, shape) succeeds exactly when a can be stretched to it and repeats elements along stretched axes.", "quantifier": "all pairs and triples of shapes, all arrays", "why_tests_cant": "The rule ranges over all shapes of all ranks, including length-0 axes; a bug for one pair of ranks is easy to miss.", "anchors": ["src/array/manipulation.rs: broadcast_shapes", "src/array/views.rs: broadcast_to", "src/python/shape.rs: broadcast_to, broadcast_shapes, broadcast_arrays"]}
{"id": "C10", "title": "squeeze and expand_dims only add or drop length-1 axes", "statement": "expand_dims inserts one length-1 axis at the requested place and squeeze removes length-1 axes; neither changes any element, and squeezing the axis just inserted gives back the original.", "quantifier": "all arrays and axis positions", "why_tests_cant": "Must hold for every rank and position; the stride chosen for the new axis matters to later fast paths.", "anchors": ["src/array/views.rs: squeeze, squeeze_axis, expand_dims"]}
{"id": "C11", "title": "Joining and splitting are inverse", "statement": "concatenate lays its inputs one after another along the axis; split/array_split cut an axis into consecutive pieces that cover it, array_split's pieces differ in length by at most one with the longer ones first; concatenating the pieces gives back the original array, and splitting a concatenation at the seams gives back the inputs; stack makes a new axis whose i-th entry is the i-th input.", "quantifier": "all lists of arrays with compatible shapes, all axes, all numbers of sections", "why_tests_cant": "Lengths, numbers of pieces and ranks are unbounded, and remainders matter.", "anchors": ["src/array/manipulation.rs: concatenate, stack, split, array_split, split_into_sizes", "src/python/shape.rs: vstack, hstack, dstack, column_stack"]}
{"id": "C12", "title": "Joining arrays of different dtypes keeps their values", "statement": "concatenate and stack of arrays with different dtypes return the promoted dtype and every element keeps its value.", "quantifier": "all pairs of dtypes and all element values", "why_tests_cant": "The dtype combinations and values are too many to enumerate; a wrong reinterpretation of bytes gives plausible numbers.", "anchors": ["src/array/manipulation.rs: concatenate, stack, append"]}
{"id": "C13", "title": "Index normalisation follows Python", "statement": "An integer index i on an axis of length n selects element i for 0<=i<n and element n+i for -n<=i<0 and is an error otherwise; a slice in a tuple index selects the elements Python's slice.indices names; an Ellipsis stands for exactly the axes not mentioned.", "quantifier": "all integer indices, all slices with optional bounds and nonzero step, all tuples, all axis lengths", "why_tests_cant": "Clamping cases interact (sign of step, out-of-range bounds, empty axes); the space is infinite.", "anchors": ["src/python/pyarray/mod.rs: normalize_index, normalize_slice, expand_ellipsis", "src/ops/indexing.rs: normalize_index", "src/python/pyarray/dunder_item.rs: __getitem__"]}
{"id": "C14", "title": "Boolean and integer selection pick the right elements in order", "statement": "a[mask] returns exactly the elements where the mask is true, in row-major order; a[idx] and take return the entries named by the indices, in order, with negative indices counted from the end and an error if any index is out of range; compress, nonzero, argwhere and flatnonzero agree with this.", "quantifier": "all arrays, masks of the same shape, index lists, axes and layouts", "why_tests_cant": "There are separate code paths per layout and per axis; they must agree for all inputs.", "anchors": ["src/array/mod.rs: select_by_mask, select_by_indices", "src/ops/indexing.rs: take, take_1d_contiguous, take_axis0_contiguous, take_general, compress_flat, compress_axis, argwhere, flatnonzero", "src/ops/mod.rs: nonzero"]}
{"id": "C15", "title": "Element-wise operations do not depend on layout", "statement": "For a binary element-wise operation with broadcasting, result[i] = f(a[i], b[i]) for every index i of the broadcast shape, whether the operands are contiguous, strided, transposed, reversed or broadcast.", "quantifier": "all shapes, all strides of both operands, all element functions", "why_tests_cant": "The dispatcher picks one of several loops from the layout; all must compute the same function for every layout.", "anchors": ["src/ops/dispatch.rs: dispatch_binary_typed, dispatch_unary_typed, dispatch_compare_typed", "src/ops/loops/contiguous.rs: map_binary, map_unary", "src/ops/loops/strided.rs: map_binary_strided", "src/ops/ufunc.rs: map_binary_op_inplace"]}
{"id": "C16", "title": "A full reduction combines every element exactly once", "statement": "sum, prod, max and min of an integer array equal the plain left-to-right combination of all its elements, for every size, although the loop uses eight interleaved accumulators.", "quantifier": "all lengths and all element values, all contiguous and strided one-dimensional layouts", "why_tests_cant": "The eight-way unrolling has different behaviour below 8 elements, at multiples of 8 and in the remainder; it must be right for every length.", "anchors": ["src/ops/loops/contiguous.rs: reduce", "src/ops/loops/strided.rs: reduce_strided", "src/ops/dispatch.rs: dispatch_reduce_typed"]}
{"id": "C17", "title": "The 2-norm sums the squares of all elements", "statement": "linalg.norm / vector_norm / Frobenius norm of an array is the square root of the sum of the squares of all its elements, for every size and layout.", "quantifier": "all arrays", "why_tests_cant": "The squaring accumulator takes a different path from 8 elements on, and another for non-contiguous input.", "anchors": ["src/ops/dispatch.rs: dispatch_reduce_sum_of_squares", "src/ops/kernels/arithmetic.rs: SumOfSquares", "src/ops/linalg.rs: norm, vector_norm, matrix_norm"]}
{"id": "C18", "title": "Axis reductions agree with reducing each lane", "statement": "Reducing along an axis gives, at each remaining index, the reduction of the lane along that axis; the shape is the input's without that axis; an empty lane gives the operation's identity; all layouts agree.", "quantifier": "all shapes, axes, layouts and commutative-associative operations", "why_tests_cant": "Three code paths (contiguous axis, C-contiguous array, general strides) must agree on all shapes.", "anchors": ["src/ops/dispatch.rs: dispatch_reduce_axis_typed", "src/ops/ufunc.rs: reduce_axis_op", "src/array/iter.rs: AxisOffsetIter"]}
{"id": "C19", "title": "argmax and argmin return the first extreme position", "statement": "argmax (argmin) returns the smallest flat position holding the maximum (minimum); along an axis it does so for every lane, for every memory layout.", "quantifier": "all non-empty arrays over a total order, all axes, all layouts", "why_tests_cant": "Ties and layouts are unbounded; one of the layout-specific loops is reached only by particular views.", "anchors": ["src/ops/array_methods/reductions.rs: argmax, argmin, argmax_contiguous, argmax_strided, impl_arg_axis"]}
{"id": "C20", "title": "cumsum/cumprod are running reductions and diff undoes cumsum", "statement": "The k-th entry of a cumulative operation is the reduction of the first k+1 entries; diff of order n is the n-fold difference and has n fewer entries (or none); diff of the cumulative sum gives back all entries but the first, and cumulative_sum with include_initial followed by diff gives back the input.", "quantifier": "all lengths, orders and integer values (with wrap-around)", "why_tests_cant": "Must hold for all lengths and all orders n, including n greater than the length.", "anchors": ["src/ops/array_methods/cumulative.rs: cumsum, cumprod, cumulative_sum, diff", "src/ops/loops/contiguous.rs: cumulative", "src/ops/dispatch.rs: dispatch_cumulative_flat, dispatch_cumulative_axis"]}
{"id": "C21", "title": "sort, argsort and lexsort return sorted stable permutations", "statement": "sort returns the same multiset of elements in non-decreasing order along the axis; argsort returns a permutation that sorts the lane and keeps equal elements in their original order; lexsort orders by the last key first and is stable.", "quantifier": "all arrays of comparable elements, all axes, all lists of keys", "why_tests_cant": "Sortedness and stability are universally quantified over all inputs.", "anchors": ["src/ops/array_methods/sorting.rs: sort, argsort, lexsort"]}
{"id": "C22", "title": "partition puts the k-th smallest in place", "statement": "partition(a, k) rearranges the elements so that position k holds the element sorting would put there, with no larger element before it and no smaller element after it; argpartition does the same for indices.", "quantifier": "all lists of comparable elements and all k in range", "why_tests_cant": "Quickselect's termination and its partition invariant depend on the data; worst cases are never sampled.", "anchors": ["src/python/pyarray/mod.rs: partition_select, partition_select_indexed, partition, argpartition"]}
{"id": "C23", "title": "unique keeps one of each value and can rebuild the input", "statement": "unique returns the distinct values in increasing order; with indices, inverse and counts: values[inverse] rebuilds the input, index[j] is the first position of value j, counts[j] is the number of occurrences and the counts add up to the size.", "quantifier": "all arrays of comparable elements", "why_tests_cant": "All four outputs must be consistent for every input, including repeated and adjacent values.", "anchors": ["src/ops/array_methods/sorting.rs: unique, unique_all", "src/python/shape.rs: unique, unique_all, unique_counts, unique_inverse"]}
{"id": "C24", "title": "Set functions compute set operations", "statement": "union1d, intersect1d, setdiff1d and setxor1d return, sorted and without repetition, exactly the values in the union, intersection, difference and symmetric difference of the inputs; isin tells exactly which elements occur in the test values.", "quantifier": "all pairs of arrays of comparable elements", "why_tests_cant": "The merges walk two sorted lists with several exhaustion cases; correctness for all inputs needs induction.", "anchors": ["src/ops/set_ops.rs: union1d, intersect1d, setdiff1d, setxor1d, isin, in1d, collect_sorted_unique"]}
{"id": "C25", "title": "searchsorted and digitize find the insertion point", "statement": "For a sorted array, searchsorted(a, v) returns the unique position that keeps a sorted with v inserted before (side=left) or after (side=right) equal elements; digitize(x, bins) returns i with bins[i-1] <= x < bins[i] (right=False) or bins[i-1] < x <= bins[i] (right=True), and the mirrored inequalities for decreasing bins.", "quantifier": "all sorted arrays, all values, both sides, increasing and decreasing bins", "why_tests_cant": "Binary search boundaries are the classic place for off-by-one errors that only certain lengths show.", "anchors": ["src/ops/indexing.rs: searchsorted, digitize"]}
{"id": "C26", "title": "Flat and multi-dimensional indices convert back and forth", "statement": "ravel_multi_index(unravel_index(i, shape), shape) = i for 0<=i<size and unravel_index(ravel_multi_index(idx, shape), shape) = idx for idx inside the shape, in both C and F order; an out-of-range input is an error; clip and wrap modes map to the nearest and to the congruent index.", "quantifier": "all shapes, all indices, both orders, all modes", "why_tests_cant": "Unbounded ranks and sizes; division/remainder chains are easy to get wrong for one rank.", "anchors": ["src/ops/indexing.rs: unravel_index, ravel_multi_index"]}
{"id": "C27", "title": "packbits and unpackbits are inverse", "statement": "unpackbits(packbits(b), count=len(b)) = b for every 0/1 array, with big and little bit order, and packbits(unpackbits(x)) = x for every byte array; the packed length is the length divided by 8 rounded up, with zero padding.", "quantifier": "all bit arrays of all lengths and all byte arrays, both bit orders", "why_tests_cant": "The tail of a length not divisible by 8 and both bit orders must be right for every length and content.", "anchors": ["src/ops/indexing.rs: packbits, unpackbits, pack_byte, unpack_byte"]}
{"id": "C28", "title": "dtype promotion is a consistent join", "statement": "The dtype of a mixed operation does not depend on the operand order, is the dtype itself for equal operands, and can hold every value of both operand dtypes (for integers and floats, as far as NumPy's own table goes).", "quantifier": "all pairs and triples of dtypes", "why_tests_cant": "The table has 18 kinds plus parameters (units, lengths), and laws relate pairs and triples; tests check a few entries.", "anchors": ["src/array/dtype/mod.rs: promote_dtype"]}
{"id": "C29", "title": "Calendar dates convert exactly", "statement": "Converting a day number to year-month-day and back is the identity for every day and matches the proleptic Gregorian calendar: each next day number is the next calendar date.", "quantifier": "all day numbers (all integers)", "why_tests_cant": "There are infinitely many days, with rules at 4, 100 and 400 years and before the epoch.", "anchors": ["src/array/dtype/datetime64.rs: days_to_ymd, ymd_to_days"]}
{"id": "C30", "title": "Datetime unit conversion is exact and floors", "statement": "Converting datetime64 to a finer unit and back gives the same value; converting to a coarser unit rounds towards the past (as NumPy does), also before 1970; NaT stays NaT.", "quantifier": "all datetime values and all pairs of units", "why_tests_cant": "Values before the epoch and large values behave differently from the common cases tests use.", "anchors": ["src/array/dtype/datetime64.rs: convert_datetime64, unit_to_days, days_to_unit, to_ns_factor"]}
{"id": "C31", "title": "Printing and parsing dates is a round trip", "statement": "str of a datetime64 value parsed back as datetime64 of the same unit gives the same value.", "quantifier": "all datetime values of all units", "why_tests_cant": "Formatting splits values with division and remainder, which behave differently for negative values.", "anchors": ["src/array/dtype/datetime64.rs: format_datetime64, parse_datetime64, parse_time_part"]}
{"id": "C32", "title": "Arithmetic with NaT gives NaT", "statement": "Any datetime/timedelta addition or subtraction with a NaT operand gives NaT, and operands with different units are brought to a common unit first.", "quantifier": "all datetime/timedelta values and units, through every operator path", "why_tests_cant": "There is a fast path and a slow path; only a statement about all paths shows that the sentinel is respected.", "anchors": ["src/ops/dispatch.rs: dispatch_datetime_add_timedelta, dispatch_datetime_sub_datetime, dispatch_datetime_sub_timedelta", "src/ops/ufunc.rs: map_binary_op_inplace", "src/array/dtype/datetime64.rs: binary_op"]}
{"id": "C33", "title": "Integer arithmetic wraps modulo 2^w and division follows Python", "statement": "+, -, * on w-bit integers are exact modulo 2^w; a//b is the floor of the quotient and a%b has the sign of b, with (a//b)*b + a%b = a for b != 0; division by zero gives 0.", "quantifier": "all widths and all pairs of values", "why_tests_cant": "2^128 pairs of 64-bit operands; sign combinations and the minimum value are the interesting ones.", "anchors": ["src/ops/kernels/arithmetic.rs: impl_int_arithmetic (Add, Sub, Mul, Div, Mod, FloorDiv)", "src/array/dtype/macros.rs: impl_signed_int_dtype binary_op"]}
{"id": "C34", "title": "Bitwise operations act on every bit and shifts move bits", "statement": "&, |, ^ and ~ act on each bit position; x << k multiplies by 2^k modulo 2^w and x >> k is the floor of x / 2^k, for every shift amount k.", "quantifier": "all widths, values and shift amounts", "why_tests_cant": "Shift amounts at or above the width need a rule; tests rarely use them.", "anchors": ["src/ops/kernels/bitwise.rs: And, Or, Xor, Not, LeftShift, RightShift", "src/ops/bitwise.rs"]}
{"id": "C35", "title": "The random stream is deterministic and never gets stuck", "statement": "Two generators with the same state give the same numbers forever; the state update is a bijection, so no state is reached twice before the cycle closes, and with an odd increment the cycle has the full length 2^128.", "quantifier": "all states, all increments, all numbers of draws", "why_tests_cant": "The period is 2^128; no test can run through it.", "anchors": ["src/random/pcg64.rs: Pcg64Dxsm::step, next_u64, from_state"]}
{"id": "C36", "title": "Uniform floats lie in [0, 1)", "statement": "random() returns k/2^53 for an integer k with 0 <= k < 2^53, and each k has the same number of 64-bit outputs.", "quantifier": "all 64-bit generator outputs", "why_tests_cant": "2^64 outputs; the end points are what matters.", "anchors": ["src/random/pcg64.rs: next_f64", "src/random/generator.rs: random, uniform"]}
{"id": "C37", "title": "Bounded integers are in range and unbiased", "statement": "integers(low, high) returns values v with low <= v < high, and every value in the range is hit by exactly the same number of accepted 64-bit draws.", "quantifier": "all ranges and all generator outputs", "why_tests_cant": "Bias of rejection sampling is invisible to tests and must be counted over all 2^64 draws for every range.", "anchors": ["src/random/pcg64.rs: bounded_uint64", "src/random/generator.rs: integers"]}
{"id": "C38", "title": "shuffle and permutation return permutations, each reachable", "statement": "shuffle and permutation rearrange the elements without losing or repeating any, and every arrangement comes from exactly one sequence of swap choices.", "quantifier": "all lengths and all random streams", "why_tests_cant": "All lengths and all random outcomes; losing one element in a rare outcome would pass most tests.", "anchors": ["src/random/generator.rs: permutation, shuffle, shuffle_data"]}
{"id": "C39", "title": "String elements are stored and read back", "statement": "Storing a string in a fixed-width string array and reading it back gives the string cut to the array's width (without trailing NULs); from_vec_str chooses a width that cuts nothing; comparison of stored strings is comparison of their contents.", "quantifier": "all strings and widths", "why_tests_cant": "All code-point sequences and lengths, including embedded NULs and full-width strings.", "anchors": ["src/array/dtype/string.rs: StrOps, BytesOps read_string/write_string", "src/array/constructors.rs: from_vec_str, from_vec_bytes"]}
{"id": "C40", "title": "Generalised ufunc dimensions resolve consistently", "statement": "Calling a gufunc with signature such as (m,n),(n,p)->(m,p) succeeds exactly when each named core dimension has one size throughout and the loop dimensions broadcast, and the result has shape loop + core output dimensions; malformed signatures are rejected.", "quantifier": "all signatures and operand shapes", "why_tests_cant": "Signatures and ranks are unbounded; dimension names shared between operands need consistency in all combinations.", "anchors": ["src/ops/gufunc/dims.rs: GufuncDims::resolve, output_shape, broadcast_multi_shapes", "src/ops/gufunc/signature.rs: GufuncSignature::parse, parse_core_dims_list, CoreDims::parse"]}
{"id": "C41", "title": "einsum computes the Einstein sum", "statement": "einsum(subscripts, ...) equals, at each output index, the sum over all values of the summed letters of the product of the operands' entries; implicit output lists the letters used once in alphabetical order; inconsistent dimensions are rejected.", "quantifier": "all subscript strings and operand shapes, over any commutative semiring", "why_tests_cant": "Subscripts, ranks and repeated letters are unbounded, and several shortcuts must agree with the definition.", "anchors": ["src/ops/einsum.rs: parse_subscript, compute_implicit_output, validate_subscript, einsum_single, einsum_binary_elementwise, einsum_multi, try_single_operand_optimized"]}
{"id": "C42", "title": "matmul, inner, outer, dot and kron follow their definitions", "statement": "(a@b)[i,j] = sum_k a[i,k]*b[k,j] with batch dimensions broadcast; inner, outer, kron, tensordot and matrix_power follow the usual definitions; matrix_power(a, n) is the n-fold product for every n >= 0.", "quantifier": "all shapes and strides, over any commutative ring for the integer path", "why_tests_cant": "All sizes, all strides and all exponents.", "anchors": ["src/ops/matmul.rs: matmul_generic, matmul, expand_for_matmul", "src/ops/inner.rs", "src/ops/outer.rs", "src/ops/linalg.rs: kron, matrix_power, tensordot"]}
{"id": "C43", "title": "roll, rot90, tile, repeat and pad place elements correctly", "statement": "roll shifts cyclically (roll by s then by -s is the identity), rot90 four times is the identity, tile and repeat copy elements to the positions their definitions name, pad keeps the input in the middle and fills the border according to the mode.", "quantifier": "all arrays, shifts (also negative and larger than the length), counts and pad widths", "why_tests_cant": "Cyclic and modular index arithmetic for all lengths and shifts, including 0.", "anchors": ["src/array/manipulation.rs: roll, rot90, repeat, tile, pad, copy_region"]}
{"id": "C44", "title": "append, insert and delete edit the right positions", "statement": "insert puts the values before the given position and delete removes the given positions, leaving the other elements in order; delete after insert at the same position gives back the original; out-of-range positions are errors.", "quantifier": "all arrays, positions (also negative), values and axes", "why_tests_cant": "Positions at the ends, negative and out of range, for all lengths.", "anchors": ["src/array/manipulation.rs: append, insert, delete"]}
{"id": "C45", "title": "Views share memory, copies do not", "statement": "Writing through a view changes exactly the corresponding element of the base array and every other view of it; writing to a copy or to the result of an operation never changes an operand, also when the library reuses a temporary's memory.", "quantifier": "all arrays, views, write positions and histories of operations and reference counts", "why_tests_cant": "Aliasing depends on the history of views and on reference counts at run time.", "anchors": ["src/array/mod.rs: set_element, can_reuse_for_output, copy, astype", "src/python/pyarray/mod.rs: try_elision_candidate, binary_op_dispatch_with_elision", "src/ops/ufunc.rs: map_binary_op_inplace", "src/python/pyarray/dunder_item.rs: __setitem__"]}
{"id": "C46", "title": "save then load gives the same array", "statement": "np.load(np.save(a)) has the same dtype, shape and elements as a, for every array or view; a file whose header or length is wrong is rejected.", "quantifier": "all dtypes, shapes, layouts and contents", "why_tests_cant": "The header is text with padding and the data order depends on the layout flags; all shapes and layouts must round-trip.", "anchors": ["src/ops/io.rs: write_npy, read_npy, parse_npy_header, extract_shape, extract_string_value, extract_bool_value"]}
{"id": "C47", "title": "Convolution and polynomial functions follow algebra", "statement": "convolve (full) is polynomial multiplication, hence commutative and associative in content, valid and same are its documented windows; polyval is evaluation, polyder is the derivative and polyint its right inverse.", "quantifier": "all coefficient lists over a commutative ring or field", "why_tests_cant": "Algebraic identities range over all lengths and values.", "anchors": ["src/array/manipulation.rs: convolve", "src/ops/numerical.rs: convolve_direct", "src/ops/poly.rs: polyval, polyder, polyint"]}
{"id": "C48", "title": "Percentiles and medians lie between order statistics", "statement": "percentile(a, q) with linear interpolation lies between the two neighbouring order statistics, is monotone in q, equals the minimum at 0 and the maximum at 100, and the median is the 50th percentile.", "quantifier": "all non-empty lists of rationals and all q in [0,100]", "why_tests_cant": "Monotonicity and bounds are statements about all q and all data.", "anchors": ["src/array/manipulation.rs: percentile, percentile_flat, percentile_axis", "src/ops/statistics.rs: median"]}
{"id": "C49", "title": "Histograms and bincount count every element once", "statement": "bincount(x)[v] is the number (or weight) of entries equal to v and the counts add up to the number of entries; histogram counts every element inside the range in exactly one bin, the last bin closed on the right.", "quantifier": "all integer lists, weights, minlength; all rational data and bins", "why_tests_cant": "Every element must land in exactly one bin for all data, including values on the edges.", "anchors": ["src/array/manipulation.rs: bincount", "src/ops/statistics.rs: histogram"]}
{"id": "C50", "title": "Triangles and diagonals select the right entries", "statement": "tri, tril, triu, eye, diag, diagonal, tril_indices and triu_indices select exactly the entries with the documented relation between row, column and k; tril(a,k) + triu(a,k+1) = a; diag of diag gives back the vector.", "quantifier": "all matrix sizes and all integers k", "why_tests_cant": "All sizes and offsets k, positive, negative and beyond the matrix.", "anchors": ["src/array/manipulation.rs: tri, extract_triangle, tril, triu, diagflat", "src/array/constructors.rs: eye", "src/ops/indexing.rs: tril_indices, triu_indices, diag_indices", "src/ops/mod.rs: diagonal"]}
{"id": "C51", "title": "gcd and lcm are the greatest divisor and least multiple", "statement": "gcd(a, b) is the non-negative greatest common divisor and lcm(a, b) the non-negative least common multiple, elementwise with broadcasting, for all integer operands whose result is representable.", "quantifier": "all integer pairs", "why_tests_cant": "Euclid's loop must terminate with the right value for all pairs, including zero and negative operands.", "anchors": ["src/ops/special.rs: gcd_scalar_signed, gcd_scalar_unsigned, lcm_scalar_signed, lcm_scalar_unsigned"]}
{"id": "C52", "title": "clip, where, choose and put are pointwise", "statement": "clip limits each element to the bounds; where picks from x or y by the condition with broadcasting; choose picks from the list by index; put writes the (recycled) values at the given flat positions and leaves the rest alone, and changes nothing if any index is invalid.", "quantifier": "all arrays, conditions, bounds, index lists and values", "why_tests_cant": "Pointwise statements over all inputs and layouts; partial writes on error would break atomicity.", "anchors": ["src/ops/mod.rs: clip, where_select", "src/ops/indexing.rs: choose, put, put_along_axis, take_along_axis"]}
{"id": "C53", "title": "linspace, arange, meshgrid and indices enumerate the right grid", "statement": "arange(start, stop, step) has ceil((stop-start)/step) entries start+i*step, all before stop; linspace has n evenly spaced entries with the right end points; meshgrid and indices return the coordinates of each grid point.", "quantifier": "all rational start/stop/step, all counts, all shapes", "why_tests_cant": "End points and counts must be right for all parameters.", "anchors": ["src/array/constructors.rs: arange, linspace", "src/array/manipulation.rs: meshgrid, indices"]}
{"id": "C54", "title": "String functions agree with Python's str methods", "statement": "char.find, rfind, count, replace, strip, startswith, endswith, partition, center/ljust/rjust/zfill and join give, for each element, what the Python string method gives, and results are wide enough not to be cut.", "quantifier": "all strings, patterns, widths and counts", "why_tests_cant": "String search has overlap and empty-pattern edge cases for all pairs of strings.", "anchors": ["src/ops/char.rs: find, rfind, count, replace, strip_fast, startswith, endswith, partition, rpartition, center, ljust, rjust, zfill"]}
{"id": "C55", "title": "fftshift and ifftshift are inverse and fftfreq matches them", "statement": "ifftshift(fftshift(a)) = a for every shape, odd or even; fftshift(fftfreq(n)) is increasing.", "quantifier": "all shapes and lengths", "why_tests_cant": "Odd and even lengths per axis combine; the two shifts differ only for odd lengths.", "anchors": ["src/ops/fft.rs: shift_array, fftshift, ifftshift, fftfreq"]}
{"id": "C56", "title": "NaN-skipping reductions are the plain reductions of the numbers", "statement": "nansum and nanprod equal sum and prod of the elements that are not NaN; nanmax and nanmin are the largest and smallest of them, and NaN exactly when every element is NaN.", "quantifier": "all shapes, layouts and positions of NaN values", "why_tests_cant": "The skipping kernels run through the same eight-way loop; every pattern of NaNs over the accumulators must be right.", "anchors": ["src/ops/kernels/arithmetic.rs: NanSum, NanProd, NanMax, NanMin", "src/ops/array_methods/reductions.rs: nansum, nanprod, nanmax, nanmin, nan_reduce_full", "src/ops/dispatch.rs: dispatch_nan_reduce_float"]}
{"id": "C57", "title": "A copy is a fresh array with the same elements", "statement": "copy, and astype to the array's own dtype, return a C-ordered array with the same shape and, at every index, the same element; its storage is newly allocated.", "quantifier": "all shapes, strides (broadcast, reversed, transposed), item sizes", "why_tests_cant": "Four copying paths (contiguous, blocked rows, broadcast rows and general) must agree for every layout.", "anchors": ["src/array/mod.rs: copy, astype, copy_broadcast"]}
{"id": "C58", "title": "A cast called safe loses no value", "statement": "can_cast(a, b) with the default rule is true exactly when every value of dtype a can be stored in dtype b, and the rules no, equiv, safe, same_kind, unsafe get weaker in this order.", "quantifier": "all pairs of dtypes and all values", "why_tests_cant": "The claim is about all values of a dtype (up to 2^64 integers, all floats), not about the table entry.", "anchors": ["src/python/dtype.rs: can_cast, can_cast_safe, can_cast_same_kind"]}
{"id": "C59", "title": "dtype names and type strings are parsed back to the same dtype", "statement": "For every dtype, its name and its array-interface type string, given back as a dtype argument, denote the same dtype.", "quantifier": "all dtypes, all units, all string lengths", "why_tests_cant": "String dtypes have a length parameter; there are infinitely many.", "anchors": ["src/array/dtype/mod.rs: FromStr for DType", "src/array/dtype/string.rs: name, typestr", "src/python/dtype.rs: normalize_dtype_string"]}
{"id": "C60", "title": "Business-day functions agree with the calendar", "statement": "is_busday is true exactly for days whose weekday is marked and that are no holidays; busday_count(a, b) is the number of business days in [a, b), negative when b comes first; busday_offset moves by the given number of business days and always returns.", "quantifier": "all dates, offsets, week masks and holiday lists", "why_tests_cant": "The loop over days has no bound on its length; termination depends on the mask and the holidays.", "anchors": ["src/python/datetime.rs: is_business_day, busday_offset, busday_count, is_busday"]}
{"id": "C61", "title": "Comparing dates compares the times they denote", "statement": "For any two datetime64 arrays, whatever their units, <, <=, == are those of the instants denoted; NaT compares unequal to everything.", "quantifier": "all pairs of 64-bit values and units", "why_tests_cant": "All pairs of units and values, including the values that a unit conversion truncates.", "anchors": ["src/ops/ufunc.rs: map_compare_op", "src/array/dtype/mod.rs: promote", "src/array/mod.rs: astype"]}
{"id": "C62", "title": "Sampling without replacement gives distinct elements", "statement": "choice(n, size=k, replace=False) returns k different indices below n for every random stream; it is an error exactly when n is 0 or k is larger than n, and otherwise always finishes.", "quantifier": "all n and k, all random streams", "why_tests_cant": "Tests draw a few samples; distinctness must hold for every stream of numbers.", "anchors": ["src/python/random.rs: choice", "src/random/generator.rs: bounded_uint64"]}
{"id": "C63", "title": "Fourier transforms along axes are the discrete Fourier transform, and the inverses undo them", "statement": "fft, rfft and fftn give the sums over exp(-2*pi*i*j*k/n) along the chosen axes (rfft and rfftn keep the first n/2+1 frequencies of the last axis); ifft, ifftn, irfft, irfftn, hfft and ihfft undo them, in exact arithmetic.", "quantifier": "all shapes, layouts, axis lists and element values", "why_tests_cant": "The lanes of every axis of every shape must be gathered and scattered correctly and the negative frequencies rebuilt for every length; tests use a few short arrays.", "anchors": ["src/ops/fft.rs: fft, ifft, rfft, irfft, fftn, ifftn, rfftn, irfftn, hfft, ihfft, fft_along_axis, rfft_along_axis"]}
{"id": "C64", "title": "Numerical derivatives, integrals and interpolation follow their formulas", "statement": "gradient with a uniform spacing takes central differences inside and one-sided differences at the ends, so it is exact for linear functions, and inside for quadratic ones; with coordinates it uses the second-order formula for unequal intervals. trapezoid is the sum of the trapezoid areas along the axis, for a constant spacing or given coordinates. interp is the piecewise linear function through the given points, with the left and right values outside.", "quantifier": "all shapes, layouts, axes, spacings and element values", "why_tests_cant": "The stores of every lane must go to the right places for every layout, and the binary search must find the interval for every number of points.", "anchors": ["src/ops/numerical.rs: gradient, gradient_with_coords, gradient_axis, gradient_fallback, trapezoid, interp, interp_single"]}
{"id": "C65", "title": "Printed arrays show the elements, the shape and nothing else", "statement": "str(a) and repr(a) show the elements of a in the order of their indices, nested in the brackets of the shape, whatever the memory layout; up to 1000 elements arrays that differ print differently, above that the first and last three positions of each long axis are shown; a number is printed so that reading it gives the value back (floats to the printed precision).", "quantifier": "all shapes, layouts, element values and dtypes", "why_tests_cant": "The text is built by recursion over the axes with widths that depend on all elements; that nothing is lost is a statement about all pairs of arrays.", "anchors": ["src/array/format.rs: format_repr, format_str, format_data, display_indices, collect_elements_recursive, format_recursive", "src/array/dtype/macros.rs: format_element", "src/array/dtype/string.rs: format_element"]}
{"id": "C66", "title": "Python functions applied along axes, over axes and element by element", "statement": "apply_along_axis replaces every lane along the given axis by what the function returns for it; apply_over_axes reduces the given axes one after the other and keeps all of them with length 1; vectorize and frompyfunc give, at every index of the common broadcast shape, the function of the elements at that index in the order of the arguments, for arrays, views and other objects mixed; an axis outside the array, shapes that do not broadcast, a wrong number of arguments and an exception in the function are errors.", "quantifier": "every array or view, every axis, every list of axes, every Python function, every mix of array and other arguments", "why_tests_cant": "the functions, shapes and argument mixes are unbounded, and tests use a few functions along the last axis", "anchors": ["src/python/functional.rs: apply_along_axis", "src/python/functional.rs: apply_over_axes", "src/python/functional.rs: vectorize", "src/python/functional.rs: frompyfunc", "src/array/mod.rs: get_slice_along_axis"]}
{"id": "C67", "title": "Linear systems, determinants and factorisations hold for the matrix the array shows", "statement": "For any square float array in any memory layout: det is the determinant of the matrix it shows, slogdet gives a sign and a logarithm with sign * exp(log) equal to it, inv gives the two-sided inverse and refuses a singular matrix, and solve gives x of the shape of b with A x = b in the result's own dtype. The arrays returned by qr, svd, eigh, eig and cholesky multiply back to the input, with orthonormal, triangular and sorted parts as documented. tensorinv and tensorsolve do the same for tensors, contracting over the chosen axes.", "quantifier": "every shape and size including empty ones, every layout (row-major, transposed, sliced), every matrix and right-hand side", "why_tests_cant": "Tests check a handful of small float64 matrices; the claim is about the strides of every layout, the copying of results and the sign bookkeeping for every size", "anchors": ["src/ops/linalg.rs: det, slogdet, inv, qr, svd, eigh, eigvalsh, eig, eigvals, cholesky, tensorinv, tensorsolve, try_as_faer_mat, faer_to_rumpy", "src/ops/solve.rs: solve"]}
{"id": "C68", "title": "Norms, condition number, rank, pseudo-inverse and least squares describe the matrix of the array", "statement": "For an array in any layout: the 1, inf, -inf, 0 and p norms of a vector and the 1, -1, inf, -inf, 2, -2, nuclear and Frobenius norms of a matrix are the ones of its elements; cond is the ratio of greatest and least stretch and is infinite exactly for matrices that send some non-zero vector to zero; matrix_rank is the rank; pinv satisfies the four Penrose conditions; lstsq gives, for every right-hand side, the shortest vector closest to solving the system, with the right rank, residuals and singular values.", "quantifier": "All matrices of every shape and layout, all right-hand sides, all orders, over an ordered field, given that the factorisation library meets its contract and the tolerance separates zero singular values from the others.", "why_tests_cant": "Optimality of a least-squares solution compares it with every other vector; tests check a few systems, mostly square, contiguous and of full rank.", "anchors": ["src/ops/linalg.rs norm, vector_norm, matrix_norm, cond, matrix_rank, pinv, lstsq", "src/ops/array_methods/logical.rs count_nonzero"]}
{"id": "C69", "title": "Comparisons, logical functions, all/any and closeness say what is true of the elements", "statement": "Comparing two arrays gives, at every index of the broadcast shape, the truth of the comparison of the two elements' values (with NaN only != is true); logical_and/or/xor/not combine the elements' truth values; all/any/count_nonzero, whole or along an axis, summarise them; isclose follows |x - y| <= atol + rtol*|y| with infinities and NaN handled as documented; allclose and array_equal hold exactly when every pair does.", "quantifier": "All operators, dtypes, values (NaN and infinities included), shapes, layouts, tolerances and axes.", "why_tests_cant": "Values at type boundaries, NaN on either side, mixed dtypes, empty axes and strided layouts multiply; a test only samples them.", "anchors": ["src/ops/ufunc.rs map_compare_op", "src/ops/comparison.rs isclose/allclose/array_equal/logical_*", "src/ops/kernels/comparison.rs", "src/ops/array_methods/logical.rs", "src/ops/dispatch.rs dispatch_all_axis/dispatch_any_axis", "src/ops/mod.rs compare_scalar"]}
{"id": "C70", "title": "Converting an array to another dtype keeps what can be kept", "statement": "For any array `a` and dtype `d`, `a.astype(d)` has the shape of `a` and each element is the converted element, whatever the memory layout of `a`. A number that `d` can store is kept exactly. Otherwise a float is rounded to a nearest value of `d` (infinite only beyond every value of `d`), a float converted to an integer loses its fraction, and an integer converted to a narrower integer is reduced modulo the number of its values. NaN and the infinities stay in float dtypes. Everything except zero is true. Complex numbers are converted part by part. Dates change unit. Converting to a dtype that holds every value of the first, and back, gives the original array.", "quantifier": "all pairs of dtypes, all arrays of the first dtype in every layout, all element values including NaN, infinities, subnormal floats and the extreme integers", "why_tests_cant": "Tests convert a few small values between a few pairs of dtypes; rounding, saturation and the passage through a 64-bit float only show at extreme values and unusual pairs.", "anchors": ["src/array/mod.rs astype, copy_broadcast_typed", "src/array/dtype/macros.rs read_f64, write_f64", "src/array/dtype/{bool,float16,complex64,complex128,datetime64,string}.rs read_f64, write_f64"]}
{"id": "C71", "title": "extract, place, putmask, select, piecewise, resize, unstack and ediff1d read and write the right elements", "statement": "extract(cond, a) returns the elements of a where cond is true, in row-major order. place(a, mask, vals) stores the values one by one where the mask is true, repeating them; putmask(a, mask, vals) stores at each true position the value at that position of the repeated values; both leave every other element and all memory outside a alone. select takes at every position the choice of the first true condition, else the default. piecewise applies at every position the function of its true condition, else the extra function or zero. resize fills the new shape with the repeated elements. unstack(a, axis) returns the subarrays along the axis. ediff1d returns begin, the differences of neighbours, end. Inputs of the wrong size or with a wrong axis are refused.", "quantifier": "Every shape, stride and offset of the arrays and the masks, every mask, every number of values, conditions and functions, every axis, every memory content", "why_tests_cant": "The functions have a fast path for contiguous memory and a slow one with offsets, and two counters that run at different speeds; tests use a handful of short contiguous vectors and cannot cover all layouts, masks and value counts.", "anchors": ["src/python/misc.rs: extract, place, putmask, select, piecewise, resize, unstack, ediff1d, resolve_axis"]}
{"id": "C72", "title": "Means, moments, tuples of axes and keepdims", "statement": "mean, var and central moments of an array are those of its elements, in any memory layout, and NaN when there are none. An axis argument is accepted exactly when every axis in it is in range, negative axes count from the end, and a repeated axis is refused. A reduction over a tuple of axes gives, at each remaining index, the reduction of all the elements that differ from it only along those axes, in whatever order the axes are named; naming every axis gives one value with no axes left. With keepdims the reduced axes stay with length one.", "quantifier": "all arrays, layouts, ranks, lengths, axis tuples, moment orders and associative commutative operations", "why_tests_cant": "Tests reduce a few small contiguous arrays along one or two named axes; agreement for every rank, every tuple and every layout needs an argument about the order in which axes are removed.", "anchors": ["src/ops/array_methods/reductions.rs: mean, mean_axis, var, moment, moment_axis", "src/ops/ufunc.rs: variance_f64_contiguous", "src/python/reductions.rs: parse_axis, reduce_multi_axis", "src/python/pyarray/mod.rs: apply_keepdims, scalar_reduction_with_keepdims", "src/python/pyarray/methods_reductions.rs"]}
{"id": "C73", "title": "Index iterators, grids, the diagonal and index arrays", "statement": "ndindex gives every index of a shape once, in row-major order, then stops; ndenumerate pairs each with the element there. ix_ and ogrid lay each vector along its own axis, mgrid repeats it over the others. A slice start:stop:step gives the points of the progression before stop, start:stop:nj gives n evenly spaced points with both ends. fill_diagonal stores the values, repeated as needed, exactly where all coordinates agree (with wrap, at every (columns+1)-th element of a matrix) and changes nothing else. unravel_index, ravel_multi_index, diag_indices_from and mask_indices read their arguments element by element, whatever the layout.", "quantifier": "all shapes including empty and 0-d ones, all numbers of items drawn, all vectors, starts, stops, steps and counts, all array and value layouts", "why_tests_cant": "Tests draw a few items from one small shape; that no index is skipped or repeated for any shape, and that no other element of any view changes, needs induction on the odometer and on the row loop.", "anchors": ["src/python/indexing.rs: NdIndex, NdEnumerate, ndindex, ndenumerate, ix_, parse_grid_key, generate_range_array, fill_diagonal, unravel_index, ravel_multi_index, diag_indices_from, mask_indices"]}
{"id": "C74", "title": "A random generator shared by threads", "statement": "When several threads use one generator, under every schedule each call gives what it would give if the calls had run one after another, in the order in which they returned; a thread's own calls return in order; no number of the stream is handed out twice or left out. No schedule blocks for good and none runs for ever. A call that is refused does not disturb the calls after it.", "quantifier": "all numbers of threads, all programs of calls, all schedules (interleavings at the level of single draws), all generator states", "why_tests_cant": "A test sees a handful of schedules, and the interpreter lock makes interesting ones rare; freedom from deadlock and serial behaviour are statements about every interleaving and every history.", "anchors": ["src/python/random.rs: PyGenerator, random, integers, exponential, choice, permutation", "src/random/generator.rs: raw_u64, bounded_uint64", "src/python/pyarray/mod.rs: parse_shape"]}
{"id": "C75", "title": "Text files: what savetxt and tofile write is what loadtxt and fromfile read", "statement": "loadtxt uses exactly the lines that are not skipped, blank or comments, at most max_rows of them, and accepts the file exactly when these rows have the same number of fields and every field is a number; genfromtxt fills what is missing; a table written by savetxt (with any header and footer) and read by loadtxt is the same table, and the same holds for tofile and fromfile with a separator.", "quantifier": "every text, every separator, comment marker, header, footer, number of skipped and used rows, selection of columns, and every array whose printed numbers can be read back", "why_tests_cant": "The number of lines, fields and texts is unbounded, and headers, separators and comment markers interact; tests use a few small files.", "anchors": ["src/ops/io.rs: loadtxt, savetxt, genfromtxt, fromfile_text, tofile, format_value", "src/python/io.rs: loadtxt, savetxt, genfromtxt"]}
{"id": "C76", "title": "Random distributions: the samples have the law, the support and the shape asked for", "statement": "From uniform draws, the samples of uniform, laplace, logistic and rayleigh have the distribution function of their name; the counts of multinomial have the multinomial law and sum to n; the rows of dirichlet are shares that sum to one; multivariate_normal has the mean and the covariance asked for; zipf returns k with a probability proportional to k to the power -a; vonmises returns angles with the von Mises law; choice with replacement takes every element at an unbiased position.", "quantifier": "every value of the parameters for which the distribution is defined, every number of categories and dimensions, every sequence of draws", "why_tests_cant": "A test of a sampler looks at finitely many samples and can only reject a law that is far off; whether the law is right for every parameter is a statement about all draws.", "anchors": ["src/random/generator.rs: uniform, laplace, logistic, rayleigh, multinomial, dirichlet, multivariate_normal, zipf, vonmises", "src/python/random.rs: choice"]}
{"id": "C77", "title": "Covariances, correlations and weighted means are those of the data", "statement": "np.cov of a matrix gives the symmetric positive semi-definite matrix whose entries are the covariances of its rows with the requested degrees of freedom; np.corrcoef gives the correlations, which lie between -1 and 1, are 1 on the diagonal and are NaN where a row is constant; np.average gives the sum of products of elements and weights over the sum of the weights, over all elements or for each lane of an axis, and lies between bounds of the elements when no weight is negative.", "quantifier": "every matrix in every memory layout, every number of rows and columns, every ddof, every array of weights and every axis", "why_tests_cant": "a unit test compares a few small matrices; that every entry is the covariance for every layout and size, that the matrix is semi-definite, and that the weights meet the right elements concerns all inputs", "anchors": ["src/ops/statistics.rs: cov, corrcoef, average", "src/python/reductions.rs: average, cov, corrcoef"]}
{"id": "C78", "title": "Reductions that leave NaN out reduce exactly the numbers", "statement": "np.nansum, nanprod, nanmean, nanvar, nanmin, nanmax, nanargmin and nanargmax give the sum, product, mean, variance, extreme, or first position of the extreme of the elements that are not NaN, over the whole array, for each lane of an axis, and jointly over several axes; where only NaN is left the mean, variance and extremes are NaN and the positions are refused.", "quantifier": "every array in every memory layout, every placement of NaN, every axis and every tuple of distinct axes", "why_tests_cant": "unit tests try a few arrays with one or two NaN; that no placement of NaN, layout, axis or combination of axes changes which elements are reduced concerns all of them", "anchors": ["src/ops/array_methods/reductions.rs: nansum_axis, nanprod_axis, nanmean, nanmean_axis, nanvar, nanvar_axis, nanmin_axis, nanmax_axis, nanargmin, nanargmax, nan_reduce_axis, nan_arg_reduce_axis", "src/python/reductions.rs: nansum, nanmean, nanvar, nanmin, nanargmin, reduce_multi_axis"]}
{"id": "C79", "title": "unwrap, trim_zeros, angle and real_if_close do what their names say", "statement": "unwrap changes each element by whole periods only, keeps the first element of every lane and every jump up to the discontinuity, brings every other jump within half a period, so that a phase sampled finely enough is recovered from its values modulo the period, along any axis and in any layout. trim_zeros removes exactly the zeros at the chosen ends. angle gives the argument of every number. real_if_close drops the imaginary parts exactly if all are negligible.", "quantifier": "all arrays, layouts, axes, periods and discontinuities; all vectors and trim arguments; all complex numbers and tolerances", "why_tests_cant": "The correction of an element depends on all the elements before it in its lane, and the bounds hold at every position of every lane of every shape; tests look at a few short vectors.", "anchors": ["src/python/misc.rs unwrap", "src/python/misc.rs trim_zeros", "src/python/misc.rs angle", "src/python/misc.rs real_if_close"]}
{"id": "C80", "title": "Arrays from nested lists of numbers, and back", "statement": "array() of a rectangular nested list of Python numbers has the shape of the list, a dtype that holds all its numbers, and at every index the number at that place in the list; a list that is not rectangular is refused. tolist() is the inverse: the nested list of the array's shape with the element of every index in its place, with its value and type. item() of an array with one element is that element.", "quantifier": "all nested lists of booleans, integers, floats and complex numbers of any depth and shape; all arrays of every layout", "why_tests_cant": "The lists have unbounded depth and size; the inference looks at one element, so only the mixed lists that a test happens to contain show the loss.", "anchors": ["src/python/creation.rs: array_impl, from_list, infer_dtype_from_list, flatten_nested_list, flatten_nested_list_i64", "src/array/constructors.rs: from_vec_with_shape", "src/ops/mod.rs: to_pylist", "src/python/pyarray/mod.rs: tolist, item"]}
{"id": "C81", "title": "round gives the nearest number with the wanted decimals, clip keeps within the bounds", "statement": "round(decimals) replaces every element by the nearest number with that many decimals (for negative decimals, the nearest multiple of a power of ten), the even one of two equally near. clip(lo, hi) replaces every element below lo by lo and above hi by hi and leaves the others. Both keep the shape and hold for every numeric dtype and layout.", "quantifier": "all values, all numbers of decimals, all bounds, all dtypes and layouts", "why_tests_cant": "Halfway cases, negative decimals, powers of ten outside a narrow dtype and fractional bounds on integers are each easily missed, and the statement is about all values.", "anchors": ["src/ops/mod.rs: round, clip", "src/ops/dispatch.rs: dispatch_round, impl_round_float, impl_round_int, dispatch_clip, dispatch_clip_typed"]}
{"id": "C82", "title": "Exchange of arrays with other libraries through the array interface", "statement": "An array of another library that offers its memory through __array_interface__ is taken over with the same dtype, shape and element values, whatever its strides and byte order; only its own memory is read; with dtype= the values are converted. An array of this library offered through the interface and taken over again is the same array. A typestr that names no supported dtype is an error.", "quantifier": "all shapes, strides, addresses, memory contents, dtypes and byte orders", "why_tests_cant": "The loop walks foreign memory with foreign strides; whether every read stays inside it and every dtype text is understood cannot be settled by a few arrays made by one NumPy version on one machine.", "anchors": ["src/python/creation.rs: from_array_interface, dtype_from_typestr", "src/python/pyarray/mod.rs: __array_interface__", "src/array/dtype: typestr, copy_element"]}
{"id": "C83", "title": "Copying into an array and asking for a memory layout", "statement": "copyto(dst, src, where=mask) makes every selected element of dst the value that the broadcast src had before the call, converted to the dtype of dst, and changes no other element of any array, also when the arrays share memory; it fails exactly when the shapes do not broadcast or the cast is not allowed. ascontiguousarray, asfortranarray and require return an array with the same elements, in the layout asked for, without changing any array, and return the array itself when it already fits.", "quantifier": "all shapes, strides, dtypes, memory contents, masks and layouts of the arrays involved", "why_tests_cant": "Whether a loop reads cells it has already written depends on the relative position of three strided views; no sample of layouts settles it.", "anchors": ["src/python/creation.rs: copyto, ascontiguousarray, asfortranarray, require"]}
{"id": "C84", "title": "Splitting floats into parts is exact", "statement": "frexp returns for every finite float other than zero (subnormal numbers too) a mantissa of magnitude at least 1/2 and below 1 and an exponent whose product is the float exactly; modf returns an integer part and a fraction of the same sign that add up to the float exactly; ldexp returns x times 2^i rounded once; spacing returns the distance to the next float; heaviside returns 0, h0 or 1 by the sign of x and NaN for NaN.", "quantifier": "All bit patterns of float32 and float64, all exponents, all views", "why_tests_cant": "There are 2^64 floats, and the exceptional ones (subnormal numbers, negative zero, powers of two, numbers whose power of two overflows although the product does not) are not among the handful a test tries.", "anchors": ["src/ops/special.rs (spacing, modf, frexp, ldexp, heaviside)"]}
{"id": "C85", "title": "Functions of complex numbers return the value of the principal branch", "statement": "sqrt, arcsin, arccos, arcsinh, arccosh and arctanh of a complex array hold, in every element, the inverse on the principal branch that NumPy documents, on the side of a cut that the sign of a zero chooses; sign has modulus one; exp2, products, quotients and powers of operands of different complex dtypes are those of complex numbers; maximum, minimum, fmax, fmin, sort, max and min order by real part and then imaginary part; nan_to_num keeps finite numbers and replaces the others by the given numbers or by the largest numbers of the dtype; real, imag and conj take every element apart.", "quantifier": "all complex numbers, all sign bits of zeros, all pairs with and without NaN, all floating-point formats, all replacements, all views", "why_tests_cant": "The functions have cuts and the formulas several special cases; a wrong branch shows only in one quadrant or on one side of a cut, and tests sample a few points.", "anchors": ["src/ops/kernels/math.rs:complex_kernels", "src/ops/kernels/arithmetic.rs", "src/ops/ufunc.rs:complex_binary_op", "src/array/dtype/complex128.rs", "src/ops/array_methods/unary.rs:nan_to_num", "src/ops/array_methods/unary.rs:real"]}
{"id": "C86", "title": "emath functions leave the reals exactly when they must", "statement": "emath.sqrt, log, log2, log10, logn, power, arcsin, arccos and arctanh return a real array when every element has a real result and a complex array otherwise; every element of the result is the principal value for the element at its place, whatever the other elements are, and NaN stays NaN; the complex dtype is the one NumPy converts to.", "quantifier": "all views of real numbers, all shapes that broadcast, all positions of NaN, all dtypes", "why_tests_cant": "Whether a result is complex depends on all elements together, and the values on both sides of the branch; tests use a few short arrays.", "anchors": ["src/python/emath.rs:has_negative_values", "src/python/emath.rs:has_values_outside_unit", "src/python/emath.rs:apply_sqrt_with_complex", "src/python/emath.rs:logn", "src/python/emath.rs:power", "src/python/emath.rs:get_complex_dtype"]}
{"id": "C87", "title": "Questions about dtypes are answered as the dtypes are", "statement": "iinfo and finfo describe what a dtype really stores: the range of integers, the gap after 1, the largest, smallest and smallest normal number, the exponents and digits. promote_types, common_type, issubdtype and isdtype agree with NumPy's type hierarchy for every name a dtype has, and unknown names are refused.", "quantifier": "all strings as dtype names, all dtypes, all lists of dtypes and kinds", "why_tests_cant": "The claims about finfo quantify over all numbers of a format, and those about names over all strings; tests compare a few constants.", "anchors": ["src/python/dtype.rs:PyFinfo", "src/python/dtype.rs:PyIinfo", "src/python/dtype.rs:normalize_dtype_string", "src/python/dtype.rs:common_type", "src/python/dtype.rs:issubdtype", "src/python/dtype.rs:isdtype"]}
{"id": "C88", "title": "Business day calendars mean what their text says", "statement": "A weekmask written with names of weekdays or with seven digits marks exactly those weekdays; a calendar with holidays says of every date whether it is a business day; isnat and is_busday of an array answer element by element for every view and unit; busday_offset and busday_count treat lists of dates element by element and broadcast single values.", "quantifier": "all weekmask texts, all lists of holidays and dates, all views of date arrays", "why_tests_cant": "The set of weekmask texts and of views is unbounded, and names can overlap inside a text; tests use two masks and contiguous arrays.", "anchors": ["src/python/datetime.rs:parse_weekmask", "src/python/datetime.rs:BusDayCalendar", "src/python/datetime.rs:is_busday", "src/python/datetime.rs:isnat", "src/python/datetime.rs:busday_offset", "src/python/datetime.rs:busday_count"]}
{"id": "C89", "title": "Window functions, sinc and i0 have the values they are documented to have", "statement": "bartlett, hanning, hamming, blackman and kaiser return as many points as asked for, with the documented value at each point; the windows are symmetric and lie between 0 and 1. sinc is sin(pi x)/(pi x) with 1 at 0, and i0 is the modified Bessel function of order 0; both act on each element of an array.", "quantifier": "every number of points and shape parameter; every real argument; every array", "why_tests_cant": "The values are real functions of a real argument; a test compares a few points to a tolerance and cannot bound the error of a polynomial over an interval.", "anchors": ["src/python/creation.rs: bartlett, blackman, hamming, hanning, kaiser, bessel_i0", "src/ops/special.rs: sinc, i0, i0_scalar"]}
{"id": "C90", "title": "Flat iterators, resize, repeat, view and tobytes as methods of an array", "statement": "a.flat yields the elements in row-major order, as they are when asked for, and then ends; a.flat[i] is the i-th of them. a.resize keeps the elements in order, cut off or continued with zeros. a.repeat repeats every position of an axis. a.view(dtype) shows the same bytes with only the last length changed, and viewing back restores the shape. a.tobytes is the bytes of the elements in order.", "quantifier": "every array layout, every sequence of calls between which the array changes, every shape, axis and element size", "why_tests_cant": "The order must be right for every layout, and an iterator must be right after any history of calls and writes.", "anchors": ["src/python/pyarray/mod.rs: PyFlatIter, resize, repeat, view, tobytes", "src/array/views.rs: view_with_dtype"]}
{"id": "C91", "title": "An array lies inside the memory allocated for it", "statement": "Creating, resizing, repeating or reshaping an array either fails or gives an array all of whose elements lie inside its buffer, whatever lengths are asked for, also when their product does not fit 64 bits; arrays that fit in memory are not refused, and negative lengths are.", "quantifier": "every shape with 64-bit lengths, every element size, builds with and without overflow checks", "why_tests_cant": "The failing sizes are products that wrap around 2^64; no test allocates or enumerates them.", "anchors": ["src/array/constructors.rs: zeros", "src/array/buffer.rs: ArrayBuffer::new", "src/array/mod.rs: compute_c_strides", "src/array/views.rs: reshape", "src/python/pyarray/mod.rs: parse_shape, resize, repeat"]}
{"id": "C92", "title": "Stacking, splitting and giving arrays more axes put every element where NumPy puts it", "statement": "atleast_1d, atleast_2d and atleast_3d, vstack, hstack, column_stack and dstack, hsplit, vsplit and dsplit, broadcast_arrays, and the functions expand_dims, flip and reshape give arrays of the shape NumPy gives, with every element of every input at NumPy's place, and refuse exactly the inputs that do not fit.", "quantifier": "every list of arrays of every rank, shape and layout, every number of parts, every axis (negative ones included) and every requested shape with one length left open", "why_tests_cant": "tests stack a few fresh vectors; a slice with a step, a single value or a negative length takes a path they never enter", "anchors": ["src/python/shape.rs:atleast_1d", "src/python/shape.rs:atleast_2d", "src/python/shape.rs:atleast_3d", "src/python/shape.rs:vstack", "src/python/shape.rs:hstack", "src/python/shape.rs:column_stack", "src/python/shape.rs:dstack", "src/python/shape.rs:hsplit", "src/python/shape.rs:vsplit", "src/python/shape.rs:dsplit", "src/python/shape.rs:broadcast_arrays", "src/python/shape.rs:expand_dims", "src/python/shape.rs:flip", "src/python/shape.rs:reshape"]}
{"id": "C93", "title": "Float arithmetic, remainders, maxima, sign, rounding and neighbours follow NumPy at every float, NaN and the infinities included", "statement": "Addition, subtraction, multiplication and division of float arrays give the correctly rounded result in every float dtype, also for float16 (which is computed in float32) and for mixed dtypes (computed in float64); fmod is the exact remainder and remainder and floor_divide satisfy NumPy's division identity; maximum and minimum propagate NaN while fmax and fmin skip it; sign, rint, logaddexp, logaddexp2 and nextafter, and the operations on bool arrays, return NumPy's values.", "quantifier": "every pair of floats of every format, subnormals, NaN and the infinities included, every operation of the list, and both the same-dtype and the mixed-dtype path", "why_tests_cant": "rounding twice goes wrong only at operands next to a halfway point, remainders only for particular signs and quotients; samples do not meet them", "anchors": ["src/ops/kernels/arithmetic.rs:BinaryKernel", "src/ops/kernels/math.rs:UnaryKernel", "src/ops/ufunc.rs:map_binary_op", "src/array/dtype/macros.rs:binary_op", "src/array/dtype/float16.rs:binary_op", "src/array/dtype/bool.rs:binary_op", "src/python/ufuncs.rs:divmod"]}
{"id": "C94", "title": "Case conversion and character tests on string arrays are Python's", "statement": "char.upper, lower, swapcase, capitalize and title give for every element what the str method of the same name gives, in arrays of every layout, and isalpha, isdigit, isdecimal, isnumeric, isalnum, isspace, isupper, islower and istitle are true exactly where the str method is.", "quantifier": "every array of strings of every width, shape and layout, every text, and every content of the Unicode character database", "why_tests_cant": "the fast paths treat ASCII, other characters, padding, contiguous and strided arrays separately; a sample of texts meets only some of the combinations", "anchors": ["src/ops/char.rs:upper", "src/ops/char.rs:lower", "src/ops/char.rs:swapcase", "src/ops/char.rs:capitalize", "src/ops/char.rs:title", "src/ops/char.rs:isalpha", "src/ops/char.rs:isdigit", "src/ops/char.rs:isalnum", "src/ops/char.rs:isupper", "src/ops/char.rs:islower", "src/ops/char.rs:isspace", "src/ops/char.rs:isdecimal", "src/ops/char.rs:isnumeric", "src/ops/char.rs:istitle"]}
{"id": "C95", "title": "Functions of one array have NumPy's dtype and the right value at every element", "statement": "For every array of bools, integers or floats, a function of one argument returns an array of the same shape. Trigonometric, hyperbolic, exponential and logarithmic functions use the smallest sufficient float dtype and apply the function to the number rounded to it. Negation, absolute value, square, sign, floor, ceiling and truncation are exact for floats and exact modulo the size of the dtype for integers. Square and reciprocal of floats are rounded once. Tests such as isnan and signbit return bools with the right answers.", "quantifier": "All functions of one argument, all numeric dtypes, all shapes and memory layouts, all element values including NaN and the infinities, both build modes", "why_tests_cant": "There are 39 functions and 13 numeric dtypes with different code paths for each group of them; tests try a few values of float64. Exactness in half precision depends on a double rounding that only a proof settles, and wrap-around at the ends of integer ranges depends on the build mode.", "anchors": ["src/ops/ufunc.rs: map_unary_op, is_transcendental", "src/ops/dispatch.rs: dispatch_unary_float, dispatch_unary_int, dispatch_predicate", "src/ops/kernels/math.rs", "src/python/ufuncs.rs: apply_unary_ufunc"]}
{"id": "C96", "title": "Arithmetic of arrays, and of an array and a Python number, gives NumPy's dtype and the correctly rounded or wrapped values", "statement": "For bool, integer and float arrays of any layout and any broadcastable shapes: the result of + - * / maximum minimum has NumPy's dtype and the broadcast shape; integers of one dtype are exact modulo the number of values, of two dtypes exact while they fit 53 bits; floats are the exact result of the operands rounded once; division by zero gives infinity or NaN; // and % panic exactly for the smallest number divided by -1; an array with a Python number behaves as with an array holding that number.", "quantifier": "all pairs of real dtypes, all shapes, strides and values, all Python ints and floats", "why_tests_cant": "Dtype pairs, shapes and values multiply; rounding errors, overflow at the dtype boundary and scalar conversion show only for particular values.", "anchors": ["src/ops/ufunc.rs: map_binary_op_inplace", "src/ops/mod.rs: scalar_op, rscalar_op", "src/python/pyarray/mod.rs: binary_op_dispatch, rbinary_op_dispatch", "src/python/ufuncs.rs: apply_binary_ufunc"]}
{"id": "C97", "title": "Bitwise operators act on the numbers stored in the operands and stay inside their memory", "statement": "a & b, a | b, a ^ b, a << b, a >> b and ~a of bool and integer arrays, or of such an array and a Python integer on either side, broadcast the shapes, give the smallest dtype that holds both operands, and combine the operands' values converted to it; other dtypes are refused; no memory outside the operands is read.", "quantifier": "all bool and integer dtypes on either side, all shapes, strides, contents and Python integers", "why_tests_cant": "Whether bytes behind a buffer are read shows only by chance in a test, and the pairs of dtypes, sizes and layouts are too many to list.", "anchors": ["src/ops/bitwise.rs: map_binary_bitwise, map_binary_bitwise_trait, map_unary_bitwise_not", "src/ops/dispatch.rs: dispatch_bitwise_binary_kernel, dispatch_bitwise_shift_kernel, dispatch_bitwise_bool_typed, dispatch_bitwise_not_kernel", "src/python/pyarray/mod.rs: bitwise_binary_op_dispatch, rbitwise_binary_op_dispatch"]}
{"id": "C98", "title": "Arrays saved together in an archive are loaded back under their own names", "statement": "After np.savez or np.savez_compressed succeeds, np.load of the same path gives a mapping with exactly the names the arrays were saved under (arr_0, arr_1, ... for positional arguments) and under each name the array with its dtype, shape and elements. Saving fails exactly when two arrays go by one name, and a save that fails leaves the file that was there. Loading ignores entries that are not arrays and fails if an array entry cannot be read.", "quantifier": "all lists of arrays of any dtype, shape and layout, all keyword names, all paths and all earlier contents of the file", "why_tests_cant": "A test saves a few arrays under plain names; names that end like the archive's own entries, clashes between positional and keyword names, and what a failed save leaves behind are not tried.", "anchors": ["src/ops/io.rs savez_impl", "src/ops/io.rs load_npz", "src/python/io.rs savez", "src/python/io.rs extract_arrays_for_savez", "src/python/io.rs load"]}
{"id": "C99", "title": "np.block assembles nested lists of blocks as NumPy does", "statement": "np.block lays the arrays of the innermost lists side by side along the last axis, the results of these lists along the last but one axis, and so on outwards, after giving every array as many axes as needed; it refuses exactly arrays at different depths, empty lists and shapes that do not fit.", "quantifier": "all nested lists of arrays, of any depth, lengths, ranks and shapes", "why_tests_cant": "Nesting depth, number of blocks and ranks are unbounded; tests try a 2 by 2 arrangement of matrices.", "anchors": ["src/python/misc.rs block", "src/python/misc.rs process_block", "src/array/manipulation.rs concatenate"]}
{"id": "C100", "title": "Index and shape arguments mean what they mean in NumPy", "statement": "The widths given to pad (one number, one pair, one pair for each axis), the repetitions given to tile, the axes given to tensordot and the indices and axis given to take are understood as NumPy understands them; what NumPy refuses is refused.", "quantifier": "all arguments made of integers, tuples and lists; arrays with any number of axes; index arrays of any dtype", "why_tests_cant": "The arguments nest to any shape, and a form can be ambiguous only for one number of axes (a pair of pairs with two axes), so samples with other ranks never meet it.", "anchors": ["src/python/shape.rs: pad", "src/python/shape.rs: tile", "src/python/linalg.rs: tensordot", "src/python/indexing.rs: take"]}
{"id": "C101", "title": "Selecting between arrays of different dtypes", "statement": "where(c, x, y) with x and y of different dtypes, or with a Python number, and choose(i, choices) with choices of different dtypes give an array of the joint dtype whose elements are the selected elements converted to it; nothing but the selected elements is read.", "quantifier": "all pairs of dtypes, all layouts and broadcastable shapes, all conditions of numeric dtypes, all lists of choices", "why_tests_cant": "The kernels cover equal dtypes only and everything else takes loops that read memory with one dtype and write with another; tests compare small values of one or two dtype pairs, where the wrong reading can look right.", "anchors": ["src/ops/mod.rs: where_select", "src/ops/indexing.rs: choose", "src/python/indexing.rs: where_fn", "src/python/indexing.rs: choose"]}
{"id": "C102", "title": "Sums, products, extremes and means of arrays of any number dtype", "statement": "sum, prod, max and min of an array give the exact total of an integer or bool array, a rounded total of a float array with the usual error bound, the greatest or least element (NaN if there is one), a complex total of a complex array, and refuse the extremes of an empty array; mean is the sum divided by the number of elements; with an axis the same holds in every lane; none of this depends on the memory layout.", "quantifier": "every number dtype, shape, memory layout, axis and element values including NaN and the infinities", "why_tests_cant": "The loops are chosen by dtype, by contiguity and by the length of rows, accumulate in eight lanes and convert the result through float64; wrong totals appear only for particular dtypes, sizes and values.", "anchors": ["src/ops/ufunc.rs reduce_all_op, reduce_axis_op", "src/ops/array_methods/reductions.rs sum, prod, max, min, mean, mean_axis", "src/ops/kernels/arithmetic.rs ReduceKernel", "src/ops/dispatch.rs dispatch_reduce_sum", "src/python/pyarray/methods_reductions.rs"]}
{"id": "C103", "title": "Arrays as Python sequences, truth values and numbers", "statement": "Iterating over an array yields its rows in order and then ends; x in a says whether an element equals x; the truth value of a one-element array is that of its element and other arrays are refused; float(a), a.item() and int(a) of a one-element array are its element, and other sizes are refused.", "quantifier": "every array of any shape, layout and dtype, and every number of steps of an iteration", "why_tests_cant": "Whether an iteration ends is a statement about every number of steps; the tests never iterate over an array, and the items past the end are views outside the buffer.", "anchors": ["src/python/pyarray/dunder_item.rs __getitem__", "src/python/pyarray/dunder_ops.rs __float__, __int__, __eq__", "src/python/pyarray/mod.rs item, comparison_op_dispatch"]}
{"id": "C104", "title": "Comparison operators compare the values of the operands, whatever their dtypes", "statement": "For two arrays of any number dtypes whose shapes broadcast, each of `<`, `<=`, `>`, `>=`, `==` and `!=` gives a bool array of the broadcast shape that is true exactly where the operator holds between the numbers the elements stand for (NaN differs from everything). The same holds for an array and a Python number. Dates and durations compare as points in time or lengths whatever their units, and swapping the operands together with the operator gives the same answer. Complex numbers are equal exactly when both parts are.", "quantifier": "all six operators, all pairs of number dtypes (and of date units), all shapes, layouts and element values, all Python numbers", "why_tests_cant": "There are 12 real dtypes and 10 time units with 64-bit ranges; errors appear only for particular pairs of values near each other and above 2^53, or for particular pairs of units in one order of the operands, so sampled pairs pass", "anchors": ["src/ops/ufunc.rs map_compare_op", "src/ops/mod.rs compare_scalar", "src/ops/dispatch.rs dispatch_compare_kernel", "src/ops/kernels/comparison.rs", "src/python/pyarray/mod.rs comparison_op_dispatch", "src/array/mod.rs astype"]}
{"id": "C105", "title": "float_power computes in double precision for every pair of dtypes", "statement": "float_power(x, y) of arrays, numbers and lists of numbers broadcasts its operands, returns float64 (complex128 if an operand is complex), and each element is the power of the two elements, each converted once to the nearest double, whatever the dtypes and memory layouts are.", "quantifier": "all pairs of numeric dtypes, all shapes, strides and elements, all Python numbers and lists", "why_tests_cant": "There are 14 numeric dtypes, so 196 pairs, each with contiguous and strided layouts and both sides of 2^53; tests try a few pairs with small numbers.", "anchors": ["src/python/ufuncs.rs: float_power", "src/ops/dispatch.rs: dispatch_float_power, dispatch_float_power_to_f64, dispatch_float_power_complex64, ensure_contiguous"]}
{"id": "C106", "title": "Random numbers do not depend on how many are asked for at once", "statement": "For every distribution of a Generator, a call with a size gives an array of that shape whose elements, in row-major order, are the numbers that so many calls without a size give one after the other, and both leave the generator in the same state; asking for m + n numbers is asking for m and then for n; the shape only arranges the numbers. permutation of an array gives the elements of the array in another order, with the dtype kept.", "quantifier": "Every distribution, all parameters, every shape, every state of the generator and every stream of random words; every array given to permutation.", "why_tests_cant": "A seeded test compares one size, one seed and one set of parameters; that the two code paths agree for all parameters and leave the same state is a statement about all of them.", "anchors": ["src/python/random.rs: PyGenerator.random, integers, uniform, normal, exponential, permutation", "src/random/generator.rs: Generator.random, integers, uniform, normal, exponential, standard_normal, standard_exponential"]}
{"id": "C107", "title": "All functions agree on which elements of an array are true", "statement": "nonzero, argwhere, flatnonzero, count_nonzero, all, any and logical_not treat exactly the same elements as true, for every dtype and layout: for number dtypes those that are not zero (NaN counts as true, a complex number is zero only if both parts are). nonzero gives for each axis the coordinates of these elements and argwhere their indices, in row-major order; count_nonzero is the length of flatnonzero; all and any along an axis answer for each lane.", "quantifier": "Every array of every dtype, shape and layout, and every axis.", "why_tests_cant": "Tests look at real arrays; that the separate loops agree for all dtypes, including complex numbers and dates, is a statement about every dtype and every content.", "anchors": ["src/ops/mod.rs: RumpyArray.nonzero", "src/ops/indexing.rs: argwhere, flatnonzero", "src/ops/array_methods/logical.rs: count_nonzero, all, any, all_axis, any_axis", "src/array/dtype/datetime64.rs: is_truthy"]}
{"id": "C108", "title": "argmax and argmin name the right element for every dtype", "statement": "For an array of bools, integers or floats of any width, any shape and any memory layout that has at least one element and no NaN, `argmax(a)` is the first row-major position of the exactly largest element and `argmin(a)` that of the smallest, also for 64-bit integers beyond 2^53; for dates and durations the same must hold by time. The result is always a position of the array, and Python gets it exactly. Along an axis each entry is the first such position of its lane. Arrays without elements, and elements without an order, are refused.", "quantifier": "Every dtype, every shape and memory layout, every content of the array", "why_tests_cant": "The dtypes use different loops (typed contiguous, typed strided, generic through f64) with different starting values, so agreement has to be shown for all dtype and layout combinations and for values where f64 rounds; unit tests use small integers in contiguous arrays.", "anchors": ["src/ops/array_methods/reductions.rs: argmax, argmin, argmax_slow, argmin_slow, argmax_axis, argmin_axis, arg_reduce_axis_slow, ArgReducible", "src/python/reductions.rs: argmax, argmin"]}
{"id": "C109", "title": "An axis argument means the same axis in every function, and one out of range is refused", "statement": "The integer given as axis means the axis counted from the front, or from the end if it is negative, in every function and method that takes one; an integer that means no axis of the array is refused with an exception; leaving the argument out does what NumPy's default says; expand_dims and stack count the axes of the result; rot90 refuses two integers that mean one axis", "quantifier": "Every function and method of the list with an axis argument, every number of axes, every integer, None and a missing argument", "why_tests_cant": "An axis argument is any integer and the range depends on the array; a wrong cast of a negative number shows only for particular pairs, and each function reads its argument in its own way", "anchors": ["src/python/reductions.rs: resolve_axis, check_axis, nanargmin, cumsum, average", "src/python/pyarray/mod.rs: normalize_axis_option, cumsum, ptp, repeat", "src/python/indexing.rs: sort, argsort, packbits, unpackbits", "src/python/shape.rs: flip, expand_dims, stack, rot90, roll", "src/python/misc.rs: resolve_axis, unstack, unwrap", "src/array/manipulation.rs: concatenate, split, repeat, roll", "src/ops/numerical.rs: gradient, trapezoid"]}
{"id": "C110", "title": "put stores converted values at the positions meant, whatever the arguments are made of", "statement": "put(a, ind, v) and a.put(ind, v) store the values, repeated as needed and converted to the dtype of the array, at the flat positions that the indices mean (negative ones counted from the end, the last one counting where a position is named twice), keep every other element and touch no memory outside the array; an index out of range is refused and nothing is stored; numbers, tuples, lists and arrays are accepted as values", "quantifier": "Every dtype of the array, every layout, every list or array of indices and of values of every dtype", "why_tests_cant": "Indices and values pass through Python objects, f64 and i64 before they are stored; only particular integers, dtypes and argument kinds show where this loses something", "anchors": ["src/python/indexing.rs: put", "src/python/pyarray/mod.rs: put, extract_i64_vec, extract_f64_vec", "src/ops/indexing.rs: put", "src/array/mod.rs: set_element"]}
{"id": "C111", "title": "searchsorted finds where values belong across dtypes, for arrays and for Python numbers", "statement": "For a sorted one-dimensional array, searchsorted answers for each looked-for value (in an array of any other real dtype, or a Python number) the position before its equals for side=\"left\" and after them for side=\"right\", comparing the values themselves; the answer has the shape of the looked-for values, and is an integer for a number; other sides are errors.", "quantifier": "every pair of real dtypes, every sorted 1-d array in any layout, every looked-for array or Python number, both sides", "why_tests_cant": "The two operands are converted to a common dtype before the comparison and the binary search reads memory by a stride; whether rounding moves a position depends on the pair of dtypes and on the values, which tests only sample.", "anchors": ["src/ops/indexing.rs searchsorted", "src/python/indexing.rs searchsorted", "src/python/pyarray/mod.rs searchsorted", "src/python/pyarray/dunder_ops.rs __float__", "src/array/dtype/macros.rs compare_elements"]}
{"id": "C112", "title": "compress keeps the positions at which its condition is true, whatever the kind of the condition", "statement": "compress as a function and as a method keeps, without an axis, the elements of the flattened array and, with an axis, the positions of that axis at which the condition is true; a list of booleans is true where its entries are, an array of any dtype where its elements are not zero; the order is kept and an axis beyond the last is an error.", "quantifier": "every condition (list of booleans, arrays of every dtype and layout), every array, every axis", "why_tests_cant": "The function and the method read the condition by different routines (truth of the element against a conversion to f64), which agree on booleans, the only conditions that the tests use.", "anchors": ["src/python/indexing.rs compress", "src/python/pyarray/mod.rs compress", "src/ops/indexing.rs compress"]}
{"id": "C113", "title": "dot of vectors and of scalars gives the inner product and the multiple, for every dtype", "statement": "dot of two one-dimensional arrays is the sum of the products of their elements, in the common dtype: exact modulo the size of the dtype for integers, rounded for floats; vectors of different lengths are an error. dot with an array without axes multiplies each element of the other operand.", "quantifier": "all pairs of dtypes, all lengths, all layouts, all element values", "why_tests_cant": "Every element passes through a double and the sum is stored in the dtype of the first operand; tests use small floats, where nothing is lost.", "anchors": ["src/ops/dot.rs dot", "src/python/linalg.rs dot", "src/python/pyarray/mod.rs dot", "src/ops/mod.rs scalar_op", "src/array/mod.rs get_element"]}
{"id": "C114", "title": "result_type names the dtype that combining its operands gives", "statement": "result_type takes arrays, names of dtypes and Python numbers; it promotes the dtypes of its operands from left to right, can store the numbers of each, names the dtype that a sum, difference or product of two arrays (or of an array and a number) has, and refuses a call without operands and an operand that has no dtype.", "quantifier": "every list of operands: arrays of every dtype, all strings, all Python booleans, integers of any size, floats and complex numbers, other objects", "why_tests_cant": "The answer must agree with what another part of the library computes for every pair of dtypes and every kind of operand; tests compare names for a few pairs of dtypes.", "anchors": ["src/python/dtype.rs result_type", "src/python/dtype.rs extract_dtype_from_operand", "src/python/dtype.rs parse_dtype_arg", "src/ops/ufunc.rs map_binary_op_inplace", "src/ops/mod.rs scalar_op"]}
{"id": "C115", "title": "A shape means the same however it is written", "statement": "The shape for reshape (method and function) and for new arrays may be an integer, a tuple or a list of integers, and for the method also several integers; all ways to write the same lengths give the same result. The call succeeds exactly if the lengths, at most one of them left open as -1, fit the number of elements of a contiguous array; the result has that shape and the elements in the same order; the method and the function agree; negative lengths of a new array and arguments of other kinds are refused.", "quantifier": "every list of arguments (integers of any size, nested tuples and lists, other objects), every array shape", "why_tests_cant": "Two independent parsers and two independent inferences of the open length must agree on every input; tests try a few shapes in one notation each.", "anchors": ["src/python/pyarray/mod.rs parse_reshape_args_isize", "src/python/pyarray/mod.rs resolve_reshape_shape", "src/python/pyarray/mod.rs parse_shape", "src/python/shape.rs reshape"]}
{"id": "C116", "title": "insert takes values of every kind", "statement": "insert(a, i, v) accepts v as a number, a list of numbers or an array. The result is the flattened array with the values, converted to the dtype of the array, before element i; an array of the same dtype keeps its elements exactly; lists with items that are not real numbers and objects of other kinds are refused.", "quantifier": "every array and layout, every position, every number, list and array of values, every numeric dtype", "why_tests_cant": "Each kind of value takes a different path (an array of one element is first tried as a number); tests insert one or two small numbers.", "anchors": ["src/python/shape.rs insert", "src/array/manipulation.rs insert", "src/python/pyarray/dunder_ops.rs __float__"]}
{"id": "C117", "title": "shares_memory never overlooks shared elements, and base tells views", "statement": "shares_memory(x, y) and may_share_memory(x, y) are true whenever a write to an element of x can show in y, after any history of creating, viewing, writing, copying, combining and deleting arrays; they are false for a copy or the result of an operation and any array that existed before. x.base is not None for a view whose array is alive.", "quantifier": "every program of any length, every pair of its arrays, every element", "why_tests_cant": "Sharing depends on the whole history of views, copies and results; a test can only check the histories it performs.", "anchors": ["src/python/ufuncs.rs shares_memory", "src/python/ufuncs.rs may_share_memory", "src/array/mod.rs shares_buffer_with", "src/python/pyarray/mod.rs base"]}
{"id": "C118", "title": "The text of a duration says what it is", "statement": "The printed text of an element of a timedelta64 array is its number and the name of its unit, so different durations have different texts and the number and the unit can be read from the text; not-a-time is printed as NaT and nothing else is.", "quantifier": "every 64-bit number, every unit", "why_tests_cant": "There are 2^64 numbers for each of ten units; tests print a few.", "anchors": ["src/array/dtype/datetime64.rs format_timedelta64", "src/array/dtype/datetime64.rs format_element"]}
{"id": "C119", "title": "einsum_path gives a contraction path", "statement": "einsum_path(subscripts, *operands) answers with a valid path: every step names two operands that are there, and after the last step one operand remains, made from every argument exactly once. It answers exactly if the text is a subscript that fits the shapes of the operands, and refuses only what einsum refuses.", "quantifier": "every text, every number of operands and every shape, every value of optimize", "why_tests_cant": "The number of operands has no bound, and the positions in a step depend on all earlier steps.", "anchors": ["src/ops/einsum.rs einsum_path", "src/python/einsum.rs einsum_path"]}
{"id": "C120", "title": "deg2rad and rad2deg multiply by the right factor", "statement": "deg2rad (radians) and rad2deg (degrees) keep the shape of an array of bools, integers or floats and replace every element by its product with pi/180 or 180/pi, rounded once, in float32 for a float32 array and in float64 for every other; a Python number gives the product as a double.", "quantifier": "every array of a real dtype, of every shape, layout and contents (NaN and infinities included), every Python float", "why_tests_cant": "The dtype, the layout and the special values decide the path of the conversion together; tests compare a few angles up to a tolerance.", "anchors": ["src/python/ufuncs.rs deg2rad", "src/python/ufuncs.rs rad2deg", "src/python/ufuncs.rs radians", "src/python/ufuncs.rs degrees", "src/python/ufuncs.rs apply_unary"]}
{"id": "C121", "title": "The bins and the range of a histogram in several dimensions mean what they say", "statement": "histogram2d and histogramdd count the points in the boxes that their arguments mean: a number of bins is meant for every dimension, a list gives one number per dimension, ten is the default, and a range gives two limits per dimension in the order of the axes. Bins and limits without such a meaning are refused with an exception.", "quantifier": "every form of bins and range (left out, number, lists of every length, negative and huge numbers, other objects), every sample of every layout", "why_tests_cant": "The forms combine with the number of dimensions, which has no bound; tests try a list of two and a single number.", "anchors": ["src/python/reductions.rs histogram2d", "src/python/reductions.rs histogramdd", "src/ops/statistics.rs histogram2d", "src/ops/statistics.rs histogramdd"]}
{"id": "C122", "title": "A function gives the same for a number and for an array of it", "statement": "A function of one argument (abs, floor, sqrt, isnan and so on) gives for a float64 array, element by element, what it gives for the element as a Python float, a test counting as 1 or 0; and the functions with whole values give for an integer array what they give for its elements as Python integers.", "quantifier": "every function of one argument in the module, every float64 and int64 array, every element including NaN and the infinities", "why_tests_cant": "There are about forty functions and every float; tests call each function on a few numbers or on a few arrays, seldom on both.", "anchors": ["src/python/ufuncs.rs apply_unary", "src/python/ufuncs.rs sign", "src/python/ufuncs.rs rint", "src/python/ufuncs.rs isnan", "src/ops/ufunc.rs map_unary_op"]}
{"id": "C123", "title": "shape, ndim and size of nested lists", "statement": "shape(x), ndim(x) and size(x) of a nested list of numbers are the shape, the depth and the number of elements of the list when it is rectangular; for every list that is accepted ndim is the length of shape, size is its product, and size is the number of numbers in the list.", "quantifier": "every nested list, of every depth, length and mixture of bools, integers and floats, ragged ones included", "why_tests_cant": "Lists can be nested to any depth and mix kinds of numbers anywhere; tests try a few matrices.", "anchors": ["src/python/ufuncs.rs shape", "src/python/ufuncs.rs ndim", "src/python/ufuncs.rs size", "src/python/creation.rs from_list"]}
{"id": "C124", "title": "first differences of arrays of every dtype", "statement": "diff(a, axis=k) of a float array holds, at each position, the exact difference of the two neighbours along the axis rounded once to the format of the array; of an integer array it holds the exact difference when it fits in the dtype; the layout of the array makes no difference.", "quantifier": "every float and integer dtype, rank, shape, layout and axis, and all contents, NaN and infinities included", "why_tests_cant": "The subtraction is done in one of two ways depending on dtype, rank and contiguity; tests compare a few float64 vectors.", "anchors": ["src/ops/array_methods/cumulative.rs diff", "src/ops/array_methods/cumulative.rs diff_1d_contiguous", "src/ops/array_methods/cumulative.rs diff_strided"]}
