{
 "claims": [
  {
   "property": "C01",
   "status": "proved",
   "theorems": [
    "Props.C01_iter_row_major",
    "Props.C01_odometer_row_major",
    "Props.C01_axis_iter_row_major"
   ],
   "note": "Both walks and the axis iterator visit exactly the row-major enumeration for every shape and stride vector."
  },
  {
   "property": "C02",
   "status": "proved",
   "theorems": [
    "Props.C02_fresh_in_bounds",
    "Props.C02_fresh_disjoint",
    "Props.C02_fresh_covers",
    "Props.C02_fresh_in_bounds_F",
    "Props.C02_fresh_disjoint_F"
   ],
   "note": "In bounds, disjoint and covering for C-order fresh storage; in bounds and disjoint for F-order."
  },
  {
   "property": "C03",
   "status": "proved",
   "theorems": [
    "Props.C03_view_flags",
    "Props.C03_c_flag_sound",
    "Props.C03_c_flag_complete",
    "Props.C03_f_flag_sound",
    "Props.C03_f_flag_complete",
    "Props.C03_flat_read"
   ],
   "note": "Both flags are sound for all layouts and complete for non-empty arrays; a flat read of a flagged array is row-major."
  },
  {
   "property": "C04",
   "status": "partial",
   "theorems": [
    "Props.C04_slice_partial",
    "Props.C04_slice_reversed_counterexample"
   ],
   "note": "Proved for axes whose stride is not negative. Slicing an already reversed axis reads the wrong elements (counterexample theorem)."
  },
  {
   "property": "C05",
   "status": "partial",
   "theorems": [
    "Props.C05_fresh_in_buffer",
    "Props.C05_views_in_buffer_partial",
    "Props.C05_forward_programs",
    "Props.C05_flip_counterexample",
    "Props.C05_transpose_repeated_axis_counterexample"
   ],
   "note": "Every program of forward view operations is proved in bounds unconditionally; programs that slice or flip a reversed axis, or transpose with a repeated axis, leave the buffer (counterexample theorems)."
  },
  {
   "property": "C06",
   "status": "partial",
   "theorems": [
    "Props.C06_transpose",
    "Props.C06_transpose_involutive",
    "Props.C06_transpose_axes",
    "Props.C06_transpose_axes_source",
    "Props.C06_swap_order_perm",
    "Props.C06_swapaxes",
    "Props.C06_moveaxis_single_partial",
    "Props.C06_moveaxis_counterexample",
    "Props.C06_rollaxis"
   ],
   "note": "transpose, transpose with axes, swapaxes and rollaxis are proved; moveaxis is proved for a single axis and refuted for several."
  },
  {
   "property": "C07",
   "status": "partial",
   "theorems": [
    "Props.C07_flip_partial",
    "Props.C07_flip_all_partial",
    "Props.C07_flip_twice_counterexample"
   ],
   "note": "Proved for axes that are not already reversed; flipping twice is refuted."
  },
  {
   "property": "C08",
   "status": "partial",
   "theorems": [
    "Props.C08_reshape_partial",
    "Props.C08_reshape_succeeds_iff",
    "Props.C08_reshape_fortran",
    "Props.C08_reshape_fortran_counterexample",
    "Props.C08_infer_sound",
    "Props.C08_infer_complete"
   ],
   "note": "C-contiguous reshape, the success condition and -1 inference are proved; reshape of an array that is only Fortran-contiguous is refuted."
  },
  {
   "property": "C09",
   "status": "proved",
   "theorems": [
    "Props.C09_broadcast_shapes",
    "Props.C09_broadcast_comm",
    "Props.C09_broadcast_assoc",
    "Props.C09_broadcast_unit",
    "Props.C09_broadcast_least",
    "Props.C09_broadcast_many",
    "Props.C09_broadcast_to_succeeds_iff",
    "Props.C09_broadcast_to"
   ],
   "note": "Shape broadcasting is characterised, commutative, associative, least; broadcast_to succeeds exactly when it should and repeats the right elements."
  },
  {
   "property": "C10",
   "status": "partial",
   "theorems": [
    "Props.C10_expand_dims",
    "Props.C10_expand_dims_error",
    "Props.C10_squeeze_axis",
    "Props.C10_expand_squeeze",
    "Props.C10_squeeze_partial",
    "Props.C10_squeeze_all_ones_counterexample",
    "Props.C10_squeeze_all_ones"
   ],
   "note": "expand_dims, squeeze of one axis and squeeze are proved; squeeze of an all-ones shape gives (1,) (counterexample theorem)."
  },
  {
   "property": "C11",
   "status": "partial",
   "theorems": [
    "Props.C11_concatenate_succeeds_iff",
    "Props.C11_concatenate",
    "Props.C11_stack_succeeds_iff",
    "Props.C11_stack",
    "Props.C11_array_split_sizes",
    "Props.C11_split_sections_partial",
    "Props.C11_split_succeeds_iff",
    "Props.C11_split_concatenate_partial"
   ],
   "note": "concatenate and stack are proved in full for arrays of one dtype; split and array_split sections and the split/concatenate round trip are proved for axes that are not reversed (reversed axes: C04 counterexample)."
  },
  {
   "property": "C12",
   "status": "partial",
   "theorems": [
    "Props.C12_mixed_dtype_counterexample",
    "Props.C12_mixed_itemsize_counterexample",
    "Props.C12_same_itemsize_partial"
   ],
   "note": "Joining arrays of equal item size copies every byte; joining different dtypes reinterprets bytes or reads past the buffer (counterexample theorems)."
  },
  {
   "property": "C13",
   "status": "partial",
   "theorems": [
    "Props.C13_int_index",
    "Props.C13_scalar_access",
    "Props.C13_tuple_slice_forward",
    "Props.C13_tuple_slice_backward_partial",
    "Props.C13_backward_start_counterexample",
    "Props.C13_backward_empty_counterexample",
    "Props.C13_no_ellipsis",
    "Props.C13_ellipsis",
    "Props.C13_two_ellipses",
    "Props.C13_getitem_partial",
    "Props.C13_too_many_indices",
    "Props.C13_getitem_ellipsis_partial",
    "Props.C13_getint_partial",
    "Props.C13_getint_out_of_range_counterexample",
    "Props.C13_tuple_out_of_range_counterexample"
   ],
   "note": "Integer, slice and ellipsis rules and whole tuple indexing are proved for arrays with non-negative strides; out-of-range integers, negative-step slices starting off the axis and reversed empty axes are refuted (counterexample theorems)."
  },
  {
   "property": "C14",
   "status": "partial",
   "theorems": [
    "Props.C14_mask",
    "Props.C14_mask_shape_error",
    "Props.C14_indices_succeeds_iff",
    "Props.C14_indices_partial",
    "Props.C14_indices_1d",
    "Props.C14_indices_2d_counterexample",
    "Props.C14_indices_empty_row_counterexample",
    "Props.C14_take_succeeds_iff",
    "Props.C14_take_partial",
    "Props.C14_take_row_counterexample",
    "Props.C14_take_empty_counterexample",
    "Props.C14_take_no_axis_counterexample",
    "Props.C14_take_along_axis",
    "Props.C14_take_along_axis_error",
    "Props.C14_compress_flat",
    "Props.C14_compress_axis",
    "Props.C14_compress_axis_error",
    "Props.C14_flatnonzero",
    "Props.C14_argwhere",
    "Props.C14_argwhere_0d_counterexample",
    "Props.C14_nonzero",
    "Props.C14_mask_agrees"
   ],
   "note": "Proved for masks, compress, take_along_axis, flatnonzero, argwhere, nonzero. take is proved except for contiguous arrays taken along axis 0 whose first axis has length 1 or which are empty; a[idx] is proved for one-dimensional index arrays and non-empty rows. Counterexamples: take of a length-one axis copies too little, take and a[idx] store outside an empty result, a[idx] with a 2-d index array loses its shape, take without axis uses axis 0."
  },
  {
   "property": "C15",
   "status": "proved",
   "theorems": [
    "Props.C15_unary",
    "Props.C15_binary_succeeds_iff",
    "Props.C15_binary",
    "Props.C15_layout_independent"
   ],
   "note": "Unary and binary loops (empty, contiguous, one-dimensional, row-by-row) and the per-index fallback all compute f at every index of the broadcast shape, for every well-formed layout; success is exactly broadcastability."
  },
  {
   "property": "C16",
   "status": "partial",
   "theorems": [
    "Props.C16_reduce_all",
    "Props.C16_sum",
    "Props.C16_prod",
    "Props.C16_max",
    "Props.C16_min",
    "Props.C16_value_i64_partial",
    "Props.C16_value_i64_counterexample"
   ],
   "note": "sum, prod, max and min equal the plain combination for every size and layout (sum and prod modulo 2^w); the value handed to Python goes through a 53-bit float (exact up to 2^53, counterexample beyond)."
  },
  {
   "property": "C17",
   "status": "partial",
   "theorems": [
    "Props.C17_sum_of_squares_partial",
    "Props.C17_eight_elements_counterexample",
    "Props.C17_strided_counterexample",
    "Props.C17_small_int_counterexample",
    "Props.C17_complex_counterexample"
   ],
   "note": "Only fewer than eight elements, contiguous or 1-d; counterexamples for eight elements, strided 2-d arrays, small integers and complex arrays."
  },
  {
   "property": "C18",
   "status": "partial",
   "theorems": [
    "Props.C18_reduce_axis_partial",
    "Props.C18_reduce_axis",
    "Props.C18_layout_independent",
    "Props.C18_shape_counterexample",
    "Props.C18_fallback_partial",
    "Props.C18_fallback_counterexample"
   ],
   "note": "All three typed paths and the fallback fold every lane; a 1-d input gives shape (1,) and the fallback gives 0 on an empty axis (counterexample theorems)."
  },
  {
   "property": "C19",
   "status": "partial",
   "theorems": [
    "Props.C19_argmax",
    "Props.C19_argmin",
    "Props.C19_layout_independent",
    "Props.C19_nan_counterexample",
    "Props.C19_argmax_axis_partial",
    "Props.C19_argmin_axis_partial",
    "Props.C19_axis_fault_iff",
    "Props.C19_axis_fault_counterexample",
    "Props.C19_argmax_axis_slow",
    "Props.C19_argmin_axis_slow"
   ],
   "note": "Full for flat argmax/argmin over a total order and for the generic axis path. On the typed axis path proved whenever the call returns; the exact condition for the memory fault is proved. NaN layout dependence proved as a counterexample."
  },
  {
   "property": "C20",
   "status": "partial",
   "theorems": [
    "Props.C20_cumulative_flat",
    "Props.C20_cumulative_axis",
    "Props.C20_cumulative_generic",
    "Props.C20_cumsum_values",
    "Props.C20_diff_partial",
    "Props.C20_diff_i64_partial",
    "Props.C20_diff_unsigned_counterexample",
    "Props.C20_diff_i64_counterexample",
    "Props.C20_diff_shape_counterexample",
    "Props.C20_diff_cumsum",
    "Props.C20_include_initial",
    "Props.C20_round_trip",
    "Props.C20_include_initial_in_bounds_partial",
    "Props.C20_include_initial_counterexample"
   ],
   "note": "cumsum/cumprod (flat, both axis paths, generic and NaN-skipping path) proved for every layout and operation; round trips with diff proved in any commutative group. diff proved where its subtraction is exact; counterexamples for unsigned and large integers on strided arrays, for shapes with another empty axis, and for stores outside an empty result with include_initial."
  },
  {
   "property": "C21",
   "status": "partial",
   "theorems": [
    "Props.C21_argsort",
    "Props.C21_argsort_returns_iff",
    "Props.C21_sort_partial",
    "Props.C21_sorted_partial",
    "Props.C21_sort_i64_partial",
    "Props.C21_sort_counterexample",
    "Props.C21_argsort_flat_partial",
    "Props.C21_flat_panics_iff",
    "Props.C21_flat_counterexample",
    "Props.C21_lexsort_succeeds_iff",
    "Props.C21_lexsort"
   ],
   "note": "argsort, argsort results and lexsort are proved for every layout and axis. sort is proved for values that survive the round trip through f64 (int64 up to 2^53); beyond that a counterexample is proved. axis=None is proved for C-contiguous arrays, with the exact panic condition and a counterexample for Fortran order. NaN is excluded (keys in a linear order)."
  },
  {
   "property": "C22",
   "status": "partial",
   "theorems": [
    "Props.C22_method_partial",
    "Props.C22_method_error_iff",
    "Props.C22_method_counterexample",
    "Props.C22_argpartition_method",
    "Props.C22_partition",
    "Props.C22_argpartition",
    "Props.C22_panics_iff"
   ],
   "note": "The quickselect loop and both axis functions are proved for all inputs; select_nth_unstable_by is used by its documented contract. The partition method stores through f64, so it is proved for values that survive this; a counterexample is proved beyond. NaN is excluded."
  },
  {
   "property": "C23",
   "status": "partial",
   "theorems": [
    "Props.C23_unique_partial",
    "Props.C23_unique_i64_partial",
    "Props.C23_unique_f64_partial",
    "Props.C23_unique_counterexample",
    "Props.C23_unique_i64_counterexample",
    "Props.C23_unique_all_partial"
   ],
   "note": "unique and unique_all are proved for every layout when equal values and only those are within EPSILON and elements survive f64; corollaries for integers up to 2^53 and for floats at least EPSILON apart. Counterexamples: close floats, infinities, large integers. NaN is excluded."
  },
  {
   "property": "C24",
   "status": "partial",
   "theorems": [
    "Props.C24_intersect1d",
    "Props.C24_union1d",
    "Props.C24_setdiff1d",
    "Props.C24_setxor1d",
    "Props.C24_i64_counterexample",
    "Props.C24_isin_partial",
    "Props.C24_isin_counterexample",
    "Props.C24_in1d_partial",
    "Props.C24_in1d_strided_partial",
    "Props.C24_in1d_counterexample"
   ],
   "note": "The four merges are proved exactly on the values read as f64; isin is proved when equal values have equal bit patterns; in1d for C-contiguous arrays. Counterexamples: large integers, signed zero, NaN, Fortran order."
  },
  {
   "property": "C25",
   "status": "partial",
   "theorems": [
    "Props.C25_searchsorted",
    "Props.C25_searchsorted_error",
    "Props.C25_digitize_increasing",
    "Props.C25_digitize_decreasing_partial",
    "Props.C25_digitize_decreasing_counterexample"
   ],
   "note": "searchsorted is proved in full for a sorted array over any linear order; digitize is proved for increasing bins, and for decreasing bins with the two sides exchanged (counterexample theorem). NaN is outside the model."
  },
  {
   "property": "C26",
   "status": "partial",
   "theorems": [
    "Props.C26_unravel",
    "Props.C26_unravel_error",
    "Props.C26_unravel_0d_counterexample",
    "Props.C26_ravel",
    "Props.C26_ravel_raise",
    "Props.C26_ravel_clip",
    "Props.C26_ravel_wrap",
    "Props.C26_ravel_empty_axis_counterexample",
    "Props.C26_ravel_unravel",
    "Props.C26_unravel_ravel"
   ],
   "note": "Round trips, errors and the raise, clip and wrap modes are proved; unravel_index of a 0-d shape and clip/wrap into a zero-length axis panic (counterexample theorems)."
  },
  {
   "property": "C27",
   "status": "proved",
   "theorems": [
    "Props.C27_packbits",
    "Props.C27_unpack_pack",
    "Props.C27_pack_unpack",
    "Props.C27_unpack_pack_axis"
   ],
   "note": "Flat and per-axis packing, lengths, zero padding and both round trips are proved for both bit orders."
  },
  {
   "property": "C28",
   "status": "partial",
   "theorems": [
    "Props.C28_idem",
    "Props.C28_promote",
    "Props.C28_holds_partial",
    "Props.C28_holds_counterexample",
    "Props.C28_symm_partial",
    "Props.C28_asymmetric_iff",
    "Props.C28_counterexample",
    "Props.C28_result_type_counterexample",
    "Props.C28_result_type_partial"
   ],
   "note": "For the 14 numeric dtypes the result is proved to be the first dtype in NumPy's order that stores both operands (value sets as rationals), independent of operand order. Counterexamples: dates, durations, strings, three operands, and 64-bit integers that become floats (as in NumPy). The exact condition for order dependence is proved for all dtypes."
  },
  {
   "property": "C29",
   "status": "partial",
   "theorems": [
    "Props.C29_date_iff_partial",
    "Props.C29_next",
    "Props.C29_days",
    "Props.C29_roundtrip",
    "Props.C29_roundtrip_date",
    "Props.C29_counterexample"
   ],
   "note": "Day number and calendar date agree exactly for all days but the last 719468 representable ones, where the code wraps; stated against an inductive successor calendar."
  },
  {
   "property": "C30",
   "status": "partial",
   "theorems": [
    "Props.C30_finer",
    "Props.C30_coarser_iff",
    "Props.C30_counterexample",
    "Props.C30_overflow_counterexample",
    "Props.C30_floor_partial",
    "Props.C30_nat",
    "Props.C30_spec_total"
   ],
   "note": "Exact for conversions to shorter units without overflow, flooring for non-negative times; before 1970 the code truncates towards zero (exact condition proved, counterexample)."
  },
  {
   "property": "C31",
   "status": "partial",
   "theorems": [
    "Props.C31_roundtrip_partial",
    "Props.C31_nat",
    "Props.C31_counterexample",
    "Props.C31_negative_years",
    "Props.C31_month_counterexample"
   ],
   "note": "Printing then parsing gives the same value for units down to milliseconds and non-negative years; microsecond and finer fractions can lose one tick (counterexample)."
  },
  {
   "property": "C32",
   "status": "partial",
   "theorems": [
    "Props.C32_same_unit_partial",
    "Props.C32_nat_iff",
    "Props.C32_nat_counterexample",
    "Props.C32_units_iff",
    "Props.C32_units_counterexample"
   ],
   "note": "Right for equal units without NaT and overflow; exact conditions proved for NaT operands and for different units, both usually wrong (counterexamples)."
  },
  {
   "property": "C33",
   "status": "partial",
   "theorems": [
    "Props.C33_wrap",
    "Props.C33_div_zero",
    "Props.C33_divmod_unsigned",
    "Props.C33_panic_iff",
    "Props.C33_divmod_signed_partial",
    "Props.C33_counterexample",
    "Props.C33_maxmin",
    "Props.C33_pow_partial",
    "Props.C33_pow_counterexample",
    "Props.C33_mixed_partial",
    "Props.C33_mixed_counterexample"
   ],
   "note": "Wrap-around arithmetic, unsigned division, division by zero, min/max and the exact panic condition are proved; signed floor division, powers and mixed dtypes only where the code agrees with the property, with the exact condition and counterexamples."
  },
  {
   "property": "C34",
   "status": "partial",
   "theorems": [
    "Props.C34_bits",
    "Props.C34_shift_partial",
    "Props.C34_shift_modulo",
    "Props.C34_shift_counterexample",
    "Props.C34_mixed_read_iff",
    "Props.C34_mixed_counterexample",
    "Props.C34_stored_partial"
   ],
   "note": "Bitwise operations are proved for all widths; shifts for amounts below the width, mixed dtypes where the narrower operand's following bytes are zero, with counterexamples otherwise."
  },
  {
   "property": "C35",
   "status": "proved",
   "theorems": [
    "Props.C35_step_bijective",
    "Props.C35_period_iff",
    "Props.C35_reaches_all",
    "Props.C35_equidistributed",
    "Props.C35_stream"
   ],
   "note": "State update bijective for every increment; period exactly 2^128 and every state reached for odd increments; every 64-bit output 2^64 times per period. The backend from the crate rand_pcg used for seeds is not modelled."
  },
  {
   "property": "C36",
   "status": "proved",
   "theorems": [
    "Props.C36_random",
    "Props.C36_unit_interval"
   ],
   "note": "random() is k/2^53 with k below 2^53, each k from 2^11 outputs. uniform(low, high) with rounding is not modelled."
  },
  {
   "property": "C37",
   "status": "partial",
   "theorems": [
    "Props.C37_unbiased",
    "Props.C37_terminates",
    "Props.C37_integers_partial",
    "Props.C37_counterexample"
   ],
   "note": "bounded_uint64 is in range, exactly unbiased and terminates; integers() for bounds up to 2^53, with counterexamples beyond and for high <= low."
  },
  {
   "property": "C38",
   "status": "partial",
   "theorems": [
    "Props.C38_shuffle",
    "Props.C38_one_choice",
    "Props.C38_permutation",
    "Props.C38_array_partial",
    "Props.C38_vector_partial",
    "Props.C38_succeeds",
    "Props.C38_counterexample"
   ],
   "note": "Fisher-Yates returns permutations, one choice sequence per arrangement, always ends; python shuffle for contiguous float64 arrays only, with a counterexample for views with gaps."
  },
  {
   "property": "C39",
   "status": "partial",
   "theorems": [
    "Props.C39_round_trip_partial",
    "Props.C39_embedded_nul_counterexample",
    "Props.C39_bytes_round_trip_partial",
    "Props.C39_store",
    "Props.C39_list",
    "Props.C39_bytes_list",
    "Props.C39_nested_list_partial",
    "Props.C39_nested_cut_counterexample",
    "Props.C39_ragged_counterexample",
    "Props.C39_compare",
    "Props.C39_bytes_compare",
    "Props.C39_truth_partial",
    "Props.C39_truth_width_counterexample",
    "Props.C39_copy",
    "Props.C39_bytes_copy"
   ],
   "note": "Round trip, chosen widths, comparison, truth values and copies are proved for strings without NULs and lists whose first row is widest; the other cases are counterexamples."
  },
  {
   "property": "C40",
   "status": "partial",
   "theorems": [
    "Props.C40_parse_accepts",
    "Props.C40_parse_rejects_partial",
    "Props.C40_parse_counterexample",
    "Props.C40_resolve_iff",
    "Props.C40_resolve_shape",
    "Props.C40_call_partial",
    "Props.C40_call_counterexample",
    "Props.C40_call_stride_counterexample"
   ],
   "note": "Signature texts, dimension resolution and result shapes are proved for all inputs; calls are proved for operands with no or all loop axes and loop strides that are not negative. Counterexamples: malformed signatures accepted, loop axes aligned from the left, negative loop offsets clamped."
  },
  {
   "property": "C41",
   "status": "partial",
   "theorems": [
    "Props.C41_parse",
    "Props.C41_accepts_iff",
    "Props.C41_one_partial",
    "Props.C41_one_implicit",
    "Props.C41_multi_partial",
    "Props.C41_output_order_counterexample",
    "Props.C41_summed_order_counterexample",
    "Props.C41_batch_counterexample",
    "Props.C41_lone_summed_counterexample",
    "Props.C41_repeated_counterexample",
    "Props.C41_empty_sum_counterexample",
    "Props.C41_one_repeated_counterexample",
    "Props.C41_repeated_output_counterexample",
    "Props.C41_last_step_counterexample",
    "Props.C41_column_major_counterexample",
    "Props.C41_pair_partial"
   ],
   "note": "The text of a subscript, acceptance, and Einstein sums of one, two and more operands are proved; the cases the code gets wrong are excluded by hypotheses and shown as counterexamples."
  },
  {
   "property": "C42",
   "status": "partial",
   "theorems": [
    "Props.C42_kron_partial",
    "Props.C42_kron_refused_iff",
    "Props.C42_kron_counterexample",
    "Props.C42_tensordot_partial",
    "Props.C42_tensordot_vectors_partial",
    "Props.C42_tensordot_refused",
    "Props.C42_tensordot_counterexample",
    "Props.C42_matmul_partial",
    "Props.C42_matmul_accepts_iff",
    "Props.C42_vecmat_partial",
    "Props.C42_matvec_partial",
    "Props.C42_vecvec_partial",
    "Props.C42_matmul_bool",
    "Props.C42_matmul_zeros_counterexample",
    "Props.C42_matmul_mixed_counterexample",
    "Props.C42_matmul_squeeze_counterexample",
    "Props.C42_matrix_power_partial",
    "Props.C42_matrix_power_rejects",
    "Props.C42_matrix_power_counterexample",
    "Props.C42_multi_dot",
    "Props.C42_inner_partial",
    "Props.C42_inner_shape_counterexample",
    "Props.C42_inner_dtype_counterexample",
    "Props.C42_inner_in_bounds_iff",
    "Props.C42_outer_partial",
    "Props.C42_outer_accepts_iff",
    "Props.C42_outer_fortran_counterexample",
    "Props.C42_outer_in_bounds_iff",
    "Props.C42_dot_partial",
    "Props.C42_dot_dtype_counterexample",
    "Props.C42_vdot",
    "Props.C42_cross"
   ],
   "note": "matmul, matrix-vector products, bool products, inner, outer, dot, vdot, kron, cross, matrix_power, multi_dot and tensordot against sums of products. Third-party float products are taken as the sum of products; rounding is not modelled. Counterexamples for dtypes without a branch, mixed dtypes, lost unit axes, float64 stores, shapes and refused axes."
  },
  {
   "property": "C43",
   "status": "partial",
   "theorems": [
    "Props.C43_repeat_flat",
    "Props.C43_repeat_axis_partial",
    "Props.C43_repeat_axis_error",
    "Props.C43_repeat_zero_counterexample",
    "Props.C43_repeat_wide_counterexample",
    "Props.C43_roll_axis_partial",
    "Props.C43_roll_axis_counterexample",
    "Props.C43_roll_flat_partial",
    "Props.C43_roll_fortran_counterexample",
    "Props.C43_tile_partial",
    "Props.C43_tile_ones_counterexample",
    "Props.C43_pad_succeeds_iff",
    "Props.C43_pad_constant_partial",
    "Props.C43_pad_edge_partial",
    "Props.C43_pad_edge_counterexample",
    "Props.C43_rot90_partial",
    "Props.C43_four_turns",
    "Props.C43_rot90_counterexample"
   ],
   "note": "repeat, tile, pad, roll and rot90 are proved for dtypes whose elements survive the trip through f64 and views without reversed axes; zero repetitions, missing axes, Fortran order, all-one tiles and empty edges are refuted by counterexamples."
  },
  {
   "property": "C44",
   "status": "partial",
   "theorems": [
    "Props.C44_append_flat_partial",
    "Props.C44_append_axis",
    "Props.C44_append_axis_succeeds_iff",
    "Props.C44_append_fortran_counterexample",
    "Props.C44_insert_flat_partial",
    "Props.C44_insert_negative_counterexample",
    "Props.C44_insert_range_counterexample",
    "Props.C44_insert_axis_partial",
    "Props.C44_insert_scalar_counterexample",
    "Props.C44_delete_flat_partial",
    "Props.C44_delete_axis_partial",
    "Props.C44_delete_range_counterexample"
   ],
   "note": "append along an axis is proved in full; flattened append, insert and delete are proved for positions in range and arrays flattened in row-major order; negative insert positions, out-of-range positions, Fortran order and broadcast values are refuted."
  },
  {
   "property": "C45",
   "status": "partial",
   "theorems": [
    "Props.C45_history_partial",
    "Props.C45_spec_store",
    "Props.C45_spec_alloc",
    "Props.C45_elision_never",
    "Props.C45_copy_fresh",
    "Props.C45_write_elsewhere",
    "Props.C45_result_independent",
    "Props.C45_view_write_partial",
    "Props.C45_setitem_scalar_partial",
    "Props.C45_setitem_int",
    "Props.C45_setitem_slice",
    "Props.C45_setitem_array_partial",
    "Props.C45_meaning_unique",
    "Props.C45_progress_partial",
    "Props.C45_overlap_counterexample",
    "Props.C45_array_shares_counterexample",
    "Props.C45_sort_view_counterexample",
    "Props.C45_assign_row_counterexample",
    "Props.C45_setitem_outside_counterexample"
   ],
   "note": "History theorem: for any program of creations, views, element and array assignments, fills, copies, binary operations and deletions, all arrays hold what the sharing rules say. Missing: overlapping assignment, reversed axes and the views excluded in C04/C08/C10, with counterexamples; item assignment proved for keys in range."
  },
  {
   "property": "C46",
   "status": "partial",
   "theorems": [
    "Props.C46_save_load_partial",
    "Props.C46_truncated_rejected",
    "Props.C46_accepted_starts",
    "Props.C46_file_layout",
    "Props.C46_newline_counterexample",
    "Props.C46_column_major_mixed",
    "Props.C46_column_major_counterexample",
    "Props.C46_text_counterexample",
    "Props.C46_loaded_in_bounds_partial",
    "Props.C46_overflow_counterexample",
    "Props.C46_wrong_header_counterexample",
    "Props.C46_frombuffer",
    "Props.C46_frombuffer_counterexample",
    "Props.C46_tofile_fromfile"
   ],
   "note": "Round trip proved for every layout except column-major-only arrays, and for every dtype except text; what happens to column-major arrays is proved exactly. Truncated files are rejected; loaded arrays lie inside the bytes read unless the byte count wraps. tofile/fromfile and frombuffer proved. Counterexamples: column-major order, text, missing newline, overflow, wrong headers."
  },
  {
   "property": "C47",
   "status": "partial",
   "theorems": [
    "Props.C47_convolve_full",
    "Props.C47_convolve_partial",
    "Props.C47_convolve_comm",
    "Props.C47_convolve_assoc",
    "Props.C47_correlate_partial",
    "Props.C47_convolve_error_iff",
    "Props.C47_window_counterexample",
    "Props.C47_empty_counterexample",
    "Props.C47_polyval",
    "Props.C47_polyder",
    "Props.C47_polyint",
    "Props.C47_polyder_polyint",
    "Props.C47_polyint_constants_partial",
    "Props.C47_polyint_constants_counterexample",
    "Props.C47_roots_partial",
    "Props.C47_roots_complex_counterexample",
    "Props.C47_roots_small_counterexample",
    "Props.C47_polyfit_partial",
    "Props.C47_polyfit_weights_counterexample"
   ],
   "note": "convolve (full mode, both algorithms) is the product of polynomials; same/valid windows when the second operand is not longer; polyval, polyder, polyint, their round trip; polyfit minimises the sum of squares (QR by contract); linear and quadratic roots. Degrees of three and more in roots (iteration) are not modelled. Windows, empty operands, polyint constants, weights and complex roots have counterexamples. Arithmetic is exact, in a field."
  },
  {
   "property": "C48",
   "status": "partial",
   "theorems": [
    "Props.C48_percentile_unique",
    "Props.C48_percentile_mono",
    "Props.C48_percentile_bounds",
    "Props.C48_median_is_percentile",
    "Props.C48_percentile_flat_partial",
    "Props.C48_percentile_axis_partial",
    "Props.C48_percentile_refused_iff",
    "Props.C48_quantile",
    "Props.C48_percentile_counterexample",
    "Props.C48_nanpercentile_flat",
    "Props.C48_nanpercentile_axis_partial",
    "Props.C48_median",
    "Props.C48_nanmedian",
    "Props.C48_median_axis_partial",
    "Props.C48_nanmedian_axis_partial",
    "Props.C48_median_counterexample"
   ],
   "note": "percentile/quantile/nanpercentile/nanmedian/median, flat and along an axis, for every layout: the value is the linear-interpolation percentile of the sorted values (unique, monotone, bounded). Proved to fail for empty arrays/axes, where the code returns 0 instead of NaN. Exact rational arithmetic; NaN input to the non-nan versions excluded."
  },
  {
   "property": "C49",
   "status": "partial",
   "theorems": [
    "Props.C49_bincount",
    "Props.C49_bincount_total",
    "Props.C49_bincount_refused_iff",
    "Props.C49_bincount_counterexample",
    "Props.C49_histogram_partial",
    "Props.C49_histogram_total_partial",
    "Props.C49_histogram_panic_iff",
    "Props.C49_histogram_counterexample",
    "Props.C49_histogram_no_bins_counterexample",
    "Props.C49_histogram2d_partial",
    "Props.C49_histogramdd_partial",
    "Props.C49_histogramdd_counterexample",
    "Props.C49_histogramdd_refused_iff"
   ],
   "note": "bincount counts every value and nothing else; histogram, histogram2d and histogramdd count every sample in its bin, edges are equally spaced, densities integrate to one. Proved to fail for constant data (zero width), for no bins (panic), for NaN in histogramdd, and bincount accepts fractions. Exact rational arithmetic."
  },
  {
   "property": "C50",
   "status": "partial",
   "theorems": [
    "Props.C50_tril_indices",
    "Props.C50_triu_indices",
    "Props.C50_tril_triu_partition",
    "Props.C50_diag_indices",
    "Props.C50_tri",
    "Props.C50_eye",
    "Props.C50_tril",
    "Props.C50_triu",
    "Props.C50_triangle_succeeds_iff",
    "Props.C50_triangles_partition",
    "Props.C50_diagflat",
    "Props.C50_diagonal_partial",
    "Props.C50_diagonal_counterexample",
    "Props.C50_trace",
    "Props.C50_diag_partial",
    "Props.C50_diag_diag",
    "Props.C50_diag_in_bounds_iff",
    "Props.C50_diag_counterexample"
   ],
   "note": "tri, eye, tril, triu, diagflat, tril_indices, triu_indices, diag_indices and trace are proved for every size, offset and layout. diagonal is proved for matrices and diag for float64; the code violates the property for other inputs (C50_diagonal_counterexample, C50_diag_counterexample, C50_diag_in_bounds_iff)."
  },
  {
   "property": "C51",
   "status": "partial",
   "theorems": [
    "Props.C51_gcd_unsigned",
    "Props.C51_lcm_unsigned",
    "Props.C51_gcd_signed",
    "Props.C51_gcd_signed_partial",
    "Props.C51_lcm_signed",
    "Props.C51_counterexample",
    "Props.C51_array_partial",
    "Props.C51_array_counterexample"
   ],
   "note": "Scalar gcd/lcm for all operands (gcd up to sign when an operand is the smallest value); array versions only for contiguous operands of equal shape and dtype, with counterexamples."
  },
  {
   "property": "C52",
   "status": "partial",
   "theorems": [
    "Props.C52_put",
    "Props.C52_put_every_index",
    "Props.C52_put_error",
    "Props.C52_put_no_values_counterexample",
    "Props.C52_put_along_axis",
    "Props.C52_put_along_axis_error_counterexample",
    "Props.C52_choose_succeeds_iff",
    "Props.C52_choose",
    "Props.C52_clip",
    "Props.C52_where_succeeds_iff",
    "Props.C52_where_partial",
    "Props.C52_where_contiguous_partial",
    "Props.C52_where_strided_counterexample",
    "Props.C52_where_float_counterexample"
   ],
   "note": "put, put_along_axis, choose, clip and one-byte-condition where are proved; put without values panics, put_along_axis leaves stores after an error, and a strided where condition wider than a byte is misread (counterexample theorems)."
  },
  {
   "property": "C53",
   "status": "partial",
   "theorems": [
    "Props.C53_arange",
    "Props.C53_arange_length",
    "Props.C53_arange_zero_step_counterexample",
    "Props.C53_arange_int_partial",
    "Props.C53_arange_one_argument",
    "Props.C53_arange_default_dtype_counterexample",
    "Props.C53_linspace",
    "Props.C53_linspace_store",
    "Props.C53_logspace",
    "Props.C53_geomspace_succeeds_iff",
    "Props.C53_geomspace",
    "Props.C53_indices",
    "Props.C53_indices_nil",
    "Props.C53_fromfunction",
    "Props.C53_meshgrid_partial",
    "Props.C53_meshgrid_succeeds_iff",
    "Props.C53_meshgrid_counterexample"
   ],
   "note": "Exact arithmetic (rationals, reals for logspace and geomspace): float rounding is not modelled. arange without a dtype is proved for integers, meshgrid for contiguous vectors; the code violates the property otherwise (C53_arange_default_dtype_counterexample, C53_arange_zero_step_counterexample, C53_meshgrid_counterexample)."
  },
  {
   "property": "C54",
   "status": "partial",
   "theorems": [
    "Props.C54_find",
    "Props.C54_rfind",
    "Props.C54_index",
    "Props.C54_rindex",
    "Props.C54_count",
    "Props.C54_str_len",
    "Props.C54_startswith_partial",
    "Props.C54_startswith_counterexample",
    "Props.C54_endswith",
    "Props.C54_start_counterexample",
    "Props.C54_partition",
    "Props.C54_rpartition",
    "Props.C54_join",
    "Props.C54_replace_partial",
    "Props.C54_replace_empty_counterexample",
    "Props.C54_strip_partial",
    "Props.C54_strip_counterexample",
    "Props.C54_strip_chars_counterexample",
    "Props.C54_ljust_partial",
    "Props.C54_rjust_partial",
    "Props.C54_zfill_partial",
    "Props.C54_center_partial",
    "Props.C54_center_counterexample",
    "Props.C54_expandtabs_partial",
    "Props.C54_multiply_partial",
    "Props.C54_add_partial",
    "Props.C54_compare_partial",
    "Props.C54_strided_counterexample"
   ],
   "note": "find, rfind, index, rindex, count, str_len, endswith, partition, rpartition and join are proved in full; startswith, replace, strip and the functions reading only contiguous arrays under hypotheses, with counterexamples outside them."
  },
  {
   "property": "C55",
   "status": "partial",
   "theorems": [
    "Props.C55_fftshift",
    "Props.C55_ifftshift",
    "Props.C55_inverse",
    "Props.C55_inverse_left",
    "Props.C55_axes_counterexample",
    "Props.C55_fftfreq",
    "Props.C55_increasing",
    "Props.C55_rfftfreq"
   ],
   "note": "fftshift and ifftshift are rolls and undo each other for one and two axes; more axes are rejected (counterexample). Shifted frequencies are increasing."
  },
  {
   "property": "C56",
   "status": "partial",
   "theorems": [
    "Props.C56_nan_reduce",
    "Props.C56_nanmax_partial",
    "Props.C56_nanmax_counterexample"
   ],
   "note": "nansum and nanprod in full; nanmax unless the largest number is -inf (counterexample)."
  },
  {
   "property": "C57",
   "status": "proved",
   "theorems": [
    "Props.C57_copy"
   ],
   "note": "All copying paths of copy and of astype to the same dtype give the same shape and elements; the fast 8-byte path needs strides that are multiples of the item size, which every constructor and view operation keeps."
  },
  {
   "property": "C58",
   "status": "partial",
   "theorems": [
    "Props.C58_safe_partial",
    "Props.C58_unsafe_iff",
    "Props.C58_safe_counterexample",
    "Props.C58_safe_promote",
    "Props.C58_rules_ordered_partial",
    "Props.C58_equiv_counterexample"
   ],
   "note": "Safe casting is proved equal to inclusion of value sets except integer-to-complex; the exact list of wrong answers is proved. equiv is stricter than safe in the documentation but not in the code (counterexample)."
  },
  {
   "property": "C59",
   "status": "partial",
   "theorems": [
    "Props.C59_names_partial",
    "Props.C59_lengths_partial",
    "Props.C59_counterexample",
    "Props.C59_byteorder_counterexample"
   ],
   "note": "Proved for every dtype without a length, and for lengths written out; counterexamples for names of string dtypes and big-endian dates."
  },
  {
   "property": "C60",
   "status": "partial",
   "theorems": [
    "Props.C60_is_busday",
    "Props.C60_count_partial",
    "Props.C60_count_counterexample",
    "Props.C60_offset_partial",
    "Props.C60_offset_ends",
    "Props.C60_offset_counterexample"
   ],
   "note": "is_busday proved; busday_count for a <= b; busday_offset gives the k-th business day; termination proved forward when a weekday is marked. Counterexamples for reversed counts and empty calendars."
  },
  {
   "property": "C61",
   "status": "partial",
   "theorems": [
    "Props.C61_compare_partial",
    "Props.C61_counterexample"
   ],
   "note": "Right for equal or longer second units without NaT; counterexamples otherwise."
  },
  {
   "property": "C62",
   "status": "proved",
   "theorems": [
    "Props.C62_choice",
    "Props.C62_succeeds"
   ],
   "note": "choice(n, k, replace=False) gives k distinct indices below n for every stream, and succeeds exactly for 0 < n and k <= n."
  },
  {
   "property": "C63",
   "status": "partial",
   "theorems": [
    "Props.C63_fftn",
    "Props.C63_fftn_error_iff",
    "Props.C63_ifftn",
    "Props.C63_ifftn_fftn",
    "Props.C63_ifft_fft",
    "Props.C63_rfft",
    "Props.C63_irfft_rfft",
    "Props.C63_irfft_panic_iff",
    "Props.C63_hfft_ihfft",
    "Props.C63_rfftn",
    "Props.C63_irfftn_rfftn_partial",
    "Props.C63_irfftn_odd_counterexample",
    "Props.C63_hfft_odd_counterexample"
   ],
   "note": "fftn/rfftn are the transform along the axes and ifftn undoes it for all shapes; real inverses are proved for even lengths, odd lengths are a counterexample for irfftn and hfft. Exact arithmetic; one lane of rustfft is taken by contract."
  },
  {
   "property": "C64",
   "status": "partial",
   "theorems": [
    "Props.C64_gradient_partial",
    "Props.C64_gradient_all_partial",
    "Props.C64_gradient_error_iff",
    "Props.C64_gradient_exact",
    "Props.C64_gradient_coords_partial",
    "Props.C64_gradient_float32_counterexample",
    "Props.C64_gradient_transposed_counterexample",
    "Props.C64_gradient_store_counterexample",
    "Props.C64_gradient_short_counterexample",
    "Props.C64_gradient_coords_counterexample",
    "Props.C64_trapezoid_partial",
    "Props.C64_trapezoid_refused_iff",
    "Props.C64_trapezoid_coords_counterexample",
    "Props.C64_interp_partial",
    "Props.C64_interp_unique",
    "Props.C64_interp_ends_counterexample",
    "Props.C64_interp_empty_counterexample"
   ],
   "note": "gradient for inputs whose other strides match a fresh float64 array, exactness on quadratics, its errors; coordinates with equal intervals; trapezoid for every layout; interp for every layout, with uniqueness on increasing points. The remaining layouts, unequal intervals, ignored coordinates and end points have counterexamples. Arithmetic is exact, in a field."
  },
  {
   "property": "C65",
   "status": "partial",
   "theorems": [
    "Props.C65_spec_widest",
    "Props.C65_str_page",
    "Props.C65_repr_page",
    "Props.C65_str_tokens",
    "Props.C65_layout",
    "Props.C65_str_injective",
    "Props.C65_repr_injective",
    "Props.C65_int_text",
    "Props.C65_int_array",
    "Props.C65_float_text_partial",
    "Props.C65_float_counterexample",
    "Props.C65_empty_counterexample",
    "Props.C65_string_counterexample"
   ],
   "note": "Exact layout, reading back as a nested list, layout independence and injectivity are proved for all shapes; integers exactly, floats to half a unit of the eighth digit. Counterexamples: numbers below 5e-9 print as 0., empty arrays lose their shape, quotes in strings are not escaped. NaN, infinities, complex numbers and dates as elements are not modelled as numbers (the theorems hold for any element texts that are single words)."
  },
  {
   "property": "C66",
   "status": "partial",
   "theorems": [
    "Props.C66_along_axis_range",
    "Props.C66_along_axis_scalar",
    "Props.C66_along_axis_blocks",
    "Props.C66_along_axis_last_partial",
    "Props.C66_along_axis_first_axis_counterexample",
    "Props.C66_along_axis_dtype_counterexample",
    "Props.C66_along_axis_empty_counterexample",
    "Props.C66_over_axes",
    "Props.C66_over_axes_range",
    "Props.C66_vectorize",
    "Props.C66_vectorize_raises",
    "Props.C66_vectorize_mismatch",
    "Props.C66_vectorize_objects",
    "Props.C66_frompyfunc_partial",
    "Props.C66_frompyfunc_arity",
    "Props.C66_frompyfunc_zero_dim_counterexample",
    "Props.C66_vectorize_signature_partial",
    "Props.C66_vectorize_signature_counterexample",
    "Props.C66_vectorize_signature_empty_counterexample"
   ],
   "note": "scalar results along any axis, reductions over axes, vectorize and frompyfunc proved for every function and every mix of arguments; the code puts array results at the end instead of at the axis, stores results in the dtype of the array, gives frompyfunc of a 0-d array an extra axis and does not broadcast operands of a signature (counterexamples)"
  },
  {
   "property": "C67",
   "status": "partial",
   "theorems": [
    "Props.C67_det",
    "Props.C67_det_accepts",
    "Props.C67_slogdet_partial",
    "Props.C67_slogdet_empty_counterexample",
    "Props.C67_inv_partial",
    "Props.C67_inv_accepts",
    "Props.C67_inv_singular_counterexample",
    "Props.C67_qr",
    "Props.C67_factor_accepts",
    "Props.C67_svd",
    "Props.C67_eigh",
    "Props.C67_cholesky",
    "Props.C67_eig",
    "Props.C67_square_only",
    "Props.C67_solve_matrix_partial",
    "Props.C67_solve_vector_partial",
    "Props.C67_solve_accepts",
    "Props.C67_solve_int_counterexample",
    "Props.C67_solve_float32_counterexample",
    "Props.C67_tensorinv_partial",
    "Props.C67_tensorsolve_partial",
    "Props.C67_tensorinv_fortran_counterexample",
    "Props.C67_tensorinv_default_counterexample",
    "Props.C67_tensorsolve_axes_counterexample"
   ],
   "note": "det, qr, svd, eigh, eig and cholesky hold as stated, given the contracts of the factorisation library and exact arithmetic. slogdet fails for the empty matrix, inv and solve accept singular matrices, solve stores float64 bits in the dtype of A, tensorinv is wrong for column-major arrays, tensorsolve refuses axes: counterexamples proved, the rest proved as _partial."
  },
  {
   "property": "C68",
   "status": "partial",
   "theorems": [
    "Props.C68_vector_one",
    "Props.C68_vector_inf",
    "Props.C68_vector_neg_inf",
    "Props.C68_vector_zero",
    "Props.C68_vector_p",
    "Props.C68_vector_two_partial",
    "Props.C68_empty_counterexample",
    "Props.C68_unknown_ord_counterexample",
    "Props.C68_norm_dispatch",
    "Props.C68_matrix_one",
    "Props.C68_matrix_inf",
    "Props.C68_matrix_fro_partial",
    "Props.C68_matrix_two",
    "Props.C68_matrix_nuc",
    "Props.C68_matrix_accepts",
    "Props.C68_cond",
    "Props.C68_cond_accepts",
    "Props.C68_matrix_rank",
    "Props.C68_pinv",
    "Props.C68_lstsq",
    "Props.C68_lstsq_empty",
    "Props.C68_lstsq_accepts",
    "Props.C68_cond_minus_two_counterexample"
   ],
   "note": "2-norm and Frobenius norm only where C17 holds; empty arrays, unknown orders on 1-D arrays and cond of order -2 differ from NumPy (counterexamples). The other norms, cond, matrix_rank, pinv and lstsq are proved in full over an ordered field, given the library contract and a separating tolerance."
  },
  {
   "property": "C69",
   "status": "partial",
   "theorems": [
    "Props.C69_compare_accepts",
    "Props.C69_compare",
    "Props.C69_compare_float",
    "Props.C69_compare_int",
    "Props.C69_compare_bool",
    "Props.C69_compare_mixed_partial",
    "Props.C69_compare_mixed_counterexample",
    "Props.C69_swap",
    "Props.C69_compare_scalar_partial",
    "Props.C69_compare_scalar_counterexample",
    "Props.C69_complex_eq",
    "Props.C69_complex_order_counterexample",
    "Props.C69_compare_string_counterexample",
    "Props.C69_logical",
    "Props.C69_logical_not",
    "Props.C69_all_any",
    "Props.C69_de_morgan",
    "Props.C69_axis_partial",
    "Props.C69_axis_counterexample",
    "Props.C69_isclose",
    "Props.C69_allclose",
    "Props.C69_allclose_rejects",
    "Props.C69_array_equal",
    "Props.C69_array_equal_float",
    "Props.C69_close_counterexample"
   ],
   "note": "Element-wise comparison, logical functions, all/any/count_nonzero, isclose, allclose and array_equal are proved for all layouts and dtypes. The code violates the property for large integers against floats, complex ordering, strings, complex closeness, empty axes of int8/datetime and 0-d/1-d result shapes (counterexamples)."
  },
  {
   "property": "C70",
   "status": "partial",
   "theorems": [
    "Props.C70_elementwise",
    "Props.C70_astype_partial",
    "Props.C70_round_trip_partial",
    "Props.C70_int_to_float",
    "Props.C70_time",
    "Props.C70_narrow_counterexample",
    "Props.C70_wide_counterexample",
    "Props.C70_complex_counterexample",
    "Props.C70_text_counterexample"
   ],
   "note": "Element-wise conversion for every layout and every real dtype pair is proved with exactness, rounding, truncation and truth rules, for integers up to 2^53 that fit the target. Wrapping of integers, 64-bit integers, complex numbers and strings are counterexamples."
  },
  {
   "property": "C71",
   "status": "partial",
   "theorems": [
    "Props.C71_extract_partial",
    "Props.C71_extract_rejects",
    "Props.C71_extract_counterexample",
    "Props.C71_place_partial",
    "Props.C71_putmask_partial",
    "Props.C71_place_untyped_counterexample",
    "Props.C71_putmask_overlap_counterexample",
    "Props.C71_select_partial",
    "Props.C71_select_rejects",
    "Props.C71_select_broadcast_counterexample",
    "Props.C71_piecewise_partial",
    "Props.C71_piecewise_counterexample",
    "Props.C71_resize",
    "Props.C71_unstack_partial",
    "Props.C71_unstack_rejects",
    "Props.C71_unstack_counterexample",
    "Props.C71_ediff1d_partial"
   ],
   "note": "Proved for every layout with bool conditions and the ordinary dtypes: extract, place, putmask (values elsewhere in memory), select (equal shapes), piecewise (conditions that exclude each other), resize, unstack (forward axes) and ediff1d. The code violates the rest: counterexamples for conditions of other dtypes, complex elements, overlapping values, broadcasting in select, overlapping conditions in piecewise and reversed axes in unstack."
  },
  {
   "property": "C72",
   "status": "partial",
   "theorems": [
    "Props.C72_axis",
    "Props.C72_axes_accepted",
    "Props.C72_axes_rejected",
    "Props.C72_axes_partial",
    "Props.C72_all_axes_partial",
    "Props.C72_mean_axes_partial",
    "Props.C72_all_axes_counterexample",
    "Props.C72_repeated_counterexample",
    "Props.C72_mean",
    "Props.C72_moment",
    "Props.C72_var",
    "Props.C72_moment_axis_partial",
    "Props.C72_var_vector_counterexample",
    "Props.C72_var_axes_counterexample",
    "Props.C72_mean_int_counterexample",
    "Props.C72_keepdims_partial",
    "Props.C72_keepdims_whole",
    "Props.C72_keepdims_vector_counterexample",
    "Props.C72_keepdims_mean_counterexample"
   ],
   "note": "Whole-array mean, variance and moments hold in every layout; axis arguments are accepted exactly when in range; tuples of distinct axes agree with the joint reduction for sums, products, extrema and means. The code leaves shape (1,) for all axes, accepts repeated axes, does not reduce the variance of a vector along its axis, and takes variances of variances; each is proved as a counterexample."
  },
  {
   "property": "C73",
   "status": "partial",
   "theorems": [
    "Props.C73_ndindex",
    "Props.C73_ndindex_stops",
    "Props.C73_ndenumerate_partial",
    "Props.C73_ix_partial",
    "Props.C73_ix_rejects",
    "Props.C73_ix_counterexample",
    "Props.C73_points_partial",
    "Props.C73_points_counterexample",
    "Props.C73_spaced_partial",
    "Props.C73_grid",
    "Props.C73_grid_single",
    "Props.C73_fill_partial",
    "Props.C73_fill_wrap_partial",
    "Props.C73_fill_rejects",
    "Props.C73_fill_values_counterexample",
    "Props.C73_fill_shape_counterexample",
    "Props.C73_unravel_array_partial",
    "Props.C73_unravel_array_counterexample",
    "Props.C73_multi_index",
    "Props.C73_diag_indices_from",
    "Props.C73_mask_indices_partial",
    "Props.C73_mask_indices_counterexample"
   ],
   "note": "ndindex, grids, ravel_multi_index and diag_indices_from are proved in full. Missing because the code violates them: strided arguments of ix_, fill_diagonal and unravel_index, fractional grid steps, vector masks; counterexamples are proved."
  },
  {
   "property": "C74",
   "status": "partial",
   "theorems": [
    "Props.C74_exclusive",
    "Props.C74_program_order",
    "Props.C74_serial_partial",
    "Props.C74_valid",
    "Props.C74_stream",
    "Props.C74_no_deadlock_partial",
    "Props.C74_terminates",
    "Props.C74_poisoned",
    "Props.C74_poison_counterexample",
    "Props.C74_deadlock_counterexample",
    "Props.C74_words",
    "Props.C74_bounded"
   ],
   "note": "Mutual exclusion, program order, serial results, the undivided stream and termination are proved for every schedule. Missing because the code violates them: calls after a panic (the lock is poisoned) and arguments with a Python __index__ (deadlock); both are proved as counterexamples."
  },
  {
   "property": "C75",
   "status": "partial",
   "theorems": [
    "Props.C75_lines",
    "Props.C75_split",
    "Props.C75_words",
    "Props.C75_load",
    "Props.C75_data_lines",
    "Props.C75_genfromtxt",
    "Props.C75_saved_rows",
    "Props.C75_round_trip_partial",
    "Props.C75_shape_counterexample",
    "Props.C75_shape_partial",
    "Props.C75_inline_comment_counterexample",
    "Props.C75_usecols_counterexample",
    "Props.C75_usecols_partial",
    "Props.C75_separated",
    "Props.C75_separated_counterexample",
    "Props.C75_format_partial",
    "Props.C75_format_counterexample"
   ],
   "note": "Proved: which lines and fields are read, acceptance iff, genfromtxt, savetxt/loadtxt and tofile/fromfile round trips under the contract parse (fmt x) = x. The code departs from NumPy in the shape of one-row and empty files, comments after numbers, missing columns and formats with a width; each has a counterexample."
  },
  {
   "property": "C76",
   "status": "partial",
   "theorems": [
    "Props.C76_uniform",
    "Props.C76_laplace_partial",
    "Props.C76_logistic_partial",
    "Props.C76_rayleigh",
    "Props.C76_infinite_counterexample",
    "Props.C76_multinomial_law",
    "Props.C76_deals",
    "Props.C76_multinomial_partial",
    "Props.C76_multinomial_counterexample",
    "Props.C76_dirichlet",
    "Props.C76_factor_partial",
    "Props.C76_covariance_partial",
    "Props.C76_semidefinite_counterexample",
    "Props.C76_zipf_law",
    "Props.C76_zipf_support",
    "Props.C76_vonmises_accepts",
    "Props.C76_vonmises_partial",
    "Props.C76_vonmises_round",
    "Props.C76_vonmises_support",
    "Props.C76_vonmises_law_counterexample",
    "Props.C76_vonmises_best_fisher",
    "Props.C76_vonmises_wrap_counterexample",
    "Props.C76_choice"
   ],
   "note": "Proved: the laws of uniform, rayleigh, laplace and logistic (draws in (0,1)), multinomial, dirichlet shares, the factor and the covariance for positive definite matrices, the law of a zipf round, unbiased choice. Violated: vonmises has the wrong law and support, semi-definite covariances, draws of zero, panics of multinomial. Draws of rand_distr enter by contract and rounding is not modelled."
  },
  {
   "property": "C77",
   "status": "partial",
   "theorems": [
    "Props.C77_cov",
    "Props.C77_cov_nan",
    "Props.C77_cov_vector_partial",
    "Props.C77_cov_vector_nan",
    "Props.C77_cov_semidefinite",
    "Props.C77_constant",
    "Props.C77_corrcoef_partial",
    "Props.C77_correlation",
    "Props.C77_corrcoef_counterexample",
    "Props.C77_average_partial",
    "Props.C77_average_bounds",
    "Props.C77_average_axis_partial",
    "Props.C77_average_counterexample"
   ],
   "note": "Covariance matrices of the rows, their symmetry and semi-definiteness, NaN for too few observations, correlations of rows that are not constant and their bounds, and weighted means with weights of the same shape are proved for all layouts and sizes. The code violates the rest: constant rows, vectors, other ranks, and weights of another shape (counterexamples). Floats are elements of a field or real numbers."
  },
  {
   "property": "C78",
   "status": "partial",
   "theorems": [
    "Props.C78_sum_axis",
    "Props.C78_sum_axes_partial",
    "Props.C78_mean",
    "Props.C78_var",
    "Props.C78_mean_axis",
    "Props.C78_mean_numbers",
    "Props.C78_mean_axes_counterexample",
    "Props.C78_empty_counterexample",
    "Props.C78_max_axis_partial",
    "Props.C78_min_axis_partial",
    "Props.C78_max_counterexample",
    "Props.C78_argmax_partial",
    "Props.C78_argmin_partial",
    "Props.C78_argmax_axis_partial",
    "Props.C78_argmin_axis_partial",
    "Props.C78_arg_axis_refused",
    "Props.C78_arg_counterexample"
   ],
   "note": "Sums, products, means, variances, extremes and positions of the numbers are proved for whole arrays and along axes, in any layout, and sums and products over several axes. The code violates the rest: means and variances over several axes, lanes of NaN for extremes and positions, infinities taken for NaN, empty axes and vectors (counterexamples). Floats are elements of a field or of a linear order, with NaN apart."
  },
  {
   "property": "C79",
   "status": "partial",
   "theorems": [
    "Props.C79_unwrap",
    "Props.C79_unwrap_short",
    "Props.C79_unwrap_axis",
    "Props.C79_unwrap_unique",
    "Props.C79_unwrap_bounded",
    "Props.C79_unwrap_recovers",
    "Props.C79_unwrap_smooth",
    "Props.C79_unwrap_numpy_partial",
    "Props.C79_unwrap_counterexample",
    "Props.C79_trim_zeros_partial",
    "Props.C79_trim_zeros_ndim",
    "Props.C79_trim_zeros_counterexample",
    "Props.C79_angle",
    "Props.C79_angle_real_partial",
    "Props.C79_angle_counterexample",
    "Props.C79_real_if_close_partial",
    "Props.C79_real_if_close_counterexample"
   ],
   "note": "unwrap, angle proved for all inputs; NumPy's rule for unwrap at odd multiples of half a period, trim_zeros of reversed views and complex numbers, angle of NaN and real_if_close with NaN or small tolerances are refuted."
  },
  {
   "property": "C80",
   "status": "partial",
   "theorems": [
    "Props.C80_array_ints",
    "Props.C80_array_floats",
    "Props.C80_array_bools",
    "Props.C80_array_empty",
    "Props.C80_array_dtype_partial",
    "Props.C80_array_dtype_counterexample",
    "Props.C80_array_keeps_all",
    "Props.C80_array_counterexample",
    "Props.C80_tolist_partial",
    "Props.C80_tolist_shape",
    "Props.C80_tolist_counterexample",
    "Props.C80_list_array_list",
    "Props.C80_array_list_array",
    "Props.C80_int_array_list_array",
    "Props.C80_array_list_array_counterexample",
    "Props.C80_item_partial",
    "Props.C80_item_counterexample"
   ],
   "note": "Rectangular lists of integers, of floats (first) and of truth values become exactly the array with their shape and numbers, and both round trips hold; false for mixed lists, ragged lists, complex numbers, tuples, and for tolist of large uint64, truth values and complex numbers (counterexamples)."
  },
  {
   "property": "C81",
   "status": "partial",
   "theorems": [
    "Props.C81_round_float",
    "Props.C81_round_numpy_partial",
    "Props.C81_round_counterexample",
    "Props.C81_round_laws",
    "Props.C81_round_int_same",
    "Props.C81_round_int_partial",
    "Props.C81_round_int_counterexample",
    "Props.C81_round_complex",
    "Props.C81_complex_counterexample",
    "Props.C81_clip_float",
    "Props.C81_clip_int_partial",
    "Props.C81_clip_counterexample"
   ],
   "note": "Float rounding is to the nearest, ties away from zero; integers towards zero when the power fits; clip exact for floats and for whole bounds on integers. False at ties, for integers to tens, for fractional or large bounds and for complex arrays (counterexamples)."
  },
  {
   "property": "C82",
   "status": "partial",
   "theorems": [
    "Props.C82_typestr",
    "Props.C82_unsupported",
    "Props.C82_import_partial",
    "Props.C82_import_reads",
    "Props.C82_big_endian_counterexample",
    "Props.C82_dtype_counterexample",
    "Props.C82_typestr_counterexample",
    "Props.C82_round_trip_partial",
    "Props.C82_round_trip_counterexample"
   ],
   "note": "Little-endian arrays of every dtype and stride are taken over exactly, reading only their own bytes, and the round trip holds except for strings; false for big-endian arrays, for dtype=, for strings and for malformed typestr (counterexamples)."
  },
  {
   "property": "C83",
   "status": "partial",
   "theorems": [
    "Props.C83_copyto_partial",
    "Props.C83_copyto_where_partial",
    "Props.C83_copyto_same",
    "Props.C83_copyto_error",
    "Props.C83_overlap_counterexample",
    "Props.C83_values_counterexample",
    "Props.C83_casting_counterexample",
    "Props.C83_ascontiguous_partial",
    "Props.C83_asfortran_partial",
    "Props.C83_require_partial",
    "Props.C83_layout_counterexample",
    "Props.C83_require_counterexample"
   ],
   "note": "copyto (with and without mask, any strides, broadcasting) and the layout functions do what is promised for arrays without common memory and real values within 2^53; false for overlapping arrays, complex and large integers, refused casts, 0-d arrays and the other requirements (counterexamples)."
  },
  {
   "property": "C84",
   "status": "partial",
   "theorems": [
    "Props.C84_patterns",
    "Props.C84_frexp",
    "Props.C84_frexp_special",
    "Props.C84_spacing_partial",
    "Props.C84_spacing_nan",
    "Props.C84_spacing_counterexample",
    "Props.C84_modf_partial",
    "Props.C84_modf_counterexample",
    "Props.C84_ldexp_partial",
    "Props.C84_ldexp_counterexample",
    "Props.C84_heaviside_partial",
    "Props.C84_heaviside_counterexample",
    "Props.C84_array_partial",
    "Props.C84_ldexp_array_partial",
    "Props.C84_heaviside_array_partial",
    "Props.C84_array_counterexample",
    "Props.C84_broadcast_counterexample"
   ],
   "note": "frexp is proved for every float, spacing for every finite float below the largest (as the distance to the next larger float), modf for finite floats, ldexp for exponents up to the bias, heaviside for all but NaN; the rest violates the property, and strided views and broadcasting are wrong (counterexamples)."
  },
  {
   "property": "C85",
   "status": "partial",
   "theorems": [
    "Props.C85_sqrt",
    "Props.C85_arcsin",
    "Props.C85_arccos",
    "Props.C85_arcsinh",
    "Props.C85_arccosh_partial",
    "Props.C85_arccosh_counterexample",
    "Props.C85_arctanh",
    "Props.C85_sign",
    "Props.C85_exp2",
    "Props.C85_mixed_partial",
    "Props.C85_pow_counterexample",
    "Props.C85_abs",
    "Props.C85_extrema",
    "Props.C85_order_counterexample",
    "Props.C85_nan_to_num",
    "Props.C85_nan_to_num_default",
    "Props.C85_parts"
   ],
   "note": "Proved for every complex number in exact arithmetic, with the sign of zeros: sqrt, arcsin, arccos, arcsinh, arctanh, sign, exp2, products, quotients; arccosh for positive real part; powers except 0**0; maximum/minimum/fmax/fmin, nan_to_num, real/imag/conj in full. Violated: arccosh with negative real part, 0**0, order of sort, max and min reductions."
  },
  {
   "property": "C86",
   "status": "partial",
   "theorems": [
    "Props.C86_sqrt",
    "Props.C86_log_base",
    "Props.C86_log",
    "Props.C86_arcsin",
    "Props.C86_arccos",
    "Props.C86_arctanh_partial",
    "Props.C86_arctanh_counterexample",
    "Props.C86_complex",
    "Props.C86_dtype_partial",
    "Props.C86_dtype_counterexample",
    "Props.C86_logn",
    "Props.C86_power"
   ],
   "note": "Proved for every view of real numbers with NaN: sqrt, log, log2, log10, arcsin, arccos, logn and power return real arrays exactly under the stated condition and principal values in every element; arctanh when no element is 1 or -1; the dtype except for 8- and 16-bit integers. Violated: arctanh of 1, complex dtype of small integers."
  },
  {
   "property": "C87",
   "status": "partial",
   "theorems": [
    "Props.C87_names",
    "Props.C87_promote_types",
    "Props.C87_iinfo",
    "Props.C87_iinfo_refused_partial",
    "Props.C87_iinfo_counterexample",
    "Props.C87_finfo_partial",
    "Props.C87_finfo_resolution",
    "Props.C87_finfo_refused",
    "Props.C87_finfo16_counterexample",
    "Props.C87_finfo32_counterexample",
    "Props.C87_issubdtype_partial",
    "Props.C87_issubdtype_counterexample",
    "Props.C87_isdtype_partial",
    "Props.C87_isdtype_counterexample",
    "Props.C87_common_type_partial",
    "Props.C87_common_type_counterexample"
   ],
   "note": "Names, promote_types, iinfo of integers, refusals and resolution of finfo in full; finfo of float32 and float64, issubdtype, isdtype and common_type in the cases where the code agrees with NumPy, with counterexamples for the others."
  },
  {
   "property": "C88",
   "status": "partial",
   "theorems": [
    "Props.C88_weekmask_names_partial",
    "Props.C88_weekmask_digits",
    "Props.C88_weekmask_counterexample",
    "Props.C88_calendar",
    "Props.C88_default",
    "Props.C88_isnat",
    "Props.C88_is_busday_array_partial",
    "Props.C88_is_busday_array_counterexample",
    "Props.C88_lists_partial",
    "Props.C88_lists_counterexample"
   ],
   "note": "Digit masks, default calendar and isnat in full; masks of names with Monday or Tuesday, is_busday for days, lists of equal length; counterexamples for the rest."
  },
  {
   "property": "C89",
   "status": "partial",
   "theorems": [
    "Props.C89_windows",
    "Props.C89_tapers",
    "Props.C89_i0_partial",
    "Props.C89_i0_even",
    "Props.C89_i0_counterexample",
    "Props.C89_kaiser_symmetric",
    "Props.C89_kaiser_peak",
    "Props.C89_kaiser_partial",
    "Props.C89_sinc",
    "Props.C89_arrays_partial",
    "Props.C89_arrays_counterexample"
   ],
   "note": "bartlett, hanning, hamming and blackman are proved in full (formula, symmetry, range); kaiser is symmetric, positive and peaks at 1, and follows the formula within 3.3e-7 for shape parameters below 3.75; i0 is within 1.6e-7 of the power series below 3.75 but not accurate to double precision (counterexample); sinc is proved for scalars and contiguous arrays, with a counterexample for strided ones. Larger arguments of i0 are modelled but their accuracy is not proved."
  },
  {
   "property": "C90",
   "status": "partial",
   "theorems": [
    "Props.C90_flat_iterator",
    "Props.C90_flat_index",
    "Props.C90_resize_partial",
    "Props.C90_resize_wide_counterexample",
    "Props.C90_repeat_flat",
    "Props.C90_repeat_axis_partial",
    "Props.C90_view_iff",
    "Props.C90_view_partial",
    "Props.C90_view_back",
    "Props.C90_view_counterexample",
    "Props.C90_tobytes"
   ],
   "note": "The flat iterator (any history of writes between calls), flat indexing, repeat without an axis and tobytes are proved in full; resize and repeat along an axis for elements a float holds exactly (counterexample for wide integers); view is proved to keep the bytes and to be undone by viewing back, with an exact condition for success, but refuses arrays NumPy accepts (counterexample)."
  },
  {
   "property": "C91",
   "status": "partial",
   "theorems": [
    "Props.C91_zeros_partial",
    "Props.C91_release_iff",
    "Props.C91_zeros_fits",
    "Props.C91_zeros_counterexample",
    "Props.C91_negative",
    "Props.C91_resize_negative_counterexample",
    "Props.C91_store_counterexample",
    "Props.C91_store_checked",
    "Props.C91_reshape_partial",
    "Props.C91_reshape_counterexample"
   ],
   "note": "Proved in full for builds with overflow checks; for release builds the exact condition is proved (C91_release_iff) and the property fails beyond it, with concrete arrays outside their buffers for zeros, resize, repeat and reshape. Negative lengths are refused by parse_shape but not by resize (counterexample)."
  },
  {
   "property": "C92",
   "status": "partial",
   "theorems": [
    "Props.C92_atleast_partial",
    "Props.C92_atleast_counterexample",
    "Props.C92_vstack_partial",
    "Props.C92_hstack_partial",
    "Props.C92_column_stack_partial",
    "Props.C92_dstack_partial",
    "Props.C92_stack_counterexample",
    "Props.C92_stack_scalar_counterexample",
    "Props.C92_splits_partial",
    "Props.C92_broadcast_arrays",
    "Props.C92_expand_dims",
    "Props.C92_flip_partial",
    "Props.C92_reshape_partial",
    "Props.C92_reshape_counterexample"
   ],
   "note": "atleast_nd, stacks, splits, broadcast_arrays, expand_dims, flip and reshape proved for arrays in one piece; false for strided vectors, single values and lengths below -1"
  },
  {
   "property": "C93",
   "status": "partial",
   "theorems": [
    "Props.C93_fmod",
    "Props.C93_remainder_partial",
    "Props.C93_remainder_counterexample",
    "Props.C93_floor_divide_partial",
    "Props.C93_floor_divide_counterexample",
    "Props.C93_divide_counterexample",
    "Props.C93_maximum",
    "Props.C93_fmax",
    "Props.C93_half_exact",
    "Props.C93_half_arithmetic",
    "Props.C93_half_nearest",
    "Props.C93_mixed_arithmetic_partial",
    "Props.C93_sign",
    "Props.C93_rint_partial",
    "Props.C93_rint_counterexample",
    "Props.C93_logaddexp_partial",
    "Props.C93_logaddexp2_partial",
    "Props.C93_logaddexp_counterexample",
    "Props.C93_nextafter_partial",
    "Props.C93_nextafter_mixed_partial",
    "Props.C93_nextafter_counterexample",
    "Props.C93_nextafter_mixed_counterexample",
    "Props.C93_bool_partial",
    "Props.C93_bool_counterexample"
   ],
   "note": "Correct rounding of float16 and mixed arithmetic, fmod, maximum, fmax, sign are proved in full; remainder, floor_divide, rint, logaddexp, nextafter and bool arithmetic only where the code agrees with NumPy, with counterexamples for the rest."
  },
  {
   "property": "C94",
   "status": "partial",
   "theorems": [
    "Props.C94_upper_partial",
    "Props.C94_lower_partial",
    "Props.C94_swapcase_partial",
    "Props.C94_capitalize_partial",
    "Props.C94_title_partial",
    "Props.C94_ascii_partial",
    "Props.C94_upper_counterexample",
    "Props.C94_lower_counterexample",
    "Props.C94_isalpha_partial",
    "Props.C94_isdigit_partial",
    "Props.C94_isdecimal_partial",
    "Props.C94_isnumeric_partial",
    "Props.C94_isalnum_partial",
    "Props.C94_isspace_partial",
    "Props.C94_isupper_partial",
    "Props.C94_istitle_partial",
    "Props.C94_kinds_counterexample"
   ],
   "note": "All five case functions are Python's on characters with one-to-one mappings (all of ASCII included), all nine predicates on the characters where Rust's tables and Python's agree; counterexamples for the others."
  },
  {
   "property": "C95",
   "status": "partial",
   "theorems": [
    "Props.C95_result_type_partial",
    "Props.C95_functions_partial",
    "Props.C95_integers",
    "Props.C95_abs_panics",
    "Props.C95_float_exact",
    "Props.C95_square_reciprocal",
    "Props.C95_tests_partial",
    "Props.C95_integer_tests",
    "Props.C95_integer_counterexample",
    "Props.C95_bool_counterexample",
    "Props.C95_type_counterexample",
    "Props.C95_scalar_counterexample"
   ],
   "note": "Result dtypes, exactness of the whole-number and float functions, single rounding of square and reciprocal, and the tests are proved for all shapes and layouts. The code violates the property for eight functions of integer arrays, for tests of bool arrays, for isreal/iscomplex and for abs of complex arrays (counterexamples). The accuracy of the libm functions is not modelled."
  },
  {
   "property": "C96",
   "status": "partial",
   "theorems": [
    "Props.C96_error_iff",
    "Props.C96_type_partial",
    "Props.C96_integers",
    "Props.C96_mixed_integers_partial",
    "Props.C96_panic_iff",
    "Props.C96_floor_unsigned",
    "Props.C96_floats",
    "Props.C96_maximum",
    "Props.C96_div_zero_partial",
    "Props.C96_scalar_integers_partial",
    "Props.C96_scalar_floats_partial",
    "Props.C96_scalar_division_partial",
    "Props.C96_function_partial",
    "Props.C96_scalar_counterexample",
    "Props.C96_scalar_shape_counterexample",
    "Props.C96_function_counterexample",
    "Props.C96_type_counterexample",
    "Props.C96_mixed_counterexample"
   ],
   "note": "fails for Python numbers the array's dtype cannot store, rank 0 arrays, functions with numbers, bool quotients and mixed float division by zero (counterexamples proved); pow and signed floor division only through C33"
  },
  {
   "property": "C97",
   "status": "partial",
   "theorems": [
    "Props.C97_error_iff_partial",
    "Props.C97_error_counterexample",
    "Props.C97_type",
    "Props.C97_bits_partial",
    "Props.C97_shift_partial",
    "Props.C97_shift_counterexample",
    "Props.C97_bools",
    "Props.C97_not",
    "Props.C97_outside_buffer",
    "Props.C97_scalar_partial",
    "Props.C97_scalar_shift_partial",
    "Props.C97_scalar_counterexample",
    "Props.C97_scalar_outside_buffer",
    "Props.C97_scalar_uint64"
   ],
   "note": "Proved: errors, dtype, bits of equal-sized operands, bools, inversion, shifts below the width, int64 arrays with Python integers up to 2^53. Refuted: operands of different sizes (reads outside the buffer), most dtypes with Python integers, large shift amounts, empty floats, dates and text."
  },
  {
   "property": "C98",
   "status": "partial",
   "theorems": [
    "Props.C98_save_succeeds_iff",
    "Props.C98_other_files",
    "Props.C98_failed_save_counterexample",
    "Props.C98_load_succeeds_iff",
    "Props.C98_loaded",
    "Props.C98_round_trip_partial",
    "Props.C98_name_counterexample",
    "Props.C98_extension_counterexample",
    "Props.C98_single"
   ],
   "note": "Round trip for all names not ending in .npy and all arrays C46 restores; what is loaded is characterised for every set of names. False for names ending in .npy, for paths not ending in .npz and for the file left by a failed save, with counterexamples."
  },
  {
   "property": "C99",
   "status": "partial",
   "theorems": [
    "Props.C99_block_partial",
    "Props.C99_flat",
    "Props.C99_row_counterexample",
    "Props.C99_vectors_counterexample",
    "Props.C99_depth_counterexample"
   ],
   "note": "Correct, with exact success condition, for arrays whose rank is their depth. Counterexamples for other ranks and for mixed depths."
  },
  {
   "property": "C100",
   "status": "partial",
   "theorems": [
    "Props.C100_pad_partial",
    "Props.C100_pad_accepts",
    "Props.C100_pad_refused_counterexample",
    "Props.C100_pad_accepted_counterexample",
    "Props.C100_tile",
    "Props.C100_tensordot_axes",
    "Props.C100_tensordot_counterexample",
    "Props.C100_take_partial",
    "Props.C100_take_counterexample",
    "Props.C100_take_axis_counterexample"
   ],
   "note": "tile exact; pad and tensordot agree with NumPy where they accept a form NumPy knows; forms refused or wrongly accepted (pairs per axis for 2-D pad, lists, float indices of take, negative axes of take) are proved as counterexamples"
  },
  {
   "property": "C101",
   "status": "partial",
   "theorems": [
    "Props.C101_where_succeeds_iff",
    "Props.C101_where_partial",
    "Props.C101_where_int8",
    "Props.C101_where_large_counterexample",
    "Props.C101_where_complex_counterexample",
    "Props.C101_where_scalar_counterexample",
    "Props.C101_choose_succeeds_iff",
    "Props.C101_choose_partial",
    "Props.C101_choose_counterexample",
    "Props.C101_choose_outside_buffer",
    "Props.C101_choose_index_counterexample"
   ],
   "note": "where proved for all pairs of different real dtypes and for int8 with integers up to 2^53; choose proved for choices of one dtype; larger integers, complex operands, Python numbers and choices of different dtypes are counterexamples"
  },
  {
   "property": "C102",
   "status": "partial",
   "theorems": [
    "Props.C102_integers_partial",
    "Props.C102_small_integers_counterexample",
    "Props.C102_integer_extremes_partial",
    "Props.C102_empty_counterexample",
    "Props.C102_bool_partial",
    "Props.C102_bool_sum_counterexample",
    "Props.C102_float_sum",
    "Props.C102_float_sum_exact",
    "Props.C102_float_extremes_partial",
    "Props.C102_nan_counterexample",
    "Props.C102_complex_counterexample",
    "Props.C102_axis_integers_partial",
    "Props.C102_axis_float_sum",
    "Props.C102_mean_integers_partial",
    "Props.C102_mean_counterexample",
    "Props.C102_mean_axis_partial",
    "Props.C102_mean_axis_counterexample"
   ],
   "note": "Integer totals that fit, float error bounds, extremes without NaN, means of integers whose sum fits; wrong for small integers, bool sums, complex arrays, NaN and empty arrays (counterexamples)."
  },
  {
   "property": "C103",
   "status": "partial",
   "theorems": [
    "Props.C103_rows_partial",
    "Props.C103_never_ends_counterexample",
    "Props.C103_past_the_end_counterexample",
    "Props.C103_reversed_counterexample",
    "Props.C103_truth_counterexample",
    "Props.C103_contains_counterexample",
    "Props.C103_float",
    "Props.C103_int_partial",
    "Props.C103_int_counterexample"
   ],
   "note": "Rows in order for arrays without reversed axes, float(a), and int(a) up to 53 bits; iteration never ends, truth and membership are always True (counterexamples)."
  },
  {
   "property": "C104",
   "status": "partial",
   "theorems": [
    "Props.C104_accepts",
    "Props.C104_exact",
    "Props.C104_which",
    "Props.C104_order_partial",
    "Props.C104_order_counterexample",
    "Props.C104_number_partial",
    "Props.C104_number_counterexample",
    "Props.C104_dates_partial",
    "Props.C104_dates_counterexample",
    "Props.C104_complex_equal_partial",
    "Props.C104_complex_counterexample"
   ],
   "note": "Proved: exact comparison for every pair of real dtypes whose common dtype holds both, one-sided soundness for all pairs, Python numbers with integers up to 2^53, dates with the finer unit on the left, equality of complex arrays of one dtype. The rest is refuted by counterexamples."
  },
  {
   "property": "C105",
   "status": "partial",
   "theorems": [
    "Props.C105_accepts",
    "Props.C105_real_partial",
    "Props.C105_complex_partial",
    "Props.C105_numbers",
    "Props.C105_bool_counterexample",
    "Props.C105_complex_counterexample",
    "Props.C105_scalar_counterexample"
   ],
   "note": "real dtypes are proved in full except two bool arrays (refused, counterexample); complex64 with complex128 loses the first (counterexample)"
  },
  {
   "property": "C106",
   "status": "partial",
   "theorems": [
    "Props.C106_sizes_partial",
    "Props.C106_split",
    "Props.C106_shape",
    "Props.C106_exponential_scales",
    "Props.C106_exponential_counterexample",
    "Props.C106_negative_counterexample",
    "Props.C106_infinite_counterexample",
    "Props.C106_permutation_partial",
    "Props.C106_permutation_counterexample"
   ],
   "note": "For normal with a finite scale, exponential with a scale that survives two divisions (powers of two do), and all other distributions with accepted parameters, a call with a size is the scalar call repeated, with the same final state; splitting and reshaping hold for all parameters; permutation gives the elements as doubles in one dimension. Counterexamples: exponential(49), negative and infinite scales, permutation of a matrix."
  },
  {
   "property": "C107",
   "status": "partial",
   "theorems": [
    "Props.C107_numbers",
    "Props.C107_dates",
    "Props.C107_nonzero_partial",
    "Props.C107_complex_counterexample",
    "Props.C107_nat_counterexample",
    "Props.C107_axis_partial"
   ],
   "note": "count_nonzero, flatnonzero, argwhere, all, any and logical_not agree for all number dtypes and for dates; nonzero agrees for real dtypes; all and any along an axis for number dtypes (int8 only along a non-empty axis). Counterexamples: nonzero of complex arrays, NaT."
  },
  {
   "property": "C108",
   "status": "partial",
   "theorems": [
    "Props.C108_reals",
    "Props.C108_dates_partial",
    "Props.C108_dates_counterexample",
    "Props.C108_unordered",
    "Props.C108_complex_counterexample",
    "Props.C108_nan_counterexample",
    "Props.C108_empty",
    "Props.C108_index",
    "Props.C108_axis_partial"
   ],
   "note": "Proved for bools, integers and floats of every width without NaN, whole array; for dates within 2^53. Refuted for larger dates, complex numbers, NaN and empty arrays. Along an axis proved for bool, int8 and float16; the other dtypes are in C19, where the strided case reads invalid memory."
  },
  {
   "property": "C109",
   "status": "partial",
   "theorems": [
    "Props.C109_signed",
    "Props.C109_front",
    "Props.C109_refused_partial",
    "Props.C109_panic_counterexample",
    "Props.C109_ignored_counterexample",
    "Props.C109_negative_counterexample",
    "Props.C109_default_partial",
    "Props.C109_argsort_counterexample",
    "Props.C109_cumulative_counterexample",
    "Props.C109_expand_dims",
    "Props.C109_stack_partial",
    "Props.C109_stack_counterexample",
    "Props.C109_rot90"
   ],
   "note": "Proved: every listed function reads an integer that means an axis as this axis (negative ones too, but for the functions with an unsigned argument), the checked functions refuse every other integer, defaults agree with NumPy; expand_dims and rot90 complete. Fails (proved): sort family and diff panic out of range, packbits/unpackbits/roll accept it, unsigned functions refuse negative axes, default of the method argsort, cumulative_sum without axis."
  },
  {
   "property": "C110",
   "status": "partial",
   "theorems": [
    "Props.C110_put_partial",
    "Props.C110_put_method_partial",
    "Props.C110_range",
    "Props.C110_values_counterexample",
    "Props.C110_index_counterexample",
    "Props.C110_refused_counterexample",
    "Props.C110_text_counterexample"
   ],
   "note": "Proved for real values (integers up to 2^53) into every numeric dtype, indices and values in any accepted form, function and method; out-of-range indices refused with nothing stored. Fails (proved): larger integers, complex values, float and string indices, numbers and tuples in the method, the array itself, arrays of strings; an empty list of values panics (C52)."
  },
  {
   "property": "C111",
   "status": "partial",
   "theorems": [
    "Props.C111_arrays_partial",
    "Props.C111_array_answers",
    "Props.C111_sides",
    "Props.C111_not_1d",
    "Props.C111_number_partial",
    "Props.C111_answers_counterexample",
    "Props.C111_large_counterexample",
    "Props.C111_order_counterexample"
   ],
   "note": "Proved for real dtypes when every element is exact in the common dtype (or at most 2^53) and nothing is NaN; shape of the answers, sides, NaN, complex and large integers differ from NumPy and are proved as counterexamples."
  },
  {
   "property": "C112",
   "status": "partial",
   "theorems": [
    "Props.C112_function",
    "Props.C112_function_dates",
    "Props.C112_method_partial",
    "Props.C112_lists",
    "Props.C112_complex_counterexample",
    "Props.C112_counterexample"
   ],
   "note": "Function proved for numbers, dates and durations of every layout and for lists of booleans; the method for real dtypes and lists; complex conditions of the method, surplus true entries and 2-d conditions differ from NumPy, with counterexamples."
  },
  {
   "property": "C113",
   "status": "partial",
   "theorems": [
    "Props.C113_lengths",
    "Props.C113_integers_partial",
    "Props.C113_floats",
    "Props.C113_scalar_integers_partial",
    "Props.C113_scalar_floats_partial",
    "Props.C113_dtype_counterexample",
    "Props.C113_integers_counterexample",
    "Props.C113_complex_counterexample"
   ],
   "note": "Integers exact while the magnitudes of the products sum to at most 2^53 and the result fits the first dtype; floats rounded step by step; 0-d operands for integer and float arrays. The dtype of the result, overflow, large integers and complex vectors differ from NumPy, with counterexamples."
  },
  {
   "property": "C114",
   "status": "partial",
   "theorems": [
    "Props.C114_rule",
    "Props.C114_fits_partial",
    "Props.C114_refused",
    "Props.C114_refuses",
    "Props.C114_arrays",
    "Props.C114_numbers_iff",
    "Props.C114_numbers_counterexample",
    "Props.C114_function",
    "Props.C114_large",
    "Props.C114_large_counterexample"
   ],
   "note": "result_type is the left-to-right promotion of the operands' dtypes and names the dtype of every result but a quotient for two real arrays. Partial: holding the operands' values is proved without 64-bit integers, and with a Python number the name agrees with array arithmetic only in the cases of C114_numbers_iff (counterexamples proved)."
  },
  {
   "property": "C115",
   "status": "partial",
   "theorems": [
    "Props.C115_one_iff",
    "Props.C115_args_iff",
    "Props.C115_new_iff",
    "Props.C115_method",
    "Props.C115_same",
    "Props.C115_function_partial",
    "Props.C115_function_counterexample"
   ],
   "note": "Every parser reads exactly the lengths written, all notations agree, and the method succeeds exactly on shapes that fit (C-contiguous arrays). Partial: the function agrees with the method without lengths below -1 (counterexample proved), with products below 2^63 and for C-contiguous arrays."
  },
  {
   "property": "C116",
   "status": "partial",
   "theorems": [
    "Props.C116_insert_partial",
    "Props.C116_array",
    "Props.C116_refused",
    "Props.C116_value_counterexample"
   ],
   "note": "integers beyond 2^53 and complex values in a one-element array change (C116_value_counterexample); values in another dtype, negative positions and axes are C12 and C44"
  },
  {
   "property": "C117",
   "status": "partial",
   "theorems": [
    "Props.C117_shares_partial",
    "Props.C117_whole",
    "Props.C117_no_is_safe",
    "Props.C117_seen",
    "Props.C117_new",
    "Props.C117_base",
    "Props.C117_view_has_base",
    "Props.C117_disjoint_counterexample",
    "Props.C117_base_counterexample"
   ],
   "note": "true also for disjoint views of one array (C117_disjoint_counterexample); base is wrong for owners with views and views of deleted arrays (C117_base_counterexample)"
  },
  {
   "property": "C118",
   "status": "partial",
   "theorems": [
    "Props.C118_reads",
    "Props.C118_injective",
    "Props.C118_numpy_partial",
    "Props.C118_singular_counterexample"
   ],
   "note": "1 and -1 are printed with the singular of the unit, NumPy takes the plural (C118_singular_counterexample); reading back and uniqueness are proved for all"
  },
  {
   "property": "C119",
   "status": "proved",
   "theorems": [
    "Props.C119_path",
    "Props.C119_accepts_iff",
    "Props.C119_einsum",
    "Props.C119_optimal_counterexample"
   ],
   "note": "that the path is valid and when there is one; the cost of the path is not optimal (C119_optimal_counterexample)"
  },
  {
   "property": "C120",
   "status": "partial",
   "theorems": [
    "Props.C120_factors",
    "Props.C120_angles_partial",
    "Props.C120_numbers",
    "Props.C120_counterexample"
   ],
   "note": "Arrays of rank 0 become vectors, complex arrays become 0.0, and small dtypes give float64, unlike NumPy."
  },
  {
   "property": "C121",
   "status": "partial",
   "theorems": [
    "Props.C121_histogram2d_partial",
    "Props.C121_histogram2d_refuses",
    "Props.C121_histogramdd_partial",
    "Props.C121_histogramdd_refuses_partial",
    "Props.C121_histogramdd_limits",
    "Props.C121_counterexample"
   ],
   "note": "Equal limits and NaN are left out, and histogramdd takes some arguments without a meaning."
  },
  {
   "property": "C122",
   "status": "partial",
   "theorems": [
    "Props.C122_floats_partial",
    "Props.C122_integers_partial",
    "Props.C122_counterexample"
   ],
   "note": "exp2 is computed by two library functions; the sign of NaN and integers above 2^53 differ."
  },
  {
   "property": "C123",
   "status": "partial",
   "theorems": [
    "Props.C123_rectangular",
    "Props.C123_consistent",
    "Props.C123_counterexample"
   ],
   "note": "Proved for lists; plain numbers are refused and ragged lists are flattened, unlike NumPy."
  },
  {
   "property": "C124",
   "status": "partial",
   "theorems": [
    "Props.C124_floats",
    "Props.C124_complex_partial",
    "Props.C124_integers_partial",
    "Props.C124_counterexample"
   ],
   "note": "Proved: every float dtype and layout (C124_floats); contiguous complex vectors (C124_complex_partial); integers up to 2^52 whose differences fit. Refuted: complex matrices, int8 overflow, unsigned matrices (C124_counterexample)."
  }
 ]
}